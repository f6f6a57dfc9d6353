import Verif.Model.Gridbool
import Verif.Spec.Display
/-! Reading a map of `#` and `.` from a text. -/

namespace Sqrid

namespace Spec

/-- The characters of a text that stand for positions. -/
def marks (text : List Char) : List Char := text.filter fun c => decide (c = '#') || decide (c = '.')

/-- A program that uses the library: `text.chars().filter(|c| "#.".contains(*c)).map(|c| c == '#').collect::<Gridbool>()`. -/
def readMap [Target] (T : PosTy) (WORDS : Nat) (text : List Char) : Out (List (BitVec 32)) :=
  Gridbool.fromBools T WORDS ((marks text).map fun c => decide (c = '#'))

end Spec

end Sqrid
