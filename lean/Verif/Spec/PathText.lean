import Verif.Model.PosT
import Verif.Spec.Search
/-! Writing a path as a text and reading it back. -/

namespace Sqrid

namespace Spec

/-- A program that uses the library: `path.iter().map(Dir::name_…).collect::<String>()`, for one of the functions that name a direction. A string is its list of `char`s. -/
def writePath (name : Dir → Out (List Char)) : List Dir → Out (List Char)
  | [] => .ok []
  | d :: ds => do
    let s ← name d
    let rest ← writePath name ds
    .ok (s ++ rest)

/-- Another: `text.chars().map(Dir::try_from).collect::<Result<Vec<Dir>, Error>>()`. `collect` stops at the first error. -/
def readPath : List Char → Res (List Dir)
  | [] => .ok []
  | c :: cs =>
    match Dir.ofChar c with
    | .error e => .error e
    | .ok d =>
      match readPath cs with
      | .error e => .error e
      | .ok ds => .ok (d :: ds)

/-- Another: `words.iter().map(|w| w.parse()).collect::<Result<Vec<Dir>, Error>>()`, for a text that has been split into words. -/
def readWords : List (List Char) → Res (List Dir)
  | [] => .ok []
  | w :: ws =>
    match Dir.fromStr w with
    | .error e => .error e
    | .ok d =>
      match readWords ws with
      | .error e => .error e
      | .ok ds => .ok (d :: ds)

/-- The steps along the axes that a step consists of: first north or south, then east or west. -/
def alongAxes : Dir → List Dir
  | .N => [.N]
  | .NE => [.N, .E]
  | .E => [.E]
  | .SE => [.S, .E]
  | .S => [.S]
  | .SW => [.S, .W]
  | .W => [.W]
  | .NW => [.N, .W]

end Spec

end Sqrid
