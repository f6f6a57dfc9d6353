import Verif.Model.Gridbool
import Verif.Spec.Around
/-! Cellular automata on a `Gridbool`, such as Conway's game of life. -/

namespace Sqrid

namespace Spec

/-- A program that uses the library: it counts around the positions of `iter_t`, with a map, then goes through `P::iter()` and collects into a new `Gridbool` the positions for
which the rule says so. -/
def lifeStep [Target] (T : PosTy) (WORDS : Nat) (C : MapImpl Int) (D : Bool) (rule : Bool → Int → Bool) (gb : List (BitVec 32)) : Out (List (BitVec 32)) := do
  let alive ← Gridbool.iterT T gb
  let counts ← tally T C D alive (C.new 0)
  let ps ← PosIter.toList T true
  let next ← Gridbool.filterOut (fun p => do
    let b ← Gridbool.get T gb p
    let n ← C.get counts p
    .ok (rule b n)) ps
  Gridbool.fromPositions T WORDS next

/-- `n` such steps. -/
def lifeSteps [Target] (T : PosTy) (WORDS : Nat) (C : MapImpl Int) (D : Bool) (rule : Bool → Int → Bool) (gb : List (BitVec 32)) : Nat → Out (List (BitVec 32))
  | 0 => .ok gb
  | n + 1 => do
    let gb ← lifeSteps T WORDS C D rule gb n
    lifeStep T WORDS C D rule gb

/-- How many positions of the grid next to `p` are alive: at Manhattan distance one without diagonals, and at Chebyshev distance one with them. -/
def aliveAround (T : PosTy) (D : Bool) (alive : Int × Int → Bool) (p : Int × Int) : Int :=
  (((allPositions T true).filter fun q => decide ((if D then linf p q else l1 p q) = 1) && alive q).length : Int)

/-- The automaton itself: which positions are alive after `n` steps. -/
def evolve (T : PosTy) (D : Bool) (rule : Bool → Int → Bool) (alive : Int × Int → Bool) : Nat → Int × Int → Bool
  | 0 => alive
  | n + 1 => fun p => rule (evolve T D rule alive n p) (aliveAround T D (evolve T D rule alive n) p)

/-- Conway's rule. -/
def conway (b : Bool) (n : Int) : Bool := decide (n = 3) || b && decide (n = 2)

end Spec

end Sqrid
