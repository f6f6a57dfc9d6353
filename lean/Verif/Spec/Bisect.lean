import Verif.Spec.Search
import Verif.Model.Prim
/-! Finding, by bisection, the first of some walls that cuts off a destination. -/

namespace Sqrid

namespace Spec

/-- A search says that the destination cannot be reached. -/
def unreachable {α : Type} : Res α → Bool
  | .error .destinationUnreachable => true
  | _ => false

/-- A program that uses the library: `while lo < hi { let m = (lo + hi) / 2; if blocked(m) { hi = m } else { lo = m + 1 } }`, at most so many times; it returns `lo`
and how often it has called `blocked`, or `timeout` if that is not enough. -/
def bisect (blocked : Nat → Out Bool) : Nat → Nat → Nat → Out (Nat × Nat)
  | times, lo, hi =>
    if lo < hi then
      match times with
      | 0 => .timeout
      | times + 1 => do
        let (n, calls) ← if ← blocked ((lo + hi) / 2) then bisect blocked times lo ((lo + hi) / 2) else bisect blocked times ((lo + hi) / 2 + 1) hi
        .ok (n, calls + 1)
    else .ok (lo, 0)

/-- The positions that a path enters, one after the other. -/
def entered : Int × Int → List Dir → List (Int × Int)
  | _, [] => []
  | p, d :: ds => neighbour p d :: entered (neighbour p d) ds

/-- Another program: it puts up the walls `left` one after the other, after the walls `up`, and searches anew only if the wall is on the path it has. It returns how many walls
are up when a search fails, or one more than there are. -/
def putUp (search : List (Int × Int) → Out (Res (List Dir))) (orig : Int × Int) (up : List (Int × Int)) : List (Int × Int) → List Dir → Out Nat
  | [], _ => .ok (up.length + 1)
  | wall :: left, path =>
    if wall ∈ entered orig path then do
      match ← search (up ++ [wall]) with
      | .ok path => putUp search orig (up ++ [wall]) left path
      | .error _ => .ok (up.length + 1)
    else putUp search orig (up ++ [wall]) left path

/-- The number that is sought: with the first `n` walls the destination is cut off, and with fewer it is not; one more than there are walls, if it never is. -/
def FirstCut (T : PosTy) (D : Bool) (orig dest : Int × Int) (walls : List (Int × Int)) (n : Nat) : Prop :=
  n ≤ walls.length + 1 ∧ ∀ m ≤ walls.length, Reachable (aroundWalls T (walls.take m)) D orig dest ↔ m < n

end Spec

end Sqrid
