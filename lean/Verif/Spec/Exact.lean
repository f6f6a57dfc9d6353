import Verif.Spec.Search
/-! Where one can be after an exact number of steps. -/

namespace Sqrid

namespace Spec

/-- Part of a program that uses the library: from the layers that are left, of which the first has the distance `k + 1`, it takes those up to the distance `n` whose distance
is even if `n` is, and odd if `n` is. -/
def everyOther (n : Nat) : Nat → List (List ((Int × Int) × Dir)) → List (Int × Int)
  | _, [] => []
  | k, layer :: layers => (if k + 1 ≤ n ∧ (k + 1) % 2 = n % 2 then layer.map Prod.fst else []) ++ everyOther n (k + 1) layers

/-- The program: the origin if `n` is even, and the positions of every other layer that a `bf_iter` from there yields. -/
def afterSteps (orig : Int × Int) (layers : List (List ((Int × Int) × Dir))) (n : Nat) : List (Int × Int) :=
  (if n % 2 = 0 then [orig] else []) ++ everyOther n 0 layers

end Spec

end Sqrid
