import Verif.Spec.Target
import Verif.Model.Iter
/-!
# Specification vocabulary: double-ended iteration over a list
-/

namespace Sqrid.Spec

open Sqrid

/-- What an ideal double-ended iterator over the list `l` answers to a schedule of calls: `front`
takes the first remaining item, `back` the last remaining one, `none` when nothing remains. -/
def dequeRun : List End → List α → List (Option α)
  | [], _ => []
  | .front :: es, l => l.head? :: dequeRun es l.tail
  | .back :: es, l => l.getLast? :: dequeRun es l.dropLast

/-- The integers from `lo` to `hi`, both included, in increasing order. -/
def intsFromTo (lo hi : Int) : List Int :=
  (List.range (hi - lo + 1).toNat).map fun i : Nat => lo + (i : Int)

end Sqrid.Spec
