import Verif.Model.Dir
import Verif.Model.PosT
/-!
# Model of `BinaryHeap<(Reverse<usize>, (P, Dir))>` (std), used by astar.rs and ucs.rs

A heap is the list of its elements, in no relevant order. `pop` removes one of the greatest elements: the order is total, so that elements that compare equal
are identical and the choice does not matter.
-/

namespace Sqrid

/-- An element of the frontier: priority, position, direction. -/
abbrev Entry := Int × (Int × Int) × Dir

namespace Heap

/-- `a < b` in the derived order of `(Reverse<usize>, (P, Dir))`: the priority is reversed, then the position, then the direction. -/
def lt (a b : Entry) : Bool :=
  decide (b.1 < a.1) ||
    (decide (a.1 = b.1) && (PosTy.lt a.2.1 b.2.1 || (decide (a.2.1 = b.2.1) && Dir.lt a.2.2 b.2.2)))

/-- The greatest of `e` and the elements of a list. -/
def maxOf (e : Entry) (es : List Entry) : Entry := es.foldl (fun m e => if lt m e then e else m) e

/-- `BinaryHeap::pop`. -/
def pop : List Entry → Option (Entry × List Entry)
  | [] => none
  | e :: es => some (maxOf e es, (e :: es).erase (maxOf e es))

/-- `BinaryHeap::push`. -/
def push (h : List Entry) (e : Entry) : List Entry := e :: h

end Heap

end Sqrid
