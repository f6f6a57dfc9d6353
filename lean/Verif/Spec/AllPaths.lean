import Verif.Model.SetMap
import Verif.Spec.Search
/-! Keeping the directions that an iterator yields in a map, to get the paths to many destinations from one traversal. -/

namespace Sqrid

namespace Spec

/-- A program that uses the library: it starts with an empty map and sets each position to the direction that was yielded with it, also if it has one already. -/
def keepLast (M : MapImpl (Option Dir)) (items : List ((Int × Int) × Dir)) : Out M.σ :=
  items.foldlM (fun map item => M.set map item.1 (some item.2)) M.default

/-- Setting a position to a direction, unless it has one already. -/
def setFirst (M : MapImpl (Option Dir)) (map : M.σ) (item : (Int × Int) × Dir) : Out M.σ := do
  match ← M.get map item.1 with
  | none => M.set map item.1 (some item.2)
  | some _ => .ok map

/-- The same, for a program that sets only the positions which have no direction yet. -/
def keepFirst (M : MapImpl (Option Dir)) (items : List ((Int × Int) × Dir)) : Out M.σ := items.foldlM (setFirst M) M.default

end Spec

end Sqrid
