import Verif.Spec.Grid
/-! Words of C120. -/

namespace Sqrid.Spec

/-- How often an iterator yielded a position. -/
def times (q : Int × Int) (items : List ((Int × Int) × Dir)) : Nat := items.countP fun m => decide (m.1 = q)

/-- The number of directions of a mode. -/
def fan (D : Bool) : Nat := if D then 8 else 4

/-- How many positions of the plane are at most `m` steps away from one of them. -/
def ball (D : Bool) (m : Nat) : Nat := if D then (2 * m + 1) * (2 * m + 1) else m * m + (m + 1) * (m + 1)

end Sqrid.Spec
