import Verif.Spec.Grid
/-!
# Specification vocabulary: boolean grids
-/

namespace Sqrid.Spec

/-- The writing operations of a `Gridbool`. -/
inductive GbOp where
  /-- `set(p, value)` -/
  | set (p : Int × Int) (value : Bool)
  /-- `set_t(p)` -/
  | setT (p : Int × Int)
  /-- `set_f(p)` -/
  | setF (p : Int × Int)
  /-- `set_iter_t(positions)` -/
  | setIterT (ps : List (Int × Int))
  /-- `set_iter_f(positions)` -/
  | setIterF (ps : List (Int × Int))

/-- The writes an operation stands for, in order. -/
def GbOp.writes : GbOp → List ((Int × Int) × Bool)
  | .set p value => [(p, value)]
  | .setT p => [(p, true)]
  | .setF p => [(p, false)]
  | .setIterT ps => ps.map fun p => (p, true)
  | .setIterF ps => ps.map fun p => (p, false)

end Sqrid.Spec
