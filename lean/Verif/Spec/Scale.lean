import Verif.Spec.Search
/-! Words of C121. -/

namespace Sqrid.Spec

/-- The movement function `go`, each step `k` times as expensive. -/
def scaleCost (k : Int) (go : Int × Int → Dir → Option ((Int × Int) × Int)) (p : Int × Int) (d : Dir) : Option ((Int × Int) × Int) :=
  (go p d).map fun x => (x.1, k * x.2)

end Sqrid.Spec
