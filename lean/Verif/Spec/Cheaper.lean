import Verif.Spec.Search
/-!
# Specification: cheaper steps
-/

namespace Sqrid.Spec

/-- Every step of `go` is a step of `go'`, to the same position, at a cost that is not higher. -/
def NotDearer (go' go : Int × Int → Dir → Option ((Int × Int) × Int)) : Prop :=
  ∀ p d q w, go p d = some (q, w) → ∃ w', go' p d = some (q, w') ∧ w' ≤ w

end Sqrid.Spec
