import Verif.Spec.Grid
import Verif.Model.SetMap
/-!
# Specification of the collections of positions

`SetPos` and `MapPos` are public traits, so the searches can be used with collections of one's own. What the searches may expect of them:
-/

namespace Sqrid.Spec

/-- A correct set of positions of `T`: `mem s` are the positions in it; `good` are the sets that the operations make. -/
structure IsSet (T : PosTy) (I : SetImpl) (good : I.σ → Prop) (mem : I.σ → Int × Int → Prop) : Prop where
  default : good I.default ∧ ∀ q, InGrid T q → ¬ mem I.default q
  contains : ∀ s p, good s → InGrid T p → ∃ b, I.contains s p = .ok b ∧ (b = true ↔ mem s p)
  insert : ∀ s p, good s → InGrid T p → ∃ s', I.insert s p = .ok s' ∧ good s' ∧ ∀ q, InGrid T q → (mem s' q ↔ q = p ∨ mem s q)
  remove : ∀ s p, good s → InGrid T p → ∃ s', I.remove s p = .ok s' ∧ good s' ∧ ∀ q, InGrid T q → (mem s' q ↔ q ≠ p ∧ mem s q)

/-- A correct map from the positions of `T`: `Is s p v` says that `v` is the item of `p`. -/
structure IsMap (T : PosTy) (I : MapImpl Item) (good : I.σ → Prop) (Is : I.σ → Int × Int → Item → Prop) : Prop where
  new : ∀ v, good (I.new v) ∧ ∀ q, InGrid T q → Is (I.new v) q v
  get : ∀ s p, good s → InGrid T p → ∃ v, I.get s p = .ok v ∧ ∀ w, Is s p w ↔ w = v
  set : ∀ s p v, good s → InGrid T p → ∃ s', I.set s p v = .ok s' ∧ good s' ∧
    Is s' p v ∧ ∀ q w, InGrid T q → q ≠ p → (Is s' q w ↔ Is s q w)

end Sqrid.Spec
