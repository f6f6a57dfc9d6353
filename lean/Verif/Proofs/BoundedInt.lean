import Verif.Spec.Target
import Verif.Model.BoundedInt
import Verif.Proofs.Iter
/-! Lemmas about bounded integers. -/

namespace Sqrid

theorem IntTy.builtin_lo_hi {t : IntTy} (h : t ∈ IntTy.builtin) : t.lo ≤ 0 ∧ 127 ≤ t.hi := by
  simp only [IntTy.builtin, List.mem_cons, List.not_mem_nil, or_false] at h
  rcases h with h | h | h | h | h | h | h | h | h | h <;> subst h <;> decide

namespace BTy

theorem WF.min_le_max {B : BTy} (h : B.WF) : B.MIN ≤ B.MAX := by
  cases B with
  | prim t => have := IntTy.builtin_lo_hi h; simp only [MIN, MAX]; omega
  | bounded t lo hi => exact h.2.2.1

theorem WF.valid_rep {B : BTy} (h : B.WF) {v : Int} (hv : B.Valid v) : B.base.Has v := by
  cases B with
  | prim t => exact hv
  | bounded t lo hi =>
    obtain ⟨_, h1, h2, h3⟩ := h
    obtain ⟨h4, h5⟩ := hv
    simp only [MIN, MAX] at h4 h5
    exact ⟨by simp only [base]; omega, by simp only [base]; omega⟩

theorem WF.base_builtin {B : BTy} (h : B.WF) : B.base ∈ IntTy.builtin := by
  cases B with
  | prim t => exact h
  | bounded t lo hi => exact h.1

theorem valid_bounded {t : IntTy} {lo hi v : Int} : (bounded t lo hi).Valid v ↔ lo ≤ v ∧ v ≤ hi := Iff.rfl

theorem filter_bounds {t : IntTy} {lo hi : Int} (h1 : t.lo ≤ lo) (h3 : hi ≤ t.hi) (v : Int) :
    (if t.Has v then some v else none : Option Int).filter (fun v => decide (lo ≤ v) && decide (v ≤ hi))
      = if (bounded t lo hi).Valid v then some v else none := by
  by_cases hv : (bounded t lo hi).Valid v
  · have hv' := valid_bounded.1 hv
    rw [if_pos hv, if_pos (show t.Has v from ⟨by omega, by omega⟩)]
    simp [hv'.1, hv'.2]
  · have hv' := mt valid_bounded.2 hv
    rw [if_neg hv]
    split
    · rw [Option.filter_some, if_neg (by simpa using hv')]
    · rfl

theorem checkedAdd_eq {B : BTy} (h : B.WF) (a b : Int) :
    B.checkedAdd a b = if B.Valid (a + b) then some (a + b) else none := by
  cases B with
  | prim t => rfl
  | bounded t lo hi => exact filter_bounds h.2.1 h.2.2.2 (a + b)

theorem checkedSub_eq {B : BTy} (h : B.WF) (a b : Int) :
    B.checkedSub a b = if B.Valid (a - b) then some (a - b) else none := by
  cases B with
  | prim t => rfl
  | bounded t lo hi => exact filter_bounds h.2.1 h.2.2.2 (a - b)

theorem inc_eq {B : BTy} (h : B.WF) (a : Int) :
    B.inc a = if B.Valid (a + 1) then some (a + 1) else none := checkedAdd_eq h a 1

theorem dec_eq {B : BTy} (h : B.WF) (a : Int) :
    B.dec a = if B.Valid (a - 1) then some (a - 1) else none := checkedSub_eq h a 1

theorem inc_some {B : BTy} (h : B.WF) {a : Int} (h1 : B.MIN ≤ a + 1) (h2 : a + 1 ≤ B.MAX) :
    B.inc a = some (a + 1) := by rw [inc_eq h, if_pos ⟨h1, h2⟩]

theorem inc_none {B : BTy} (h : B.WF) {a : Int} (h2 : B.MAX < a + 1) : B.inc a = none := by
  rw [inc_eq h, if_neg]; intro hv; simp only [Valid] at hv; omega

theorem dec_some {B : BTy} (h : B.WF) {a : Int} (h1 : B.MIN ≤ a - 1) (h2 : a - 1 ≤ B.MAX) :
    B.dec a = some (a - 1) := by rw [dec_eq h, if_pos ⟨h1, h2⟩]

theorem dec_none {B : BTy} (h : B.WF) {a : Int} (h2 : a - 1 < B.MIN) : B.dec a = none := by
  rw [dec_eq h, if_neg]; intro hv; simp only [Valid] at hv; omega

theorem new_eq (B : BTy) (v : Int) :
    B.new v = if B.Valid v then .ok v else .error .outOfBounds := by
  by_cases hv : B.Valid v
  · rw [if_pos hv, new, if_neg]; simp only [Valid] at hv; omega
  · rw [if_neg hv, new, if_pos]; simp only [Valid] at hv; omega

theorem tryFrom_eq {B : BTy} (h : B.WF) (v : Int) :
    B.tryFrom v = if B.Valid v then .ok v else .error .outOfBounds := by
  cases B with
  | prim t => rfl
  | bounded t lo hi =>
    obtain ⟨_, h1, h2, h3⟩ := h
    rw [tryFrom, IntTy.tryFrom]
    by_cases hh : t.Has v
    · rw [if_pos hh]; exact new_eq _ v
    · rw [if_neg hh, if_neg]
      intro hv
      have := valid_bounded.1 hv
      simp only [IntTy.Has] at hh; omega

/-- `BoundedIntIterator` over `MIN..=MAX` as an enumeration machine. -/
def machine (B : BTy) (h : B.WF) : EnumMachine BIter Int where
  st a b := ⟨a, b⟩
  next := BIter.next B
  nextBack := BIter.nextBack B
  P i := B.MIN + (i : Int)
  N := (B.MAX - B.MIN).toNat
  next_eq i j hij hj := by
    have := h.min_le_max
    simp only [BIter.next, Option.some.injEq]
    by_cases e : i = j
    · subst e; simp
    · rw [if_neg (by omega), if_neg e, inc_eq h, if_pos (by simp only [Valid]; omega)]
      simp; omega
  nextBack_eq i j hij hj := by
    have := h.min_le_max
    simp only [BIter.nextBack, Option.some.injEq]
    by_cases e : i = j
    · subst e; simp
    · rw [if_neg (by omega), if_neg e, dec_eq h, if_pos (by simp only [Valid]; omega)]
      simp; omega
  next_none := rfl
  nextBack_none := rfl

end BTy

end Sqrid
