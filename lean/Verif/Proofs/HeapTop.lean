import Verif.Proofs.BestFirst
/-! Ties in the heap: of the entries with the same priority, one with the greatest position is taken out. -/

namespace Sqrid

/-- The order of the heap, without the directions. -/
def Heap.Top (e x : Entry) : Prop := e.1 < x.1 ∨ e.1 = x.1 ∧ (x.2.1.1 < e.2.1.1 ∨ x.2.1.1 = e.2.1.1 ∧ x.2.1.2 ≤ e.2.1.2)

theorem Heap.Top.rfl {e : Entry} : Heap.Top e e := by unfold Heap.Top; omega

theorem Heap.Top.trans {a b c : Entry} (h : Heap.Top a b) (h' : Heap.Top b c) : Heap.Top a c := by unfold Heap.Top at *; omega

theorem Heap.top_of_lt {a b : Entry} (h : Heap.lt a b = true) : Heap.Top b a := by
  simp only [Heap.lt, PosTy.lt, Bool.or_eq_true, Bool.and_eq_true, decide_eq_true_eq, beq_iff_eq, Prod.ext_iff] at h
  unfold Heap.Top
  omega

theorem Heap.top_of_not_lt {a b : Entry} (h : ¬ Heap.lt a b = true) : Heap.Top a b := by
  simp only [Heap.lt, PosTy.lt, Bool.or_eq_true, Bool.and_eq_true, decide_eq_true_eq, beq_iff_eq, Prod.ext_iff] at h
  unfold Heap.Top
  omega

theorem Heap.maxOf_top (e : Entry) (es : List Entry) : ∀ x ∈ e :: es, Heap.Top (Heap.maxOf e es) x := by
  unfold Heap.maxOf
  induction es generalizing e with
  | nil => intro x hx; rw [List.mem_singleton] at hx; subst hx; exact .rfl
  | cons a es ih =>
    intro x hx
    rw [List.foldl_cons]
    have ih' := ih (if Heap.lt e a then a else e)
    have h0 := ih' _ (by simp : (if Heap.lt e a then a else e) ∈ _)
    rcases List.mem_cons.1 hx with rfl | hx
    · refine h0.trans ?_
      split
      · rename_i h; exact Heap.top_of_lt h
      · exact .rfl
    rcases List.mem_cons.1 hx with rfl | hx
    · refine h0.trans ?_
      split
      · exact .rfl
      · rename_i h; exact Heap.top_of_not_lt h
    · exact ih' x (by simp [hx])

theorem Heap.pop_top {hp : List Entry} {e : Entry} {rest : List Entry} (h : Heap.pop hp = some (e, rest)) : ∀ x ∈ hp, Heap.Top e x := by
  cases hp with
  | nil => cases h
  | cons a l =>
    simp only [Heap.pop] at h
    injection h with h
    injection h with h1 h2
    subst h1
    exact Heap.maxOf_top a l

end Sqrid
