import Verif.Spec.Target
import Verif.Proofs.Paths
import Verif.Model.Heap
/-! The best-first search that `astar.rs` and `ucs.rs` share, as a pure machine: `c` is the cost recorded for each position. -/

namespace Sqrid

open Spec

abbrev WGo := P2 → Dir → Option (P2 × Int)

/-! ### The heap -/

theorem Heap.maxOf_mem (e : Entry) (es : List Entry) : Heap.maxOf e es ∈ e :: es := by
  unfold Heap.maxOf
  induction es generalizing e with
  | nil => simp
  | cons a es ih =>
    rw [List.foldl_cons]
    have := ih (if Heap.lt e a then a else e)
    rcases List.mem_cons.1 this with h | h
    · rw [h]; split <;> simp
    · simp [h]

theorem Heap.lt_prio {a b : Entry} (h : Heap.lt a b = true) : b.1 ≤ a.1 := by
  simp only [Heap.lt, Bool.or_eq_true, Bool.and_eq_true, decide_eq_true_eq] at h
  omega

theorem Heap.not_lt_prio {a b : Entry} (h : Heap.lt a b ≠ true) : a.1 ≤ b.1 := by
  by_contra hlt
  refine h ?_
  simp only [Heap.lt, Bool.or_eq_true, decide_eq_true_eq]
  omega

theorem Heap.maxOf_le (e : Entry) (es : List Entry) : ∀ x ∈ e :: es, (Heap.maxOf e es).1 ≤ x.1 := by
  unfold Heap.maxOf
  induction es generalizing e with
  | nil => intro x hx; rw [List.mem_singleton] at hx; subst hx; exact Int.le_refl _
  | cons a es ih =>
    intro x hx
    rw [List.foldl_cons]
    have ih' := ih (if Heap.lt e a then a else e)
    have h0 := ih' _ (by simp : (if Heap.lt e a then a else e) ∈ _)
    rcases List.mem_cons.1 hx with rfl | hx
    · refine Int.le_trans h0 ?_
      split
      · rename_i h; exact Heap.lt_prio h
      · exact Int.le_refl _
    rcases List.mem_cons.1 hx with rfl | hx
    · refine Int.le_trans h0 ?_
      split
      · exact Int.le_refl _
      · rename_i h; exact Heap.not_lt_prio h
    · exact ih' x (by simp [hx])

/-- What `pop` does: it takes an element of least priority number. -/
theorem Heap.pop_some {hp : List Entry} {e : Entry} {rest : List Entry} (h : Heap.pop hp = some (e, rest)) :
    e ∈ hp ∧ (∀ x ∈ hp, e.1 ≤ x.1) ∧ hp.Perm (e :: rest) := by
  cases hp with
  | nil => cases h
  | cons a l =>
    simp only [Heap.pop] at h
    injection h with h
    injection h with h1 h2
    subst h1 h2
    exact ⟨Heap.maxOf_mem a l, Heap.maxOf_le a l, List.perm_cons_erase (Heap.maxOf_mem a l)⟩

theorem Heap.pop_none {hp : List Entry} (h : Heap.pop hp = none) : hp = [] := by
  cases hp with
  | nil => rfl
  | cons a l => cases h

/-! ### The machine -/

structure BSt where
  c : P2 → Int
  heap : List Entry

def BSt.relax (go : WGo) (h : P2 → Int) (p : P2) (s : BSt) (d : Dir) : BSt :=
  match go p d with
  | none => s
  | some (q, w) =>
    if s.c p + w < s.c q then { c := upd s.c q (s.c p + w), heap := (s.c p + w + h q, q, opposite d) :: s.heap } else s

def BSt.expand (go : WGo) (h : P2 → Int) (D : Bool) (p : P2) (s : BSt) : BSt := (clockwise D).foldl (BSt.relax go h p) s

def BSt.init (INF : Int) (orig : P2) : BSt := { c := upd (fun _ => INF) orig 0, heap := [(0, orig, Dir.N)] }

/-- The loop of the searches. -/
def BSt.search (go : WGo) (h : P2 → Int) (D : Bool) (dest : P2) : Nat → BSt → (P2 → Option Dir) → Out (Res (P2 → Option Dir))
  | 0, _, _ => .timeout
  | n + 1, s, f => match Heap.pop s.heap with
    | none => .ok (.error .destinationUnreachable)
    | some (e, rest) =>
      if e.2.1 = dest then .ok (.ok (upd f e.2.1 (some e.2.2)))
      else BSt.search go h D dest n (BSt.expand go h D e.2.1 { s with heap := rest }) (upd f e.2.1 (some e.2.2))

/-- Costs are not negative. -/
def NonNeg (go : WGo) : Prop := ∀ p d q w, go p d = some (q, w) → 0 ≤ w

/-- What expanding `p` does, after the directions `ds`. -/
structure ExpandedBy (go : WGo) (h : P2 → Int) (p : P2) (ds : List Dir) (s s' : BSt) : Prop where
  le : ∀ q, s'.c q ≤ s.c q
  self : s'.c p = s.c p
  edges : ∀ d ∈ ds, ∀ q w, go p d = some (q, w) → s'.c q ≤ s.c p + w
  new : ∃ l : List Entry, s'.heap = l ++ s.heap ∧ l.length ≤ ds.length ∧ ∀ e ∈ l, ∃ w, opposite e.2.2 ∈ ds ∧
    go p (opposite e.2.2) = some (e.2.1, w) ∧ e.1 = s.c p + w + h e.2.1 ∧ s'.c e.2.1 ≤ s.c p + w ∧ s.c p + w < s.c e.2.1
  dec : ∀ q, s'.c q < s.c q → ∃ e ∈ s'.heap, e.2.1 = q ∧ e.1 = s'.c q + h q ∧
    ∃ w, opposite e.2.2 ∈ ds ∧ go p (opposite e.2.2) = some (q, w) ∧ s'.c q = s.c p + w

theorem ExpandedBy.nil (go : WGo) (h : P2 → Int) (p : P2) (s : BSt) : ExpandedBy go h p [] s s where
  le _ := Int.le_refl _
  self := rfl
  edges d hd := absurd hd List.not_mem_nil
  new := ⟨[], rfl, Nat.le_refl _, fun e he => absurd he List.not_mem_nil⟩
  dec q hq := absurd hq (by omega)

theorem ExpandedBy.step {go : WGo} {h : P2 → Int} {p : P2} {ds : List Dir} {s s1 : BSt} (hw : NonNeg go) (H : ExpandedBy go h p ds s s1) (d : Dir) :
    ExpandedBy go h p (ds ++ [d]) s (BSt.relax go h p s1 d) := by
  have hkeep : (∀ q w, go p d = some (q, w) → s1.c q ≤ s.c p + w) → ExpandedBy go h p (ds ++ [d]) s s1 := by
    intro hd
    refine ⟨H.le, H.self, fun d' hd' q w hg => ?_, ?_, fun q hq => ?_⟩
    · rcases List.mem_append.1 hd' with hd' | hd'
      · exact H.edges d' hd' q w hg
      · rw [List.mem_singleton] at hd'; subst hd'; exact hd q w hg
    · obtain ⟨l, h1, h2, h3⟩ := H.new
      refine ⟨l, h1, by simp; omega, fun e he => ?_⟩
      obtain ⟨w, a, b⟩ := h3 e he
      exact ⟨w, by simp [a], b⟩
    · obtain ⟨e, h1, h2, h3, w, h4, h5⟩ := H.dec q hq
      exact ⟨e, h1, h2, h3, w, by simp [h4], h5⟩
  unfold BSt.relax
  cases hg : go p d with
  | none => exact hkeep (fun q w h => by rw [hg] at h; cases h)
  | some qw =>
    obtain ⟨q, w⟩ := qw
    simp only
    split
    swap
    · rename_i hlt
      refine hkeep (fun q' w' hg' => ?_)
      rw [hg] at hg'
      injection hg' with hg'
      injection hg' with e1 e2
      subst e1 e2
      rw [H.self] at hlt
      omega
    · rename_i hlt
      have hwn := hw p d q w hg
      have hne : p ≠ q := by rintro rfl; omega
      rw [H.self] at hlt ⊢
      have hle := H.le q
      have hle' : ∀ r, upd s1.c q (s.c p + w) r ≤ s1.c r := by
        intro r
        by_cases hr : r = q
        · subst hr; rw [upd_same]; omega
        · rw [upd_other _ _ hr]
      refine ⟨fun r => Int.le_trans (hle' r) (H.le r), ?_, fun d' hd' q' w' hg' => ?_, ?_, fun r hr => ?_⟩
      · simp only; rw [upd_other _ _ hne, H.self]
      · rcases List.mem_append.1 hd' with hd' | hd'
        · exact Int.le_trans (hle' q') (H.edges d' hd' q' w' hg')
        · rw [List.mem_singleton] at hd'
          subst hd'
          rw [hg] at hg'
          injection hg' with hg'
          injection hg' with e1 e2
          subst e1 e2
          simp only
          rw [upd_same]
      · obtain ⟨l, h1, h2, h3⟩ := H.new
        refine ⟨(s.c p + w + h q, q, opposite d) :: l, by simp [h1], by simp; omega, fun e he => ?_⟩
        rcases List.mem_cons.1 he with rfl | he
        · refine ⟨w, by simp [opposite_opposite], by simpa only [opposite_opposite] using hg, rfl, ?_, by simp only; omega⟩
          simp only
          rw [upd_same]
        · obtain ⟨w', a1, a2, a3, a4, a5⟩ := h3 e he
          exact ⟨w', by simp [a1], a2, a3, Int.le_trans (hle' _) a4, a5⟩
      · simp only at hr ⊢
        by_cases hrq : r = q
        · subst hrq
          refine ⟨_, List.mem_cons_self, rfl, ?_, w, ?_, ?_, ?_⟩
          · simp only; rw [upd_same]
          · simp [opposite_opposite]
          · simpa only [opposite_opposite] using hg
          · rw [upd_same]
        · rw [upd_other _ _ hrq] at hr ⊢
          obtain ⟨e, h1, h2, h3, w', h4, h5⟩ := H.dec r hr
          exact ⟨e, List.mem_cons_of_mem _ h1, h2, h3, w', by simp [h4], h5⟩

theorem expand_spec {go : WGo} (h : P2 → Int) (D : Bool) (p : P2) (s : BSt) (hw : NonNeg go) :
    ExpandedBy go h p (clockwise D) s (BSt.expand go h D p s) := by
  unfold BSt.expand
  induction clockwise D using List.reverseRecOn with
  | nil => exact .nil go h p s
  | append_singleton ds d ih => rw [List.foldl_append]; exact ih.step hw d

/-! ### Weighted paths -/

section
variable {go : WGo} {D : Bool} {p q r : P2}

theorem pathCost_append (as bs : List Dir) (p : P2) :
    pathCost go p (as ++ bs) = (follow (dropCost go) p as).bind fun q => (pathCost go p as).bind fun a => (pathCost go q bs).map fun b => a + b := by
  induction as generalizing p with
  | nil => simp [pathCost, follow]
  | cons a as ih =>
    simp only [List.cons_append, pathCost, follow, dropCost]
    cases hg : go p a with
    | none => rfl
    | some qw =>
      obtain ⟨q, w⟩ := qw
      simp only [Option.map_some]
      rw [ih]
      change ((follow (dropCost go) q as).bind _).map _ = (follow (dropCost go) q as).bind _
      cases follow (dropCost go) q as with
      | none => rfl
      | some r =>
        simp only [Option.bind_some]
        cases pathCost go q as with
        | none => rfl
        | some x =>
          simp only [Option.map_some, Option.bind_some]
          cases pathCost go r bs with
          | none => rfl
          | some y => simp only [Option.map_some]; congr 1; omega

theorem isCostPath_nil : IsCostPath go D p [] p 0 := ⟨isPath_nil, rfl⟩

theorem isCostPath_snoc {ds : List Dir} {d : Dir} {n w : Int} (h : IsCostPath go D p ds q n) (hd : Allowed D d) (hg : go q d = some (r, w)) :
    IsCostPath go D p (ds ++ [d]) r (n + w) := by
  refine ⟨isPath_append h.1 (isPath_single hd (by simp [dropCost, hg])), ?_⟩
  rw [pathCost_append, h.1.2, h.2]
  simp [pathCost, hg]

theorem isCostPath_concat {ds : List Dir} {d : Dir} {n : Int} (h : IsCostPath go D p (ds ++ [d]) q n) :
    ∃ r m w, IsCostPath go D p ds r m ∧ Allowed D d ∧ go r d = some (q, w) ∧ n = m + w := by
  obtain ⟨h1, h2⟩ := h
  obtain ⟨r, h3, h4, h5⟩ := isPath_concat h1
  rw [pathCost_append, h3.2] at h2
  simp only [dropCost, Option.map_eq_some_iff] at h5
  obtain ⟨⟨q', w⟩, h6, h7⟩ := h5
  simp only at h7
  subst h7
  simp only [Option.bind_some] at h2
  cases hm : pathCost go p ds with
  | none => rw [hm] at h2; cases h2
  | some m =>
    rw [hm] at h2
    simp [pathCost, h6] at h2
    exact ⟨r, m, w, ⟨h3, hm⟩, h4, h6, h2.symm⟩

theorem isCostPath_nonneg {ds : List Dir} {n : Int} (hw : NonNeg go) (h : IsCostPath go D p ds q n) : 0 ≤ n := by
  induction ds using List.reverseRecOn generalizing q n with
  | nil => have := h.2; injection this with e; omega
  | append_singleton ds d ih =>
    obtain ⟨r, m, w, h1, -, h3, h4⟩ := isCostPath_concat h
    have := ih h1
    have := hw _ _ _ _ h3
    omega

/-- A path has a cost. -/
theorem isPath_cost {ds : List Dir} (h : IsPath (dropCost go) D p ds q) : ∃ n, IsCostPath go D p ds q n := by
  induction ds using List.reverseRecOn generalizing q with
  | nil => exact ⟨0, h, rfl⟩
  | append_singleton ds d ih =>
    obtain ⟨r, h1, h2, h3⟩ := isPath_concat h
    obtain ⟨n, h4⟩ := ih h1
    simp only [dropCost, Option.map_eq_some_iff] at h3
    obtain ⟨⟨q', w⟩, h6, h7⟩ := h3
    simp only at h7
    subst h7
    exact ⟨n + w, isCostPath_snoc h4 h2 h6⟩

end

end Sqrid
