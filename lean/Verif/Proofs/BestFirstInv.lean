import Verif.Proofs.BestFirst
/-! Invariants of the best-first machine that hold for every mode and every heuristic. -/

namespace Sqrid

open Spec

/-- One weighted step in a direction of the mode. -/
def WEdge (go : WGo) (D : Bool) (u : P2) (d : Dir) (q : P2) (w : Int) : Prop := Allowed D d ∧ go u d = some (q, w)

/-- Invariant: `K` are the positions already popped, `f` the directions recorded for them. -/
structure GInv (go : WGo) (D : Bool) (INF : Int) (orig : P2) (K : P2 → Prop) (f : P2 → Option Dir) (s : BSt) : Prop where
  c_orig : s.c orig = 0
  c_nonneg : ∀ q, 0 ≤ s.c q
  c_le : ∀ q, s.c q ≤ INF
  walk : ∀ q, s.c q < INF → ∃ ds, IsCostPath go D orig ds q (s.c q)
  entry : ∀ e ∈ s.heap, s.c e.2.1 < INF ∧ (e.2.1 = orig ∨ ∃ u w, K u ∧ WEdge go D u (opposite e.2.2) e.2.1 w)
  found : ∀ q, s.c q < INF → K q ∨ ∃ e ∈ s.heap, e.2.1 = q
  relaxed : ∀ q, s.c q < INF → (∃ e ∈ s.heap, e.2.1 = q) ∨ ∀ d r w, WEdge go D q d r w → s.c r ≤ s.c q + w
  fin : ∀ q, K q → s.c q < INF
  from_some : ∀ q, K q → ∃ d, f q = some d ∧ (q = orig ∨ ∃ u w, K u ∧ WEdge go D u (opposite d) q w)

theorem GInv.init (go : WGo) (D : Bool) {INF : Int} (hINF : 0 < INF) (orig : P2) (f : P2 → Option Dir) :
    GInv go D INF orig (fun _ => False) f (BSt.init INF orig) := by
  have hc : ∀ q, (BSt.init INF orig).c q = if q = orig then 0 else INF := by
    intro q
    by_cases h : q = orig
    · subst h; simp [BSt.init, upd_same]
    · simp [BSt.init, upd_other _ _ h, h]
  have hfin : ∀ q, (BSt.init INF orig).c q < INF → q = orig := by
    intro q hq
    rw [hc] at hq
    by_contra h
    rw [if_neg h] at hq
    omega
  refine ⟨by rw [hc, if_pos rfl], fun q => ?_, fun q => ?_, fun q hq => ?_, fun e he => ?_, fun q hq => ?_, fun q hq => ?_, fun _ h => h.elim,
    fun _ h => h.elim⟩
  · rw [hc]; split <;> omega
  · rw [hc]; split <;> omega
  · have := hfin q hq
    subst this
    refine ⟨[], ?_⟩
    rw [hc, if_pos rfl]
    exact isCostPath_nil
  · simp only [BSt.init, List.mem_singleton] at he
    subst he
    exact ⟨by simp only; rw [hc, if_pos rfl]; exact hINF, .inl rfl⟩
  · exact .inr ⟨_, List.mem_singleton.2 rfl, (hfin q hq).symm⟩
  · exact .inl ⟨_, List.mem_singleton.2 rfl, (hfin q hq).symm⟩

/-- The state after popping and expanding `e`. -/
def BSt.after (go : WGo) (h : P2 → Int) (D : Bool) (c : P2 → Int) (e : Entry) (rest : List Entry) : BSt :=
  BSt.expand go h D e.2.1 { c, heap := rest }

theorem GInv.step {go : WGo} {h : P2 → Int} {D : Bool} {INF : Int} {orig : P2} {K : P2 → Prop} {f : P2 → Option Dir} {s : BSt}
    (hw : NonNeg go) (H : GInv go D INF orig K f s) {e : Entry} {rest : List Entry} (hp : Heap.pop s.heap = some (e, rest)) :
    GInv go D INF orig (fun q => K q ∨ q = e.2.1) (upd f e.2.1 (some e.2.2)) (BSt.after go h D s.c e rest) := by
  obtain ⟨hmem, -, hperm⟩ := Heap.pop_some hp
  have hin : ∀ x, x ∈ s.heap ↔ x = e ∨ x ∈ rest := fun x => by rw [hperm.mem_iff, List.mem_cons]
  have X := expand_spec h D e.2.1 { c := s.c, heap := rest } hw
  change ExpandedBy go h e.2.1 (clockwise D) { c := s.c, heap := rest } (BSt.after go h D s.c e rest) at X
  generalize BSt.after go h D s.c e rest = s' at X ⊢
  obtain ⟨l, hl, -, hnew⟩ := X.new
  simp only at hl
  have hpfin := (H.entry e hmem).1
  have hle := X.le
  simp only at hle
  -- the new cost of a position is the old one or that of a step from the popped one
  have hcost : ∀ q, s'.c q = s.c q ∨ s'.c q < s.c q ∧ (∃ e' ∈ s'.heap, e'.2.1 = q) ∧ ∃ d w, WEdge go D e.2.1 d q w ∧ s'.c q = s.c e.2.1 + w := by
    intro q
    by_cases hq : s'.c q < s.c q
    · obtain ⟨e', h1, h2, -, w, h4, h5, h6⟩ := X.dec q hq
      exact .inr ⟨hq, ⟨e', h1, h2⟩, _, w, ⟨mem_clockwise.1 h4, h5⟩, h6⟩
    · have := hle q
      exact .inl (by omega)
  have hnn : ∀ q, 0 ≤ s'.c q := by
    intro q
    rcases hcost q with h1 | ⟨-, -, d, w, ⟨-, h2⟩, h3⟩
    · rw [h1]; exact H.c_nonneg q
    · have := hw _ _ _ _ h2
      have := H.c_nonneg e.2.1
      omega
  have hkeep : ∀ q, (∃ x ∈ s.heap, x.2.1 = q) → q = e.2.1 ∨ ∃ x ∈ s'.heap, x.2.1 = q := by
    rintro q ⟨x, hx, rfl⟩
    rcases (hin x).1 hx with rfl | hx
    · exact .inl rfl
    · exact .inr ⟨x, by rw [hl]; simp [hx], rfl⟩
  refine ⟨?_, hnn, fun q => Int.le_trans (hle q) (H.c_le q), fun q hq => ?_, fun x hx => ?_, fun q hq => ?_, fun q hq => ?_, fun q hq => ?_,
    fun q hq => ?_⟩
  · have := hle orig
    rw [H.c_orig] at this
    have := hnn orig
    omega
  · rcases hcost q with h1 | ⟨-, -, d, w, h2, h3⟩
    · rw [h1] at hq ⊢; exact H.walk q hq
    · obtain ⟨ds, hds⟩ := H.walk _ hpfin
      exact ⟨ds ++ [d], h3 ▸ isCostPath_snoc hds h2.1 h2.2⟩
  · rw [hl, List.mem_append] at hx
    rcases hx with hx | hx
    · obtain ⟨w, h1, h2, h3, h4, h5⟩ := hnew x hx
      simp only at h4 h5
      refine ⟨?_, .inr ⟨e.2.1, w, .inr rfl, mem_clockwise.1 h1, h2⟩⟩
      have := H.c_le x.2.1
      omega
    · obtain ⟨h1, h2⟩ := H.entry x ((hin x).2 (.inr hx))
      refine ⟨Int.lt_of_le_of_lt (hle _) h1, ?_⟩
      rcases h2 with h2 | ⟨u, w, h2, h3⟩
      · exact .inl h2
      · exact .inr ⟨u, w, .inl h2, h3⟩
  · rcases hcost q with h1 | ⟨-, h1, -⟩
    · rw [h1] at hq
      rcases H.found q hq with h2 | h2
      · exact .inl (.inl h2)
      · rcases hkeep q h2 with h3 | h3
        · exact .inl (.inr h3)
        · exact .inr h3
    · exact .inr h1
  · have hpop : ∀ d r w, WEdge go D e.2.1 d r w → s'.c r ≤ s'.c e.2.1 + w := by
      intro d r w hd
      rw [X.self]
      exact X.edges d (mem_clockwise.2 hd.1) r w hd.2
    rcases hcost q with h1 | ⟨-, h1, -⟩
    · rw [h1] at hq
      rcases H.relaxed q hq with h2 | h2
      · rcases hkeep q h2 with rfl | h3
        · exact .inr hpop
        · exact .inl h3
      · refine .inr fun d r w hd => ?_
        rw [h1]
        exact Int.le_trans (hle r) (h2 d r w hd)
    · exact .inl h1
  · rcases hq with hq | rfl
    · exact Int.lt_of_le_of_lt (hle _) (H.fin q hq)
    · exact Int.lt_of_le_of_lt (hle _) hpfin
  · by_cases he : q = e.2.1
    · subst he
      refine ⟨e.2.2, upd_same _ _ _, ?_⟩
      rcases (H.entry e hmem).2 with h1 | ⟨u, w, h1, h2⟩
      · exact .inl h1
      · exact .inr ⟨u, w, .inl h1, h2⟩
    · obtain ⟨d, h1, h2⟩ := H.from_some q (hq.resolve_right he)
      refine ⟨d, by rw [upd_other _ _ he]; exact h1, ?_⟩
      rcases h2 with h2 | ⟨u, w, h2, h3⟩
      · exact .inl h2
      · exact .inr ⟨u, w, .inl h2, h3⟩

/-- When the heap is empty, every path cheaper than the limit leads to a popped position. -/
theorem GInv.complete {go : WGo} {D : Bool} {INF : Int} {orig : P2} {K : P2 → Prop} {f : P2 → Option Dir} {s : BSt} (hw : NonNeg go)
    (hINF : 0 < INF) (H : GInv go D INF orig K f s) (hs : s.heap = []) {ds : List Dir} {q : P2} {n : Int} (hds : IsCostPath go D orig ds q n)
    (hn : n < INF) : K q ∧ s.c q ≤ n := by
  have key : s.c q ≤ n := by
    induction ds using List.reverseRecOn generalizing q n with
    | nil =>
      have h1 := hds.1.2
      injection h1 with h1
      have h2 := hds.2
      injection h2 with h2
      rw [← h1, H.c_orig]
      omega
    | append_singleton ds d ih =>
      obtain ⟨r, m, w, h1, h2, h3, h4⟩ := isCostPath_concat hds
      have hw' := hw _ _ _ _ h3
      have h5 := ih h1 (by omega)
      rcases H.relaxed r (by omega) with ⟨e, he, -⟩ | h6
      · rw [hs] at he; cases he
      · have := h6 d q w ⟨h2, h3⟩
        omega
  refine ⟨?_, key⟩
  rcases H.found q (by omega) with h | ⟨e, he, -⟩
  · exact h
  · rw [hs] at he; cases he

end Sqrid
