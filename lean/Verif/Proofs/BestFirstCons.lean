import Verif.Proofs.BestFirstInv
/-! Invariants of the best-first machine with a consistent heuristic: the cost recorded for a popped position is the true one. -/

namespace Sqrid

open Spec

/-- `h` is consistent on the positions that can be reached. -/
def Consistent (go : WGo) (D : Bool) (orig : P2) (h : P2 → Int) : Prop :=
  ∀ ds n u d r w, IsCostPath go D orig ds u n → WEdge go D u d r w → h u ≤ w + h r

/-- Invariant: `t q` is the rank at which `q` was first popped (0: not yet), `F` bounds the priorities popped so far. -/
structure CInv (go : WGo) (h : P2 → Int) (D : Bool) (INF : Int) (orig : P2) (t : P2 → Nat) (n : Nat) (F : Int) (f : P2 → Option Dir) (s : BSt) :
    Prop where
  g : GInv go D INF orig (fun q => 1 ≤ t q) f s
  t_le : ∀ q, t q ≤ n
  k_orig : 1 ≤ t orig
  entry : ∀ e ∈ s.heap, e.2.1 ≠ orig ∧ s.c e.2.1 + h e.2.1 ≤ e.1 ∧ ∃ u w, 1 ≤ t u ∧ WEdge go D u (opposite e.2.2) e.2.1 w ∧
    e.1 = s.c u + w + h e.2.1 ∧ (1 ≤ t e.2.1 → t u < t e.2.1)
  unpopped : ∀ q, s.c q < INF → t q = 0 → ∃ e ∈ s.heap, e.2.1 = q ∧ e.1 = s.c q + h q
  closed : ∀ u, 1 ≤ t u → ∀ d r w, WEdge go D u d r w → s.c r ≤ s.c u + w
  le_F : ∀ u, 1 ≤ t u → s.c u + h u ≤ F
  F_le : ∀ e ∈ s.heap, F ≤ e.1
  back : ∀ q, 1 ≤ t q → q ≠ orig → ∃ d u w, f q = some d ∧ 1 ≤ t u ∧ t u < t q ∧ WEdge go D u (opposite d) q w ∧ s.c u + w + h q ≤ F
  opt : ∀ q, 1 ≤ t q → ∀ ds m, IsCostPath go D orig ds q m → s.c q ≤ m

theorem clockwise_length_le (D : Bool) : (clockwise D).length ≤ 8 := by cases D <;> decide

theorem upd_pos {t : P2 → Nat} {p : P2} {n : Nat} (q : P2) : 1 ≤ upd t p (n + 1) q ↔ 1 ≤ t q ∨ q = p := by
  by_cases h : q = p
  · subst h; rw [upd_same]; simp
  · rw [upd_other _ _ h]; simp [h]

theorem Heap.pop_single (e : Entry) : Heap.pop [e] = some (e, []) := by simp [Heap.pop, Heap.maxOf]

/-- The state after the origin has been popped and expanded. -/
theorem CInv.init {go : WGo} {h : P2 → Int} {D : Bool} {INF : Int} (hINF : 0 < INF) {orig : P2} (hw : NonNeg go)
    (hc : Consistent go D orig h) (f : P2 → Option Dir) :
    CInv go h D INF orig (upd (fun _ => 0) orig 1) 1 (h orig) (upd f orig (some Dir.N))
        (BSt.after go h D (BSt.init INF orig).c (0, orig, Dir.N) []) ∧
      (BSt.after go h D (BSt.init INF orig).c (0, orig, Dir.N) []).heap.length ≤ 8 := by
  have G := (GInv.init go D hINF orig f).step (h := h) (e := (0, orig, Dir.N)) (rest := []) hw (Heap.pop_single _)
  have hK : (fun q => False ∨ q = orig) = fun q => 1 ≤ upd (fun _ => 0) orig 1 q := by
    funext q
    refine propext ?_
    rw [upd_pos]
    simp
  simp only at G
  rw [hK] at G
  have X := expand_spec h D orig { c := (BSt.init INF orig).c, heap := [] } hw
  change ExpandedBy go h orig (clockwise D) _ (BSt.after go h D (BSt.init INF orig).c (0, orig, Dir.N) []) at X
  generalize BSt.after go h D (BSt.init INF orig).c (0, orig, Dir.N) [] = s' at X G ⊢
  obtain ⟨l, hl, hlen, hnew⟩ := X.new
  simp only [List.append_nil] at hl
  have h0 : (BSt.init INF orig).c orig = 0 := by simp [BSt.init, upd_same]
  have ho : ∀ q, 1 ≤ upd (fun _ : P2 => (0 : Nat)) orig 1 q ↔ q = orig := by intro q; rw [upd_pos]; simp
  refine ⟨⟨G, fun q => ?_, by rw [ho], fun e he => ?_, fun q hq ht => ?_, fun u hu d r w hd => ?_, fun u hu => ?_, fun e he => ?_, fun q hq hne => ?_,
    fun q hq ds m hm => ?_⟩, ?_⟩
  · by_cases hq : q = orig
    · subst hq; rw [upd_same]
    · rw [upd_other _ _ hq]; omega
  · rw [hl] at he
    obtain ⟨w, h1, h2, h3, h4, h5⟩ := hnew e he
    simp only [h0] at h3 h4 h5
    have := hw _ _ _ _ h2
    have hne : e.2.1 ≠ orig := by
      intro heq
      rw [heq, h0] at h5
      omega
    refine ⟨hne, by omega, orig, w, (ho _).2 rfl, ⟨mem_clockwise.1 h1, h2⟩, by rw [G.c_orig, h3], fun hk => absurd ((ho _).1 hk) hne⟩
  · have hne : q ≠ orig := fun heq => by
      have := (ho q).2 heq
      omega
    have : (BSt.init INF orig).c q = INF := by simp [BSt.init, upd_other _ _ hne]
    obtain ⟨e, h1, h2, h3, -⟩ := X.dec q (by simp only; omega)
    exact ⟨e, h1, h2, h3⟩
  · rw [ho] at hu
    subst hu
    have := X.edges d (mem_clockwise.2 hd.1) r w hd.2
    rw [G.c_orig]
    simp only [h0] at this
    exact this
  · rw [ho] at hu
    subst hu
    rw [G.c_orig]
    omega
  · rw [hl] at he
    obtain ⟨w, h1, h2, h3, -⟩ := hnew e he
    simp only [h0] at h3
    have := hc [] 0 orig _ _ w isCostPath_nil ⟨mem_clockwise.1 h1, h2⟩
    omega
  · exact absurd ((ho q).1 hq) hne
  · rw [ho] at hq
    subst hq
    rw [G.c_orig]
    exact isCostPath_nonneg hw hm
  · rw [hl]
    exact Nat.le_trans hlen (clockwise_length_le D)

/-- Every path leads to a popped position or is not cheaper than what is in the heap. -/
theorem CInv.frontier {go : WGo} {h : P2 → Int} {D : Bool} {INF : Int} {orig : P2} {t : P2 → Nat} {n : Nat} {F : Int} {f : P2 → Option Dir} {s : BSt}
    (hw : NonNeg go) (hc : Consistent go D orig h) (H : CInv go h D INF orig t n F f s) {ds : List Dir} {q : P2} {m : Int}
    (hds : IsCostPath go D orig ds q m) (hm : m < INF) : (1 ≤ t q ∧ s.c q ≤ m) ∨ ∃ e ∈ s.heap, e.1 ≤ m + h q := by
  induction ds using List.reverseRecOn generalizing q m with
  | nil =>
    have h1 := hds.1.2
    injection h1 with h1
    have h2 := hds.2
    injection h2 with h2
    subst h1
    exact .inl ⟨H.k_orig, by rw [H.g.c_orig]; omega⟩
  | append_singleton ds d ih =>
    obtain ⟨r, m', w, h1, h2, h3, h4⟩ := isCostPath_concat hds
    have hw' := hw _ _ _ _ h3
    rcases ih h1 (by omega) with ⟨h5, h6⟩ | ⟨e, h5, h6⟩
    · have h7 := H.closed r h5 d q w ⟨h2, h3⟩
      by_cases ht : 1 ≤ t q
      · exact .inl ⟨ht, by omega⟩
      · obtain ⟨e, h8, h9, h10⟩ := H.unpopped q (by omega) (by omega)
        exact .inr ⟨e, h8, by omega⟩
    · have := hc ds m' r d q w h1 ⟨h2, h3⟩
      exact .inr ⟨e, h5, by omega⟩

theorem countP_lt {α : Type} {l : List α} {P P' : α → Bool} (himp : ∀ x, P' x = true → P x = true) {q : α} (hq : q ∈ l) (h1 : P q = true)
    (h2 : P' q = false) : l.countP P' < l.countP P := by
  induction l with
  | nil => cases hq
  | cons a l ih =>
    have hle : l.countP P' ≤ l.countP P := List.countP_mono_left (fun x _ => himp x)
    rcases List.mem_cons.1 hq with rfl | hq
    · rw [List.countP_cons_of_pos h1, List.countP_cons_of_neg (by simp [h2])]
      omega
    · have := ih hq
      by_cases ha : P' a = true
      · rw [List.countP_cons_of_pos ha, List.countP_cons_of_pos (himp a ha)]
        omega
      · rw [List.countP_cons_of_neg ha]
        rw [List.countP_cons]
        omega

/-- The measure that decreases with each pop, if all positions are in `L`. -/
def cMeasure (L : List P2) (t : P2 → Nat) (heap : List Entry) : Nat := heap.length + 8 * L.countP (fun q => decide (t q = 0))

/-- What popping and expanding an entry does; a position is ranked when it is popped for the first time. -/
theorem CInv.step_rank {go : WGo} {h : P2 → Int} {D : Bool} {INF : Int} {orig : P2} {t : P2 → Nat} {n : Nat} {F : Int} {f : P2 → Option Dir} {s : BSt}
    (hw : NonNeg go) (hc : Consistent go D orig h) (H : CInv go h D INF orig t n F f s) {e : Entry} {rest : List Entry}
    (hp : Heap.pop s.heap = some (e, rest)) :
    F ≤ e.1 ∧ (t e.2.1 = 0 → e.1 = s.c e.2.1 + h e.2.1) ∧ (∀ ds m, IsCostPath go D orig ds e.2.1 m → s.c e.2.1 ≤ m) ∧
    ∃ t' n', (1 ≤ t e.2.1 → t' = t ∧ n' = n) ∧ (t e.2.1 = 0 → t' = upd t e.2.1 (n + 1) ∧ n' = n + 1) ∧
      CInv go h D INF orig t' n' e.1 (upd f e.2.1 (some e.2.2)) (BSt.after go h D s.c e rest) ∧ (∀ q, 1 ≤ t' q ↔ 1 ≤ t q ∨ q = e.2.1) ∧
      (BSt.after go h D s.c e rest).c e.2.1 = s.c e.2.1 ∧
      ∀ L : List P2, e.2.1 ∈ L → cMeasure L t' (BSt.after go h D s.c e rest).heap < cMeasure L t s.heap := by
  have G := H.g.step (h := h) hw hp
  obtain ⟨hmem, hmin, hperm⟩ := Heap.pop_some hp
  have hin : ∀ x, x ∈ s.heap ↔ x = e ∨ x ∈ rest := fun x => by rw [hperm.mem_iff, List.mem_cons]
  have hlen : s.heap.length = rest.length + 1 := by rw [hperm.length_eq]; rfl
  have hrest : ∀ x ∈ rest, x ∈ s.heap := fun x hx => (hin x).2 (.inr hx)
  have X := expand_spec h D e.2.1 { c := s.c, heap := rest } hw
  change ExpandedBy go h e.2.1 (clockwise D) _ (BSt.after go h D s.c e rest) at X
  generalize BSt.after go h D s.c e rest = s' at X G ⊢
  obtain ⟨l, hl, hllen, hnew⟩ := X.new
  simp only at hl hnew
  have hFe := H.F_le e hmem
  obtain ⟨hpo, hpf, u0, w0, hu0, hedge0, hf0, hrank0⟩ := H.entry e hmem
  have hpfin := (H.g.entry e hmem).1
  obtain ⟨pds, hpds⟩ := H.g.walk _ hpfin
  by_cases ht : 1 ≤ t e.2.1
  · -- popped before: nothing changes
    have hK : (fun q => 1 ≤ t q ∨ q = e.2.1) = fun q => 1 ≤ t q := by
      funext q
      exact propext ⟨fun h => h.elim id (fun h => h ▸ ht), .inl⟩
    rw [hK] at G
    have hceq : ∀ q, s'.c q = s.c q := by
      intro q
      have hle := X.le q
      simp only at hle
      by_contra hne
      obtain ⟨x, h1, h2, h3, w, h4, h5, h6⟩ := X.dec q (by simp only; omega)
      have := H.closed _ ht _ _ _ ⟨mem_clockwise.1 h4, h5⟩
      simp only at h6
      omega
    have hlnil : l = [] := by
      cases l with
      | nil => rfl
      | cons x l =>
        obtain ⟨w, h1, h2, h3, h4, h5⟩ := hnew x (by simp)
        have := H.closed _ ht _ _ _ ⟨mem_clockwise.1 h1, h2⟩
        omega
    subst hlnil
    rw [List.nil_append] at hl
    refine ⟨hFe, fun h0 => by omega, H.opt _ ht, t, n, fun _ => ⟨rfl, rfl⟩, fun h0 => by omega, ⟨G, H.t_le, H.k_orig, fun x hx => ?_, fun q hq h0 => ?_, fun u hu d r w hd => ?_, fun u hu => ?_,
      fun x hx => ?_, fun q hq hne => ?_, fun q hq ds m hm => ?_⟩, fun q => ?_, hceq _, fun L hL => ?_⟩
    · rw [hl] at hx
      obtain ⟨h1, h2, u, w, h3, h4, h5, h6⟩ := H.entry x (hrest x hx)
      exact ⟨h1, by rw [hceq]; exact h2, u, w, h3, h4, by rw [hceq]; exact h5, h6⟩
    · rw [hceq] at hq ⊢
      obtain ⟨x, h1, h2, h3⟩ := H.unpopped q hq h0
      refine ⟨x, ?_, h2, h3⟩
      rw [hl]
      rcases (hin x).1 h1 with rfl | h1
      · rw [h2] at ht; omega
      · exact h1
    · rw [hceq, hceq]; exact H.closed u hu d r w hd
    · rw [hceq]; exact Int.le_trans (H.le_F u hu) hFe
    · rw [hl] at hx; exact hmin x (hrest x hx)
    · by_cases he : q = e.2.1
      · subst he
        exact ⟨e.2.2, u0, w0, upd_same _ _ _, hu0, hrank0 ht, hedge0, by rw [hceq]; omega⟩
      · obtain ⟨d, u, w, h1, h2, h3, h4, h5⟩ := H.back q hq hne
        exact ⟨d, u, w, by rw [upd_other _ _ he]; exact h1, h2, h3, h4, by rw [hceq]; omega⟩
    · rw [hceq]; exact H.opt q hq ds m hm
    · exact ⟨.inl, fun h => h.elim id (fun h => h ▸ ht)⟩
    · unfold cMeasure
      rw [hl]
      omega
  · -- popped for the first time
    have ht0 : t e.2.1 = 0 := by omega
    obtain ⟨x0, hx1, hx2, hx3⟩ := H.unpopped _ hpfin ht0
    have hx4 := hmin x0 hx1
    have heq : e.1 = s.c e.2.1 + h e.2.1 := by omega
    have hopt : ∀ ds m, IsCostPath go D orig ds e.2.1 m → s.c e.2.1 ≤ m := by
      intro ds m hm
      by_cases hlt : m < INF
      · rcases H.frontier hw hc hm hlt with ⟨h1, -⟩ | ⟨x, h1, h2⟩
        · omega
        · have := hmin x h1
          omega
      · omega
    have hK : (fun q => 1 ≤ t q ∨ q = e.2.1) = fun q => 1 ≤ upd t e.2.1 (n + 1) q := by
      funext q
      exact propext (upd_pos q).symm
    rw [hK] at G
    have hcl : ∀ u, 1 ≤ t u → s'.c u = s.c u := by
      intro u hu
      have hle := X.le u
      simp only at hle
      by_contra hne
      obtain ⟨x, h1, h2, h3, w, h4, h5, h6⟩ := X.dec u (by simp only; omega)
      have h7 := hc _ _ _ _ _ _ hpds ⟨mem_clockwise.1 h4, h5⟩
      have h8 := H.le_F u hu
      simp only at h6
      omega
    have hself : s'.c e.2.1 = s.c e.2.1 := X.self
    have hold : ∀ u, 1 ≤ t u → upd t e.2.1 (n + 1) u = t u := by
      intro u hu
      rw [upd_other _ _ (by rintro rfl; omega)]
    have hnewp : upd t e.2.1 (n + 1) e.2.1 = n + 1 := upd_same _ _ _
    refine ⟨hFe, fun _ => heq, hopt, upd t e.2.1 (n + 1), n + 1, fun h1 => absurd h1 ht, fun _ => ⟨rfl, rfl⟩, ⟨G, fun q => ?_, (upd_pos _).2 (.inl H.k_orig), fun x hx => ?_, fun q hq h0 => ?_,
      fun u hu d r w hd => ?_, fun u hu => ?_, fun x hx => ?_, fun q hq hne => ?_, fun q hq ds m hm => ?_⟩, upd_pos, hself, fun L hL => ?_⟩
    · by_cases hq : q = e.2.1
      · subst hq; rw [hnewp]
      · rw [upd_other _ _ hq]; have := H.t_le q; omega
    · rw [hl, List.mem_append] at hx
      rcases hx with hx | hx
      · obtain ⟨w, h1, h2, h3, h4, h5⟩ := hnew x hx
        have hwn := hw _ _ _ _ h2
        have hcn := H.g.c_nonneg e.2.1
        refine ⟨?_, by omega, e.2.1, w, by rw [hnewp]; omega, ⟨mem_clockwise.1 h1, h2⟩, by rw [hself]; exact h3, fun hk => ?_⟩
        · intro ho
          rw [ho, H.g.c_orig] at h5
          omega
        · rcases (upd_pos _).1 hk with hk | hk
          · rw [hcl _ hk] at h4; omega
          · rw [hk] at h5; omega
      · obtain ⟨h1, h2, u, w, h3, h4, h5, h6⟩ := H.entry x (hrest x hx)
        have hle := X.le x.2.1
        simp only at hle
        refine ⟨h1, by omega, u, w, (upd_pos _).2 (.inl h3), h4, by rw [hcl u h3]; exact h5, fun hk => ?_⟩
        rw [hold u h3]
        by_cases hxp : x.2.1 = e.2.1
        · rw [hxp, hnewp]; have := H.t_le u; omega
        · rcases (upd_pos _).1 hk with hk | hk
          · rw [hold _ hk]; exact h6 hk
          · exact absurd hk hxp
    · have hqp : q ≠ e.2.1 := by rintro rfl; rw [hnewp] at h0; omega
      rw [upd_other _ _ hqp] at h0
      by_cases hlt : s'.c q < s.c q
      · obtain ⟨x, h1, h2, h3, -⟩ := X.dec q hlt
        exact ⟨x, h1, h2, h3⟩
      · have hle := X.le q
        simp only at hle
        obtain ⟨x, h1, h2, h3⟩ := H.unpopped q (by omega) h0
        refine ⟨x, ?_, h2, by omega⟩
        rw [hl, List.mem_append]
        rcases (hin x).1 h1 with rfl | h1
        · exact absurd h2.symm hqp
        · exact .inr h1
    · rcases (upd_pos _).1 hu with hu | rfl
      · rw [hcl u hu]
        exact Int.le_trans (X.le r) (H.closed u hu d r w hd)
      · rw [hself]
        exact X.edges d (mem_clockwise.2 hd.1) r w hd.2
    · rcases (upd_pos _).1 hu with hu | rfl
      · rw [hcl u hu]; exact Int.le_trans (H.le_F u hu) hFe
      · rw [hself]; omega
    · rw [hl, List.mem_append] at hx
      rcases hx with hx | hx
      · obtain ⟨w, h1, h2, h3, -⟩ := hnew x hx
        have := hc _ _ _ _ _ _ hpds ⟨mem_clockwise.1 h1, h2⟩
        omega
      · exact hmin x (hrest x hx)
    · by_cases he : q = e.2.1
      · subst he
        refine ⟨e.2.2, u0, w0, upd_same _ _ _, (upd_pos _).2 (.inl hu0), ?_, hedge0, by rw [hcl u0 hu0]; omega⟩
        rw [hold u0 hu0, hnewp]
        have := H.t_le u0
        omega
      · have hqt := ((upd_pos _).1 hq).resolve_right he
        obtain ⟨d, u, w, h1, h2, h3, h4, h5⟩ := H.back q hqt hne
        exact ⟨d, u, w, by rw [upd_other _ _ he]; exact h1, (upd_pos _).2 (.inl h2), by rw [hold u h2, hold q hqt]; exact h3, h4,
          by rw [hcl u h2]; omega⟩
    · rcases (upd_pos _).1 hq with hq | rfl
      · rw [hcl q hq]; exact H.opt q hq ds m hm
      · rw [hself]; exact hopt ds m hm
    · unfold cMeasure
      have hlt : L.countP (fun q => decide (upd t e.2.1 (n + 1) q = 0)) < L.countP (fun q => decide (t q = 0)) := by
        refine countP_lt (fun x hx => ?_) hL (by simp [ht0]) (by simp [hnewp])
        simp only [decide_eq_true_eq] at hx ⊢
        by_cases hxp : x = e.2.1
        · subst hxp; exact ht0
        · rwa [upd_other _ _ hxp] at hx
      have := clockwise_length_le D
      rw [hl, List.length_append]
      omega

theorem CInv.step {go : WGo} {h : P2 → Int} {D : Bool} {INF : Int} {orig : P2} {t : P2 → Nat} {n : Nat} {F : Int} {f : P2 → Option Dir} {s : BSt}
    (hw : NonNeg go) (hc : Consistent go D orig h) (H : CInv go h D INF orig t n F f s) {e : Entry} {rest : List Entry}
    (hp : Heap.pop s.heap = some (e, rest)) :
    F ≤ e.1 ∧ (t e.2.1 = 0 → e.1 = s.c e.2.1 + h e.2.1) ∧ (∀ ds m, IsCostPath go D orig ds e.2.1 m → s.c e.2.1 ≤ m) ∧
    ∃ t' n', CInv go h D INF orig t' n' e.1 (upd f e.2.1 (some e.2.2)) (BSt.after go h D s.c e rest) ∧ (∀ q, 1 ≤ t' q ↔ 1 ≤ t q ∨ q = e.2.1) ∧
      (BSt.after go h D s.c e rest).c e.2.1 = s.c e.2.1 ∧
      ∀ L : List P2, e.2.1 ∈ L → cMeasure L t' (BSt.after go h D s.c e rest).heap < cMeasure L t s.heap := by
  obtain ⟨h1, h2, h3, t', n', -, -, h4⟩ := H.step_rank hw hc hp
  exact ⟨h1, h2, h3, t', n', h4⟩

end Sqrid
