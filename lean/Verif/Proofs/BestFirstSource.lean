import Verif.Proofs.BestFirstSearch
import Verif.Proofs.HeapTop
/-!
# Where the recorded directions of a best-first search come from

The entries for a position are pushed in the order in which its neighbours are expanded, each with a smaller priority than the one before. They come up in
the opposite order, so the last one that comes up is from the neighbour expanded first.
-/

namespace Sqrid

open Spec

/-- A step in direction `d` comes from the neighbour in the opposite direction. -/
def StepsBack (go : WGo) (D : Bool) (orig : P2) : Prop :=
  ∀ ds n u d q w, IsCostPath go D orig ds u n → WEdge go D u (opposite d) q w → neighbour q d = u

/-- A way from `z` that is taken before `u`, if `z` is: all positions on it have a smaller priority, or the same and are greater. `C` is the cost of `z`, `U` the
priority of `u`. -/
def Quick (go : WGo) (h : P2 → Int) (D : Bool) (INF : Int) (z u : P2) (C U : Int) (ds : List Dir) : Prop :=
  ∀ pre suf, ds = pre ++ suf → pre ≠ [] → ∀ p k, IsCostPath go D z pre p k →
    C + k < INF ∧ (C + k + h p < U ∨ C + k + h p = U ∧ PosTy.lt u p = true)

theorem Quick.pre {go : WGo} {h : P2 → Int} {D : Bool} {INF : Int} {z u : P2} {C U : Int} {as bs : List Dir} (H : Quick go h D INF z u C U (as ++ bs)) :
    Quick go h D INF z u C U as :=
  fun pre suf e => H pre (suf ++ bs) (by rw [e, List.append_assoc])

/-- Invariant on the positions that entries and recorded directions come from. -/
structure SInv (go : WGo) (h : P2 → Int) (D : Bool) (INF : Int) (orig : P2) (t : P2 → Nat) (f : P2 → Option Dir) (s : BSt) : Prop where
  order : ∀ u q, 1 ≤ t u → t u ≤ t q → s.c u + h u ≤ s.c q + h q
  inj : ∀ u q, 1 ≤ t u → t u = t q → u = q
  one : t orig = 1
  edge : ∀ u, 1 ≤ t u → ∀ d r w, WEdge go D u d r w → r ≠ orig → s.c u + w < INF →
    (∃ e ∈ s.heap, e.2.1 = r ∧ e.1 ≤ s.c u + w + h r ∧ t (neighbour r e.2.2) ≤ t u) ∨
      (1 ≤ t r ∧ ∃ d', f r = some d' ∧ t (neighbour r d') ≤ t u)
  anti : ∀ e ∈ s.heap, ∀ e' ∈ s.heap, e.2.1 = e'.2.1 → e.1 ≤ e'.1 → t (neighbour e'.2.1 e'.2.2) ≤ t (neighbour e.2.1 e.2.2)
  last : ∀ e ∈ s.heap, ∀ d, 1 ≤ t e.2.1 → f e.2.1 = some d → t (neighbour e.2.1 e.2.2) ≤ t (neighbour e.2.1 d)
  ahead : ∀ u z, 1 ≤ t z → t z < t u → ∀ ds v m, IsCostPath go D z ds v m → Quick go h D INF z u (s.c z) (s.c u + h u) ds → 1 ≤ t v ∧ t v ≤ t u

/-- Where the way from an expanded position leads out of the expanded positions. -/
theorem CInv.frontier_from {go : WGo} {h : P2 → Int} {D : Bool} {INF : Int} {orig : P2} {t : P2 → Nat} {n : Nat} {F : Int} {f : P2 → Option Dir} {s : BSt}
    (H : CInv go h D INF orig t n F f s) {z u : P2} {U : Int} (hz : 1 ≤ t z) {ds : List Dir} {v : P2} {m : Int} (hds : IsCostPath go D z ds v m)
    (hq : Quick go h D INF z u (s.c z) U ds) :
    (1 ≤ t v ∧ s.c v ≤ s.c z + m) ∨ ∃ e ∈ s.heap, e.1 < U ∨ e.1 = U ∧ PosTy.lt u e.2.1 = true := by
  induction ds using List.reverseRecOn generalizing v m with
  | nil =>
    have h1 := hds.1.2
    injection h1 with h1
    have h2 := hds.2
    injection h2 with h2
    subst h1
    exact .inl ⟨hz, by omega⟩
  | append_singleton ds d ih =>
    obtain ⟨r, m', w, h1, h2, h3, h4⟩ := isCostPath_concat hds
    rcases ih h1 hq.pre with ⟨h5, h6⟩ | h5
    · have h7 := H.closed r h5 d v w ⟨h2, h3⟩
      by_cases ht : 1 ≤ t v
      · exact .inl ⟨ht, by omega⟩
      · obtain ⟨h8, h9⟩ := hq (ds ++ [d]) [] (by simp) (by simp) v m hds
        obtain ⟨e, h10, h11, h12⟩ := H.unpopped v (by omega) (by omega)
        refine .inr ⟨e, h10, ?_⟩
        rw [h11]
        rcases h9 with h9 | ⟨h9, h13⟩
        · exact .inl (by omega)
        · by_cases hlt : e.1 < U
          · exact .inl hlt
          · exact .inr ⟨by omega, h13⟩
    · exact .inr h5

/-- The position an entry comes from. -/
theorem CInv.source {go : WGo} {h : P2 → Int} {D : Bool} {INF : Int} {orig : P2} {t : P2 → Nat} {n : Nat} {F : Int} {f : P2 → Option Dir} {s : BSt}
    (hb : StepsBack go D orig) (H : CInv go h D INF orig t n F f s) {e : Entry} (he : e ∈ s.heap) :
    1 ≤ t (neighbour e.2.1 e.2.2) ∧ (1 ≤ t e.2.1 → t (neighbour e.2.1 e.2.2) < t e.2.1) ∧
      ∃ w, WEdge go D (neighbour e.2.1 e.2.2) (opposite e.2.2) e.2.1 w ∧ e.1 = s.c (neighbour e.2.1 e.2.2) + w + h e.2.1 := by
  obtain ⟨-, -, u, w, h3, h4, h5, h6⟩ := H.entry e he
  obtain ⟨ds, hds⟩ := H.g.walk u (H.g.fin u h3)
  have := hb _ _ _ _ _ _ hds h4
  subst this
  exact ⟨h3, h6, w, h4, h5⟩

theorem SInv.init {go : WGo} {h : P2 → Int} {D : Bool} {INF : Int} (hINF : 0 < INF) {orig : P2} (hw : NonNeg go) (hc : Consistent go D orig h)
    (hb : StepsBack go D orig) (f : P2 → Option Dir) :
    SInv go h D INF orig (upd (fun _ => 0) orig 1) (upd f orig (some Dir.N)) (BSt.after go h D (BSt.init INF orig).c (0, orig, Dir.N) []) := by
  obtain ⟨H, -⟩ := CInv.init (h := h) hINF hw hc f
  generalize BSt.after go h D (BSt.init INF orig).c (0, orig, Dir.N) [] = s' at H ⊢
  have ho : ∀ q, 1 ≤ upd (fun _ : P2 => (0 : Nat)) orig 1 q ↔ q = orig := by intro q; rw [upd_pos]; simp
  have hle : ∀ q, upd (fun _ : P2 => (0 : Nat)) orig 1 q ≤ 1 := H.t_le
  have hone : upd (fun _ : P2 => (0 : Nat)) orig 1 orig = 1 := upd_same _ _ _
  refine ⟨fun u q hu hq => ?_, fun u q hu hq => ((ho u).1 hu).trans ((ho q).1 (hq ▸ hu)).symm, hone, fun u hu d r w hd hr hlt => ?_,
    fun e he e' he' _ _ => ?_, fun e he d ht => ?_, fun u z hz hlt => ?_⟩
  · have h1 := (ho u).1 hu
    have h2 := (ho q).1 (Nat.le_trans hu hq)
    subst h1 h2
    exact Int.le_refl _
  · have h1 := (ho u).1 hu
    subst h1
    have h2 := H.closed u hu d r w hd
    have h3 : upd (fun _ : P2 => (0 : Nat)) u 1 r = 0 := upd_other _ _ hr
    obtain ⟨e, h4, h5, h6⟩ := H.unpopped r (by omega) h3
    exact .inl ⟨e, h4, h5, by omega, by rw [hone]; exact hle _⟩
  · exact Nat.le_trans (hle _) (H.source hb he).1
  · exact absurd ((ho _).1 ht) (H.entry e he).1
  · have := hle u
    omega

theorem SInv.step {go : WGo} {h : P2 → Int} {D : Bool} {INF : Int} {orig : P2} {t : P2 → Nat} {n : Nat} {F : Int} {f : P2 → Option Dir} {s : BSt}
    (hw : NonNeg go) (hc : Consistent go D orig h) (hb : StepsBack go D orig) (H : CInv go h D INF orig t n F f s) (S : SInv go h D INF orig t f s)
    {e : Entry} {rest : List Entry} (hp : Heap.pop s.heap = some (e, rest)) :
    F ≤ e.1 ∧ (t e.2.1 = 0 → e.1 = s.c e.2.1 + h e.2.1) ∧
    ∃ t' n', CInv go h D INF orig t' n' e.1 (upd f e.2.1 (some e.2.2)) (BSt.after go h D s.c e rest) ∧
      SInv go h D INF orig t' (upd f e.2.1 (some e.2.2)) (BSt.after go h D s.c e rest) ∧ (∀ q, 1 ≤ t' q ↔ 1 ≤ t q ∨ q = e.2.1) ∧
      (BSt.after go h D s.c e rest).c e.2.1 = s.c e.2.1 := by
  obtain ⟨hFe, hval, -, t', n', hre, hnew', H', hK, hself, -⟩ := H.step_rank hw hc hp
  refine ⟨hFe, hval, t', n', H', ?_, hK, hself⟩
  obtain ⟨hmem, hmin, hperm⟩ := Heap.pop_some hp
  have hin : ∀ x, x ∈ s.heap ↔ x = e ∨ x ∈ rest := fun x => by rw [hperm.mem_iff, List.mem_cons]
  have hrest : ∀ x ∈ rest, x ∈ s.heap := fun x hx => (hin x).2 (.inr hx)
  have X := expand_spec h D e.2.1 { c := s.c, heap := rest } hw
  change ExpandedBy go h e.2.1 (clockwise D) _ (BSt.after go h D s.c e rest) at X
  generalize BSt.after go h D s.c e rest = s' at X H' hself ⊢
  obtain ⟨l, hl, -, hnew⟩ := X.new
  simp only at hl hnew
  have hse := H.source hb hmem
  have hpo := (H.entry e hmem).1
  -- the recorded costs of positions popped before are final
  have hcl : ∀ u, 1 ≤ t u → s'.c u = s.c u := by
    intro u hu
    have hle := X.le u
    simp only at hle
    obtain ⟨ds, hds⟩ := H'.g.walk u (H'.g.fin u ((hK u).2 (.inl hu)))
    have := H.opt u hu ds _ hds
    omega
  have hold : ∀ u, 1 ≤ t u → t' u = t u := by
    intro u hu
    by_cases ht : 1 ≤ t e.2.1
    · rw [(hre ht).1]
    · rw [(hnew' (by omega)).1, upd_other _ _ (by rintro rfl; omega)]
  -- an entry kept in the heap comes from the same position as before
  have hsrc : ∀ x ∈ s.heap, t' (neighbour x.2.1 x.2.2) = t (neighbour x.2.1 x.2.2) := fun x hx => hold _ (H.source hb hx).1
  -- a new entry comes from the popped position, which then is popped for the first time, and its priority is the smallest
  have hnewx : ∀ x ∈ l, t e.2.1 = 0 ∧ t' (neighbour x.2.1 x.2.2) = n + 1 ∧ t' x.2.1 = 0 ∧ ∀ y ∈ s.heap, y.2.1 = x.2.1 → x.1 < y.1 := by
    intro x hx
    obtain ⟨w, h1, h2, h3, h4, h5⟩ := hnew x hx
    have ht : t e.2.1 = 0 := by
      by_contra ht
      have := H.closed _ (by omega : 1 ≤ t e.2.1) _ _ _ ⟨mem_clockwise.1 h1, h2⟩
      omega
    obtain ⟨ds, hds⟩ := H.g.walk _ (H.g.entry e hmem).1
    have hnb := hb _ _ _ _ _ _ hds ⟨mem_clockwise.1 h1, h2⟩
    have hwn := hw _ _ _ _ h2
    refine ⟨ht, by rw [hnb, (hnew' ht).1, upd_same], ?_, fun y hy hyx => ?_⟩
    · by_contra h0
      rcases (hK x.2.1).1 (by omega) with h6 | h6
      · have := hcl _ h6; omega
      · rw [h6] at h5; omega
    · have := (H.entry y hy).2.1
      rw [hyx] at this
      omega
  have hmono : ∀ u, t' u = t u ∨ (u = e.2.1 ∧ t u = 0 ∧ t' u = n + 1) := by
    intro u
    by_cases ht : 1 ≤ t e.2.1
    · exact .inl (by rw [(hre ht).1])
    · by_cases hu : u = e.2.1
      · subst hu; exact .inr ⟨rfl, by omega, by rw [(hnew' (by omega)).1, upd_same]⟩
      · exact .inl (by rw [(hnew' (by omega)).1, upd_other _ _ hu])
  refine ⟨fun u q hu hq => ?_, fun u q hu hq => ?_, by rw [hold orig H.k_orig]; exact S.one, fun u hu d r w hd hr hlt => ?_, fun x hx y hy hxy hle => ?_, fun x hx d ht hf => ?_,
    fun u z hz hlt ds v m hds hq => ?_⟩
  · rcases (hK u).1 hu with hu0 | rfl
    · rw [hcl u hu0]
      rcases hmono q with h1 | ⟨rfl, h2, h3⟩
      · have h4 : t u ≤ t q := by rw [← h1, ← hold u hu0]; exact hq
        rw [hcl q (by omega)]
        exact S.order u q hu0 h4
      · rw [hself, ← hval h2]
        exact Int.le_trans (H.le_F u hu0) hFe
    · rcases hmono e.2.1 with h1 | ⟨-, h2, h3⟩
      · rw [h1] at hu
        have h4 : t e.2.1 ≤ t q := by
          rcases hmono q with h5 | ⟨rfl, h5, -⟩
          · rw [← h1, ← h5]; exact hq
          · omega
        rw [hcl q (by omega), hcl _ hu]
        exact S.order _ q hu h4
      · have h4 : q = e.2.1 := by
          rcases hmono q with h5 | ⟨h5, -⟩
          · have := H.t_le q; omega
          · exact h5
        rw [h4]
  · have := H.t_le u
    have := H.t_le q
    rcases hmono u with h1 | ⟨h1, h2, h3⟩ <;> rcases hmono q with h4 | ⟨h4, h5, h6⟩
    · exact S.inj u q (by omega) (by omega)
    · omega
    · omega
    · rw [h1, h4]
  · by_cases hu0 : 1 ≤ t u
    · rw [hcl u hu0] at hlt ⊢
      rw [hold u hu0]
      by_cases hre' : r = e.2.1
      · -- the popped entry is now the recorded one
        refine (S.edge u hu0 d r w hd hr hlt).elim (fun ⟨x, h1, h2, h3, h4⟩ => ?_) (fun ⟨h1, d', h2, h3⟩ => ?_)
        · rcases (hin x).1 h1 with rfl | h1
          · exact .inr ⟨(hK r).2 (.inr hre'), x.2.2, by rw [hre', upd_same], by rw [← h2, hsrc x hmem, h2]; exact h4⟩
          · exact .inl ⟨x, by rw [hl]; simp [h1], h2, h3, by rw [← h2, hsrc x (hrest x h1), h2]; exact h4⟩
        · subst hre'
          exact .inr ⟨(hK _).2 (.inl h1), e.2.2, upd_same _ _ _, by rw [hsrc e hmem]; exact Nat.le_trans (S.last e hmem d' h1 h2) h3⟩
      · refine (S.edge u hu0 d r w hd hr hlt).elim (fun ⟨x, h1, h2, h3, h4⟩ => ?_) (fun ⟨h1, d', h2, h3⟩ => ?_)
        · rcases (hin x).1 h1 with rfl | h1
          · exact absurd h2.symm hre'
          · exact .inl ⟨x, by rw [hl]; simp [h1], h2, h3, by rw [← h2, hsrc x (hrest x h1), h2]; exact h4⟩
        · refine .inr ⟨(hK r).2 (.inl h1), d', by rw [upd_other _ _ hre']; exact h2, ?_⟩
          obtain ⟨d2, v, w2, b1, b2, b3, b4, -⟩ := H.back r h1 hr
          rw [h2] at b1
          injection b1 with b1
          subst b1
          obtain ⟨ds, hds⟩ := H.g.walk v (H.g.fin v b2)
          rw [hb _ _ _ _ _ _ hds b4] at h3 ⊢
          rw [hold v b2]
          exact h3
    · -- the popped position
      rcases hmono u with h1 | ⟨hue, h1, h2⟩
      · omega
      have h3 := H'.closed u hu d r w hd
      rw [h2]
      by_cases hr0 : 1 ≤ t' r
      · obtain ⟨d2, v, w2, b1, b2, b3, b4, -⟩ := H'.back r hr0 hr
        obtain ⟨ds, hds⟩ := H'.g.walk v (H'.g.fin v b2)
        refine .inr ⟨hr0, d2, b1, ?_⟩
        rw [hb _ _ _ _ _ _ hds b4]
        have := H'.t_le v
        have := (hnew' (hue ▸ h1)).2
        omega
      · obtain ⟨x, h4, h5, h6⟩ := H'.unpopped r (by omega) (by omega)
        refine .inl ⟨x, h4, h5, by omega, ?_⟩
        have := H'.t_le (neighbour r x.2.2)
        have := (hnew' (hue ▸ h1)).2
        omega
  · rw [hl, List.mem_append] at hx hy
    rcases hy with hy | hy
    · obtain ⟨a1, a2, a3, a4⟩ := hnewx y hy
      rcases hx with hx | hx
      · rw [a2, (hnewx x hx).2.1]
      · have := a4 x (hrest x hx) hxy
        omega
    · rw [hsrc y (hrest y hy)]
      rcases hx with hx | hx
      · rw [(hnewx x hx).2.1]
        have := H.t_le (neighbour y.2.1 y.2.2)
        omega
      · rw [hsrc x (hrest x hx)]
        exact S.anti x (hrest x hx) y (hrest y hy) hxy hle
  · rw [hl, List.mem_append] at hx
    rcases hx with hx | hx
    · have := (hnewx x hx).2.2.1
      omega
    · rw [hsrc x (hrest x hx)]
      by_cases hxe : x.2.1 = e.2.1
      · rw [hxe, upd_same] at hf
        injection hf with hf
        subst hf
        have := S.anti e hmem x (hrest x hx) hxe.symm (hmin x (hrest x hx))
        rw [hxe, hsrc e hmem]
        rw [hxe] at this
        exact this
      · rw [upd_other _ _ hxe] at hf
        have ht0 := ((hK x.2.1).1 ht).resolve_right hxe
        have h1 := S.last x (hrest x hx) d ht0 hf
        obtain ⟨d2, v, w2, b1, b2, b3, b4, -⟩ := H.back x.2.1 ht0 (H.entry x (hrest x hx)).1
        rw [hf] at b1
        injection b1 with b1
        subst b1
        obtain ⟨ds, hds⟩ := H.g.walk v (H.g.fin v b2)
        rw [hb _ _ _ _ _ _ hds b4] at h1 ⊢
        rw [hold v b2]
        exact h1
  · have hn := H'.t_le u
    have hz0 : 1 ≤ t z := by
      rcases hmono z with h1 | ⟨h1, h2, h3⟩
      · omega
      · rcases hmono u with h4 | ⟨h4, -⟩
        · have := H.t_le u; omega
        · rw [h1, ← h4] at hlt; omega
    rw [hcl z hz0] at hq
    rw [hold z hz0] at hlt
    rcases hmono u with h1 | ⟨h1, h2, h3⟩
    · rw [hcl u (by omega)] at hq
      obtain ⟨h4, h5⟩ := S.ahead u z hz0 (by omega) ds v m hds hq
      rw [hold v h4, h1]
      exact ⟨h4, h5⟩
    · subst h1
      rw [hself, ← hval h2] at hq
      rcases H.frontier_from hz0 hds hq with ⟨h4, -⟩ | ⟨x, h4, h5⟩
      · have := H.t_le v
        rw [hold v h4]
        omega
      · have := Heap.pop_top hp x h4
        simp only [Heap.Top, PosTy.lt, Bool.or_eq_true, Bool.and_eq_true, decide_eq_true_eq, beq_iff_eq] at this h5
        omega

/-- The answer with a consistent heuristic, with the positions that the recorded directions come from. -/
theorem BSt.search_source {go : WGo} {h : P2 → Int} {D : Bool} {INF : Int} {orig dest : P2} (hw : NonNeg go)
    (hc : Consistent go D orig h) (hb : StepsBack go D orig) (fuel : Nat) :
    ∀ {t : P2 → Nat} {n : Nat} {F : Int} {f : P2 → Option Dir} {s : BSt}, CInv go h D INF orig t n F f s → SInv go h D INF orig t f s → t dest = 0 →
    ∀ {f'}, BSt.search go h D dest fuel s f = .ok (.ok f') →
    ∃ t' n' F' s', CInv go h D INF orig t' n' F' f' s' ∧ SInv go h D INF orig t' f' s' ∧ 1 ≤ t' dest ∧ F' = s'.c dest + h dest := by
  induction fuel with
  | zero => intro t n F f s _ _ _ f' h; cases h
  | succ fuel ih =>
    intro t n F f s H S hd f' hr
    cases hp : Heap.pop s.heap with
    | none => rw [BSt.search_none hp] at hr; cases hr
    | some er =>
      obtain ⟨e, rest⟩ := er
      obtain ⟨h1, h2, t', n', H', S', h4, h5⟩ := S.step hw hc hb H hp
      rw [BSt.search_some hp] at hr
      by_cases he : e.2.1 = dest
      · rw [if_pos he] at hr
        injection hr with hr
        injection hr with hr
        subst hr
        refine ⟨t', n', _, _, H', S', (h4 _).2 (.inr he.symm), ?_⟩
        rw [← he, h5]
        exact h2 (by rw [he]; exact hd)
      · rw [if_neg he] at hr
        refine ih H' S' ?_ hr
        by_contra hne
        rcases (h4 dest).1 (by omega) with h7 | h7
        · omega
        · exact he h7.symm

theorem BSt.search_source_init {go : WGo} {h : P2 → Int} {D : Bool} {INF : Int} (hINF : 0 < INF) {orig dest : P2} (hw : NonNeg go)
    (hc : Consistent go D orig h) (hb : StepsBack go D orig) {fuel : Nat} {f f' : P2 → Option Dir}
    (hr : BSt.search go h D dest fuel (BSt.init INF orig) f = .ok (.ok f')) :
    ∃ t n F s, CInv go h D INF orig t n F f' s ∧ SInv go h D INF orig t f' s ∧ 1 ≤ t dest ∧ F = s.c dest + h dest := by
  cases fuel with
  | zero => cases hr
  | succ fuel =>
    obtain ⟨H, -⟩ := CInv.init hINF hw hc f
    have S := SInv.init hINF hw hc hb f
    rw [BSt.search_some (e := (0, orig, Dir.N)) (rest := []) (Heap.pop_single _)] at hr
    simp only at hr
    by_cases he : orig = dest
    · rw [if_pos he] at hr
      injection hr with hr
      injection hr with hr
      subst hr he
      exact ⟨_, _, _, _, H, S, by rw [upd_same], by rw [H.g.c_orig]; omega⟩
    · rw [if_neg he] at hr
      exact BSt.search_source hw hc hb fuel H S (by rw [upd_other _ _ (Ne.symm he)]) hr

/-- The recorded direction of a position other than the destination comes from the neighbour that was expanded first, of those from which its entry comes
up before the destination. -/
theorem SInv.first {go : WGo} {h : P2 → Int} {D : Bool} {INF : Int} {orig : P2} {t : P2 → Nat} {n : Nat} {F : Int} {f : P2 → Option Dir} {s : BSt}
    (H : CInv go h D INF orig t n F f s) (S : SInv go h D INF orig t f s) {u r : P2} {d : Dir} {w : Int} (hu : 1 ≤ t u) (hd : WEdge go D u d r w)
    (hr : r ≠ orig) (hlt : s.c u + w + h r < F) (hINF : s.c u + w < INF) {d' : Dir} (hf : f r = some d') :
    t (neighbour r d') ≤ t u := by
  rcases S.edge u hu d r w hd hr hINF with ⟨e, h1, h2, h3, h4⟩ | ⟨h1, d2, h2, h3⟩
  · have := H.F_le e h1
    omega
  · rw [hf] at h2
    injection h2 with h2
    subst h2
    exact h3

end Sqrid
