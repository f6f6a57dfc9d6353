import Verif.Proofs.BestFirstCons
/-! The search loop of the best-first machine: what it answers, and that it answers. -/

namespace Sqrid

open Spec

theorem BSt.search_none {go : WGo} {h : P2 → Int} {D : Bool} {dest : P2} {fuel : Nat} {s : BSt} {f : P2 → Option Dir} (hp : Heap.pop s.heap = none) :
    BSt.search go h D dest (fuel + 1) s f = .ok (.error .destinationUnreachable) := by
  unfold BSt.search
  rw [hp]

theorem BSt.search_some {go : WGo} {h : P2 → Int} {D : Bool} {dest : P2} {fuel : Nat} {s : BSt} {f : P2 → Option Dir} {e : Entry} {rest : List Entry}
    (hp : Heap.pop s.heap = some (e, rest)) :
    BSt.search go h D dest (fuel + 1) s f = if e.2.1 = dest then .ok (.ok (upd f e.2.1 (some e.2.2)))
      else BSt.search go h D dest fuel (BSt.after go h D s.c e rest) (upd f e.2.1 (some e.2.2)) := by
  conv => lhs; unfold BSt.search
  rw [hp]
  rfl

/-! ### With a consistent heuristic -/

/-- The answer with a consistent heuristic. -/
def CAnswer (go : WGo) (h : P2 → Int) (D : Bool) (INF : Int) (orig dest : P2) (r : Res (P2 → Option Dir)) : Prop :=
  match r with
  | .error e => e = .destinationUnreachable ∧ ∀ ds n, IsCostPath go D orig ds dest n → INF ≤ n
  | .ok f => ∃ t n F s, CInv go h D INF orig t n F f s ∧ 1 ≤ t dest ∧ F = s.c dest + h dest

theorem BSt.search_cons {L : List P2} {go : WGo} {h : P2 → Int} {D : Bool} {INF : Int} (hINF : 0 < INF) {orig dest : P2} (hw : NonNeg go)
    (hc : Consistent go D orig h) (hG : ∀ ds q n, IsCostPath go D orig ds q n → q ∈ L) (fuel : Nat) :
    ∀ {t : P2 → Nat} {n : Nat} {F : Int} {f : P2 → Option Dir} {s : BSt}, CInv go h D INF orig t n F f s → t dest = 0 → cMeasure L t s.heap < fuel →
    ∃ r, BSt.search go h D dest fuel s f = .ok r ∧ CAnswer go h D INF orig dest r := by
  induction fuel with
  | zero => intro t n F f s _ _ h; exact absurd h (Nat.not_lt_zero _)
  | succ fuel ih =>
    intro t n F f s H hd hfuel
    cases hp : Heap.pop s.heap with
    | none =>
      refine ⟨_, BSt.search_none hp, rfl, fun ds m hm => ?_⟩
      by_contra hlt
      have := (H.g.complete hw hINF (Heap.pop_none hp) hm (by omega)).1
      omega
    | some er =>
      obtain ⟨e, rest⟩ := er
      obtain ⟨h1, h2, h3, t', n', H', h4, h5, h6⟩ := H.step hw hc hp
      rw [BSt.search_some hp]
      by_cases he : e.2.1 = dest
      · rw [if_pos he]
        refine ⟨_, rfl, t', n', _, _, H', (h4 _).2 (.inr he.symm), ?_⟩
        rw [← he, h5]
        exact h2 (by rw [he]; exact hd)
      · rw [if_neg he]
        have hgrid : e.2.1 ∈ L := by
          obtain ⟨ds, hds⟩ := H.g.walk _ (H.g.entry e (Heap.pop_some hp).1).1
          exact hG _ _ _ hds
        refine ih H' ?_ ?_
        · by_contra hne
          rcases (h4 dest).1 (by omega) with h7 | h7
          · omega
          · exact he h7.symm
        · have := h6 L hgrid
          omega

/-- The whole search. -/
theorem BSt.search_init {L : List P2} {go : WGo} {h : P2 → Int} {D : Bool} {INF : Int} (hINF : 0 < INF) {orig dest : P2} (hw : NonNeg go)
    (hc : Consistent go D orig h) (hG : ∀ ds q n, IsCostPath go D orig ds q n → q ∈ L) {fuel : Nat} (hfuel : 8 * L.length + 1 < fuel)
    (f : P2 → Option Dir) :
    ∃ r, BSt.search go h D dest fuel (BSt.init INF orig) f = .ok r ∧ CAnswer go h D INF orig dest r := by
  obtain ⟨fuel, rfl⟩ : ∃ m, fuel = m + 1 := ⟨fuel - 1, by omega⟩
  obtain ⟨H, hlen⟩ := CInv.init hINF hw hc f
  rw [BSt.search_some (e := (0, orig, Dir.N)) (rest := []) (Heap.pop_single _)]
  simp only
  by_cases he : orig = dest
  · rw [if_pos he]
    subst he
    exact ⟨_, rfl, _, _, _, _, H, by rw [upd_same], by rw [H.g.c_orig]; omega⟩
  · rw [if_neg he]
    refine BSt.search_cons hINF hw hc hG fuel H (by rw [upd_other _ _ (Ne.symm he)]) ?_
    have ho : orig ∈ L := hG _ _ _ isCostPath_nil
    have hlt : L.countP (fun q => decide (upd (fun _ : P2 => (0 : Nat)) orig 1 q = 0)) <
        L.countP (fun _ => true) := by
      refine countP_lt (fun _ _ => rfl) ho rfl (by simp [upd_same])
    rw [List.countP_true] at hlt
    unfold cMeasure
    omega

/-! ### Following the recorded directions back -/

/-- With a consistent heuristic they lead to the origin, along a path. `R` relates a position to the path. -/
theorem CInv.arrives {T : PosTy} {go : WGo} {h : P2 → Int} {D : Bool} {INF : Int} {orig : P2} {t : P2 → Nat} {n : Nat} {F : Int} {f : P2 → Option Dir}
    {s : BSt} (hgo : Adjacent T (dropCost go)) (hG : ∀ ds q n, IsCostPath go D orig ds q n → InGrid T q) (H : CInv go h D INF orig t n F f s)
    (q : P2) (hq : 1 ≤ t q) : ∃ path, Arrives T f orig q path ∧ IsPath (dropCost go) D orig path q := by
  induction hk : t q using Nat.strong_induction_on generalizing q with
  | _ k ih =>
    by_cases ho : q = orig
    · subst ho; exact ⟨[], .here, isPath_nil⟩
    · obtain ⟨d, u, w, h1, h2, h3, h4, -⟩ := H.back q hq ho
      obtain ⟨path, h5, h6⟩ := ih (t u) (by omega) u h2 rfl
      have hu : InGrid T u := by
        obtain ⟨ds, hds⟩ := H.g.walk u (H.g.fin u h2)
        exact hG _ _ _ hds
      have hg : dropCost go u (opposite d) = some q := by simp [dropCost, h4.2]
      have e : neighbour q d = u := by rw [(hgo u _ q hu hg).2, neighbour_opposite']
      exact ⟨path ++ [opposite d], .step ho h1 (e ▸ hu) (e ▸ h5), isPath_append h6 (isPath_single h4.1 hg)⟩

/-- In general they lead along a path if they lead to the origin, and never get stuck. -/
theorem GInv.not_stuck {T : PosTy} {go : WGo} {D : Bool} {INF : Int} {orig : P2} {K : P2 → Prop} {f : P2 → Option Dir} {s : BSt}
    (hgo : Adjacent T (dropCost go)) (hG : ∀ ds q n, IsCostPath go D orig ds q n → InGrid T q) (H : GInv go D INF orig K f s)
    {q : P2} (hq : K q) {n : Nat} : ¬ GetsStuck T f orig q n := by
  have back : ∀ q d, K q → q ≠ orig → f q = some d → K (neighbour q d) ∧ InGrid T (neighbour q d) := by
    intro q d hq ho hf
    obtain ⟨d', h1, h2⟩ := H.from_some q hq
    rw [hf] at h1
    injection h1 with h1
    subst h1
    obtain ⟨u, w, h3, h4⟩ := h2.resolve_left ho
    have hu : InGrid T u := by
      obtain ⟨ds, hds⟩ := H.walk u (H.fin u h3)
      exact hG _ _ _ hds
    have hg : dropCost go u (opposite d) = some q := by simp [dropCost, h4.2]
    have e : neighbour q d = u := by rw [(hgo u _ q hu hg).2, neighbour_opposite']
    exact ⟨e ▸ h3, e ▸ hu⟩
  intro hs
  induction hs with
  | @here p hne hstop =>
    obtain ⟨d, h1, -⟩ := H.from_some p hq
    exact hstop d h1 (back p d hq hne h1).2
  | @step p d n hne hf hin _ ih => exact ih (back p d hq hne hf).1

theorem GInv.back_step {T : PosTy} {go : WGo} {D : Bool} {INF : Int} {orig : P2} {K : P2 → Prop} {f : P2 → Option Dir} {s : BSt}
    (hgo : Adjacent T (dropCost go)) (hG : ∀ ds q n, IsCostPath go D orig ds q n → InGrid T q) (H : GInv go D INF orig K f s) :
    ∀ q d, K q → q ≠ orig → f q = some d → K (neighbour q d) := by
  intro q d hq ho hf
  obtain ⟨d', h1, h2⟩ := H.from_some q hq
  rw [hf] at h1
  injection h1 with h1
  subst h1
  obtain ⟨u, w, h3, h4⟩ := h2.resolve_left ho
  have hu : InGrid T u := by
    obtain ⟨ds, hds⟩ := H.walk u (H.fin u h3)
    exact hG _ _ _ hds
  have hg : dropCost go u (opposite d) = some q := by simp [dropCost, h4.2]
  have e : neighbour q d = u := by rw [(hgo u _ q hu hg).2, neighbour_opposite']
  exact e ▸ h3

theorem GInv.arrives_path {T : PosTy} {go : WGo} {D : Bool} {INF : Int} {orig : P2} {K : P2 → Prop} {f : P2 → Option Dir} {s : BSt}
    (hgo : Adjacent T (dropCost go)) (hG : ∀ ds q n, IsCostPath go D orig ds q n → InGrid T q) (H : GInv go D INF orig K f s)
    {q : P2} {path : List Dir} (ha : Arrives T f orig q path) (hq : K q) : IsPath (dropCost go) D orig path q := by
  induction ha with
  | here => exact isPath_nil
  | @step p d path hne hf hin _ ih =>
    obtain ⟨d', h1, h2⟩ := H.from_some p hq
    rw [hf] at h1
    injection h1 with h1
    subst h1
    obtain ⟨u, w, h3, h4⟩ := h2.resolve_left hne
    have hu : InGrid T u := by
      obtain ⟨ds, hds⟩ := H.walk u (H.fin u h3)
      exact hG _ _ _ hds
    have hg : dropCost go u (opposite d) = some p := by simp [dropCost, h4.2]
    have e : neighbour p d = u := by rw [(hgo u _ p hu hg).2, neighbour_opposite']
    exact isPath_append (ih (e ▸ h3)) (isPath_single h4.1 (e ▸ hg))

/-! ### With unit costs and any heuristic -/

theorem dropCost_unitCost (go : GoFn) : dropCost (unitCost go) = go := by
  funext p d
  simp only [dropCost, unitCost]
  cases go p d <;> rfl

theorem unitCost_some {go : GoFn} {p : P2} {d : Dir} {q : P2} {w : Int} : unitCost go p d = some (q, w) ↔ go p d = some q ∧ w = 1 := by
  simp only [unitCost]
  cases go p d with
  | none => simp
  | some r => simp [eq_comm]

theorem unitCost_nonneg (go : GoFn) : NonNeg (unitCost go) := by
  intro p d q w h
  rw [unitCost_some] at h
  omega

/-- Number of positions of a list with a recorded cost. -/
def known (L : List P2) (INF : Int) (c : P2 → Int) : Nat := L.countP fun q => decide (c q < INF)

theorem known_le (L : List P2) (INF : Int) (c : P2 → Int) : known L INF c ≤ L.length := List.countP_le_length

def capSum (N : Nat) (c : P2 → Int) (l : List P2) : Nat := (l.map fun q => min (c q).toNat N).sum

theorem capSum_le (N : Nat) (c : P2 → Int) (l : List P2) : capSum N c l ≤ N * l.length := by
  induction l with
  | nil => simp [capSum]
  | cons a l ih =>
    simp only [capSum, List.map_cons, List.sum_cons, List.length_cons] at ih ⊢
    have : min (c a).toNat N ≤ N := Nat.min_le_right _ _
    rw [Nat.mul_succ]
    omega

theorem capSum_mono {N : Nat} {c c' : P2 → Int} {l : List P2} (h : ∀ q, c' q ≤ c q) : capSum N c' l ≤ capSum N c l := by
  induction l with
  | nil => simp [capSum]
  | cons a l ih =>
    simp only [capSum, List.map_cons, List.sum_cons] at ih ⊢
    have := h a
    omega

theorem capSum_lt {N : Nat} {c c' : P2 → Int} {l : List P2} (h : ∀ q, c' q ≤ c q) {q : P2} (hq : q ∈ l) (h1 : 0 ≤ c' q) (h2 : c' q < c q)
    (h3 : c' q < N) : capSum N c' l < capSum N c l := by
  induction l with
  | nil => cases hq
  | cons a l ih =>
    have hm : capSum N c' l ≤ capSum N c l := capSum_mono h
    simp only [capSum, List.map_cons, List.sum_cons] at ih hm ⊢
    have := h a
    rcases List.mem_cons.1 hq with rfl | hq
    · omega
    · have := ih hq
      omega

/-- Every recorded cost is below the number of positions with one, and these can be reached. -/
structure UInv (go : GoFn) (D : Bool) (orig : P2) (L : List P2) (INF : Int) (s : BSt) : Prop where
  reach : ∀ q, s.c q < INF → Reachable go D orig q
  nonneg : ∀ q, 0 ≤ s.c q
  le : ∀ q, s.c q ≤ INF
  bound : ∀ q, s.c q < INF → s.c q + 1 ≤ known L INF s.c
  entry : ∀ e ∈ s.heap, s.c e.2.1 < INF

def uMeasure (L : List P2) (s : BSt) : Nat := s.heap.length + 2 * capSum L.length s.c L

theorem UInv.relax {L : List P2} {go : GoFn} {D : Bool} {orig : P2} {INF : Int} {h : P2 → Int} {s : BSt} (hL : ∀ q, Reachable go D orig q → q ∈ L) (H : UInv go D orig L INF s) {p : P2} (hp : s.c p < INF)
    {d : Dir} (hd : Allowed D d) : UInv go D orig L INF (BSt.relax (unitCost go) h p s d) ∧ uMeasure L (BSt.relax (unitCost go) h p s d) ≤ uMeasure L s ∧
      (BSt.relax (unitCost go) h p s d).c p = s.c p := by
  unfold BSt.relax
  cases hg : unitCost go p d with
  | none => exact ⟨H, Nat.le_refl _, rfl⟩
  | some qw =>
    obtain ⟨q, w⟩ := qw
    rw [unitCost_some] at hg
    obtain ⟨hg, rfl⟩ := hg
    simp only
    split
    swap
    · exact ⟨H, Nat.le_refl _, rfl⟩
    · rename_i hlt
      have hqr : Reachable go D orig q := by
        obtain ⟨ds, hds⟩ := H.reach p hp
        exact ⟨_, isPath_append hds (isPath_single hd hg)⟩
      have hqin := hL q hqr
      have hp0 := H.nonneg p
      have hpb := H.bound p hp
      have hqle := H.le q
      have hne : p ≠ q := by rintro rfl; omega
      have hle : ∀ r, upd s.c q (s.c p + 1) r ≤ s.c r := by
        intro r
        by_cases hr : r = q
        · subst hr; rw [upd_same]; omega
        · rw [upd_other _ _ hr]
      have hmono : known L INF s.c ≤ known L INF (upd s.c q (s.c p + 1)) := by
        refine List.countP_mono_left (fun r _ hr => ?_)
        simp only [decide_eq_true_eq] at hr ⊢
        have := hle r
        omega
      have hq : s.c p + 1 + 1 ≤ known L INF (upd s.c q (s.c p + 1)) := by
        by_cases hqi : s.c q < INF
        · have := H.bound q hqi
          omega
        · have : known L INF s.c < known L INF (upd s.c q (s.c p + 1)) := by
            refine countP_lt (fun r hr => ?_) hqin ?_ ?_
            · simp only [decide_eq_true_eq] at hr ⊢
              have := hle r
              omega
            · simp only [upd_same, decide_eq_true_eq]; omega
            · simp only [decide_eq_false_iff_not]; exact hqi
          omega
      have hkn := known_le L INF (upd s.c q (s.c p + 1))
      refine ⟨⟨fun r hr => ?_, fun r => ?_, fun r => Int.le_trans (hle r) (H.le r), fun r hr => ?_, fun e he => ?_⟩, ?_, upd_other _ _ hne⟩
      · by_cases hrq : r = q
        · exact hrq ▸ hqr
        · simp only at hr
          rw [upd_other _ _ hrq] at hr
          exact H.reach r hr
      · simp only
        by_cases hrq : r = q
        · subst hrq; rw [upd_same]; omega
        · rw [upd_other _ _ hrq]; exact H.nonneg r
      · simp only at hr ⊢
        by_cases hrq : r = q
        · subst hrq; rw [upd_same]; omega
        · rw [upd_other _ _ hrq] at hr ⊢
          have := H.bound r hr
          omega
      · simp only
        rcases List.mem_cons.1 he with rfl | he
        · simp only [upd_same]; omega
        · exact Int.lt_of_le_of_lt (hle _) (H.entry e he)
      · unfold uMeasure
        simp only [List.length_cons]
        have : capSum L.length (upd s.c q (s.c p + 1)) L < capSum L.length s.c L := by
          refine capSum_lt hle hqin ?_ ?_ ?_
          · rw [upd_same]; omega
          · rw [upd_same]; omega
          · rw [upd_same]; omega
        omega

theorem UInv.expand {L : List P2} {go : GoFn} {D : Bool} {orig : P2} {INF : Int} {h : P2 → Int} {s : BSt} (hL : ∀ q, Reachable go D orig q → q ∈ L) (H : UInv go D orig L INF s) {p : P2}
    (hp : s.c p < INF) : UInv go D orig L INF (BSt.expand (unitCost go) h D p s) ∧ uMeasure L (BSt.expand (unitCost go) h D p s) ≤ uMeasure L s := by
  unfold BSt.expand
  have key : ∀ (ds : List Dir), (∀ d ∈ ds, Allowed D d) → ∀ (s : BSt), UInv go D orig L INF s → s.c p < INF → UInv go D orig L INF (ds.foldl (BSt.relax (unitCost go) h p) s) ∧
      uMeasure L (ds.foldl (BSt.relax (unitCost go) h p) s) ≤ uMeasure L s := by
    intro ds
    induction ds with
    | nil => intro _ s H _; exact ⟨H, Nat.le_refl _⟩
    | cons d ds ih =>
      intro hds s H hp
      obtain ⟨h1, h2, h3⟩ := H.relax (h := h) hL hp (hds d (by simp))
      obtain ⟨h4, h5⟩ := ih (fun d hd => hds d (by simp [hd])) _ h1 (by rw [h3]; exact hp)
      exact ⟨h4, Nat.le_trans h5 h2⟩
  exact key _ (fun d hd => mem_clockwise.1 hd) s H hp

theorem UInv.init {L : List P2} {go : GoFn} {D : Bool} {INF : Int} (hINF : 0 < INF) {orig : P2} (ho : orig ∈ L) : UInv go D orig L INF (BSt.init INF orig) := by
  have hc : ∀ q, (BSt.init INF orig).c q = if q = orig then 0 else INF := by
    intro q
    by_cases h : q = orig
    · subst h; simp [BSt.init, upd_same]
    · simp [BSt.init, upd_other _ _ h, h]
  have hfin : ∀ q, (BSt.init INF orig).c q < INF → q = orig := by
    intro q hq
    rw [hc] at hq
    by_contra h
    rw [if_neg h] at hq
    omega
  refine ⟨fun q hq => hfin q hq ▸ ⟨[], isPath_nil⟩, fun q => ?_, fun q => ?_, fun q hq => ?_, fun e he => ?_⟩
  · rw [hc]; split <;> omega
  · rw [hc]; split <;> omega
  · have h1 := hfin q hq
    rw [hc, if_pos h1]
    have : 0 < known L INF (BSt.init INF orig).c := by
      refine List.countP_pos_iff.2 ⟨orig, ho, ?_⟩
      rw [hc, if_pos rfl]
      simpa using hINF
    omega
  · simp only [BSt.init, List.mem_singleton] at he
    subst he
    simp only
    rw [hc, if_pos rfl]
    exact hINF

/-- The answer with any heuristic. -/
def GAnswer (go : WGo) (D : Bool) (INF : Int) (orig dest : P2) (r : Res (P2 → Option Dir)) : Prop :=
  match r with
  | .error e => e = .destinationUnreachable ∧ ∀ ds n, IsCostPath go D orig ds dest n → INF ≤ n
  | .ok f => ∃ K s, GInv go D INF orig K f s ∧ K dest

theorem UInv.after {L : List P2} {go : GoFn} {D : Bool} {orig : P2} {h : P2 → Int} {INF : Int} {s : BSt} (hL : ∀ q, Reachable go D orig q → q ∈ L) (U : UInv go D orig L INF s) {e : Entry}
    {rest : List Entry} (hp : Heap.pop s.heap = some (e, rest)) :
    s.c e.2.1 < INF ∧ UInv go D orig L INF (BSt.after (unitCost go) h D s.c e rest) ∧ uMeasure L (BSt.after (unitCost go) h D s.c e rest) < uMeasure L s := by
  obtain ⟨hmem, -, hperm⟩ := Heap.pop_some hp
  have hlen : s.heap.length = rest.length + 1 := by rw [hperm.length_eq]; rfl
  have hpf := U.entry e hmem
  have U0 : UInv go D orig L INF { c := s.c, heap := rest } :=
    ⟨U.reach, U.nonneg, U.le, U.bound, fun x hx => U.entry x (hperm.mem_iff.2 (List.mem_cons_of_mem _ hx))⟩
  obtain ⟨h1, h2⟩ := U0.expand (h := h) hL hpf
  refine ⟨hpf, h1, Nat.lt_of_le_of_lt h2 ?_⟩
  unfold uMeasure
  simp only
  omega

theorem BSt.search_general {L : List P2} {go : GoFn} {h : P2 → Int} {D : Bool} {INF : Int} (hINF : 0 < INF) {orig dest : P2} (hL : ∀ q, Reachable go D orig q → q ∈ L)
    (fuel : Nat) : ∀ {K : P2 → Prop} {f : P2 → Option Dir} {s : BSt}, GInv (unitCost go) D INF orig K f s → UInv go D orig L INF s → ¬ K dest →
      uMeasure L s < fuel →
    ∃ r, BSt.search (unitCost go) h D dest fuel s f = .ok r ∧ GAnswer (unitCost go) D INF orig dest r := by
  induction fuel with
  | zero => intro K f s _ _ _ h; exact absurd h (Nat.not_lt_zero _)
  | succ fuel ih =>
    intro K f s H U hd hfuel
    cases hp : Heap.pop s.heap with
    | none =>
      refine ⟨_, BSt.search_none hp, rfl, fun ds m hm => ?_⟩
      by_contra hlt
      exact hd (H.complete (unitCost_nonneg go) hINF (Heap.pop_none hp) hm (by omega)).1
    | some er =>
      obtain ⟨e, rest⟩ := er
      have H' := H.step (h := h) (unitCost_nonneg go) hp
      obtain ⟨-, U', hlt⟩ := U.after (h := h) hL hp
      rw [BSt.search_some hp]
      by_cases he : e.2.1 = dest
      · rw [if_pos he]
        exact ⟨_, rfl, _, _, H', .inr he.symm⟩
      · rw [if_neg he]
        refine ih H' U' ?_ (by omega)
        rintro (h1 | h1)
        · exact hd h1
        · exact he h1.symm

theorem uMeasure_init (L : List P2) (INF : Int) (orig : P2) : uMeasure L (BSt.init INF orig) ≤ 2 * (L.length * L.length) + 1 := by
  unfold uMeasure
  have := capSum_le L.length (BSt.init INF orig).c L
  simp only [BSt.init, List.length_singleton] at this ⊢
  omega

end Sqrid
