import Verif.Proofs.Ucs
import Verif.Proofs.AstarSearch
/-! The outcome of `ucs::search_path`. -/

namespace Sqrid

open Spec

theorem limit_eq [Target] : limit = usizeMax := usizeMax_eq.symm

section
variable {T : PosTy} {go : WGo} {D : Bool} {orig dest : P2}

theorem Spec.UsizeCosts.nonNeg [Target] (h : UsizeCosts go) : NonNeg go := fun p d q w hg => (h p d q w hg).1

theorem cost_inGrid (hgo : StaysIn T (dropCost go)) (ho : InGrid T orig) : ∀ ds q n, IsCostPath go D orig ds q n → InGrid T q := by
  intro ds q n h
  exact isPath_inGrid hgo ho h.1

theorem Spec.BelowLimit.noOverflow [Target] (h : BelowLimit go D orig) : NoOverflow go D orig := fun p n d q w h1 _ h2 h3 =>
  Int.le_of_lt (h p n d q w h1 h2 h3)

theorem Spec.BelowLimit.lt [Target] (hw : NonNeg go) (h : BelowLimit go D orig) {q : P2} {n : Int} (hn : IsMinCost go D orig q n) : n < limit := by
  obtain ⟨⟨ds, hds⟩, hmin⟩ := hn
  rcases List.eq_nil_or_concat ds with rfl | ⟨ds', d, rfl⟩
  · have := hds.2
    injection this with e
    rw [← e]
    have := limit_pos
    omega
  · rw [List.concat_eq_append] at hds
    obtain ⟨r, m, w, h1, h2, h3, h4⟩ := isCostPath_concat hds
    obtain ⟨k, hk⟩ := isMinCost_exists hw (⟨ds', h1.1⟩ : Reachable (dropCost go) D orig r)
    obtain ⟨⟨ds'', hk1⟩, hk2⟩ := hk
    have h5 := hmin _ _ (isCostPath_snoc hk1 h2 h3)
    have h6 := h r k d q w ⟨⟨ds'', hk1⟩, hk2⟩ h2 h3
    omega

theorem pathCost_le {B : Int} (hB : ∀ p d q w, go p d = some (q, w) → w ≤ B) : ∀ (ds : List Dir) (p : P2) (n : Int), pathCost go p ds = some n →
    n ≤ B * (ds.length : Int) := by
  intro ds
  induction ds with
  | nil => intro p n h; injection h with h; rw [← h]; simp
  | cons d ds ih =>
    intro p n h
    simp only [pathCost] at h
    cases hg : go p d with
    | none => rw [hg] at h; cases h
    | some qw =>
      obtain ⟨q, w⟩ := qw
      rw [hg] at h
      simp only at h
      cases hc : pathCost go q ds with
      | none => rw [hc] at h; cases h
      | some c =>
        rw [hc] at h
        injection h with h
        replace h : w + c = n := h
        have h1 := ih q c hc
        have h2 := hB _ _ _ _ hg
        rw [List.length_cons]
        push_cast
        rw [Int.mul_add]
        omega

/-- Small steps keep the sums below the limit. -/
theorem belowLimit_of_dist [Target] {B : Int} {N : Nat} (hN : ∀ q n, IsDist (dropCost go) D orig q n → n < N) (h0 : 0 ≤ B)
    (hB : ∀ p d q w, go p d = some (q, w) → w ≤ B) (hlim : B * (N : Int) < limit) : BelowLimit go D orig := by
  rintro p n d q w ⟨⟨ds, hds⟩, hmin⟩ hd hg
  obtain ⟨k, ⟨ds', h1, h2⟩, h3⟩ := reachable_iff_isDist.1 (⟨ds, hds.1⟩ : Reachable (dropCost go) D orig p)
  have hk := hN p k ⟨⟨ds', h1, h2⟩, h3⟩
  obtain ⟨m, hm⟩ := isPath_cost h1
  have h4 := hmin _ _ hm
  have h5 := pathCost_le hB _ _ _ hm.2
  rw [h2] at h5
  have h6 := hB _ _ _ _ hg
  have h7 : B * (((k + 1 : Nat)) : Int) ≤ B * (N : Int) := Int.mul_le_mul_of_nonneg_left (by exact_mod_cast hk) h0
  push_cast at h7 hlim
  rw [Int.mul_add] at h7
  omega

theorem belowLimit_of_small [Target] {B : Int} (hgo : StaysIn T (dropCost go)) (ho : InGrid T orig) (h0 : 0 ≤ B) (hB : ∀ p d q w, go p d = some (q, w) → w ≤ B)
    (hlim : B * ((T.nx * T.ny : Nat) : Int) < limit) : BelowLimit go D orig :=
  belowLimit_of_dist (fun _ _ h => isDist_lt hgo ho h) h0 hB hlim

theorem Ucs.searchPath_panic [Target] {T : PosTy} {go : WGo} {D : Bool} {orig dest : P2} {fuel : Nat}
    (hmm : Ucs.searchMapmov (MapImpl.ideal none) (MapImpl.ideal 0) D go orig dest fuel = .panic) :
    Ucs.searchPath T (MapImpl.ideal none) (MapImpl.ideal 0) D go orig dest fuel = .panic := by
  unfold Ucs.searchPath
  rw [hmm]
  rfl

theorem Ucs.searchMapmov_total [Target] (hgo : StaysIn T (dropCost go)) (hw : NonNeg go) (hno : NoOverflow go D orig) (ho : InGrid T orig)
    (fuel : Nat) (hfuel : 8 * (T.nx * T.ny) + 1 < fuel) :
    ∃ r, Ucs.searchMapmov (MapImpl.ideal none) (MapImpl.ideal 0) D go orig dest fuel = .ok r := by
  rw [Ucs.searchMapmov_eq hw hno]
  obtain ⟨r, h, -⟩ := BSt.search_init (L := allPositions T true) (INF := usizeMax) (dest := dest) usizeMax_pos hw (consistent_zero hw)
    (fun ds q n h => PosTy.mem_allPositions.2 (cost_inGrid hgo ho ds q n h)) (by rwa [PosTy.allPositions_length]) (fun _ => none)
  exact ⟨r, h⟩

/-- Without overflow there is an answer. -/
theorem Ucs.searchPath_total [Target] (hT : T.Searchable) (hgo : StaysIn T (dropCost go)) (hw : NonNeg go) (hno : NoOverflow go D orig) (ho : InGrid T orig)
    (hd : InGrid T dest) (fuel : Nat) (hfuel : 8 * (T.nx * T.ny) + 1 < fuel) :
    ∃ r, Ucs.searchPath T (MapImpl.ideal none) (MapImpl.ideal 0) D go orig dest fuel = .ok r := by
  obtain ⟨r, h1⟩ := Ucs.searchMapmov_total (dest := dest) hgo hw hno ho fuel hfuel
  rw [Ucs.searchPath_of_mapmov h1]
  cases r with
  | error e => exact ⟨_, rfl⟩
  | ok f =>
    simp only
    rcases camefromIntoPath_spec hT (MapImpl.ideal none) f f ho hd (fun p hp => rfl) with
      ⟨-, a⟩ | ⟨-, ⟨path', -, -, a⟩ | ⟨m, -, -, a⟩ | ⟨-, -, a⟩⟩ <;> exact ⟨_, a⟩

theorem cost_covers {L : List P2} (hL : ∀ q, Reachable (dropCost go) D orig q → q ∈ L) : ∀ ds q n, IsCostPath go D orig ds q n → q ∈ L :=
  fun ds q _ h => hL q ⟨ds, h.1⟩

/-- With costs that depend only on the position that is entered, the way back of the map of a search is a cheapest path. -/
theorem Ucs.arrives_cheapest [Target] (hgo : Adjacent T (dropCost go)) (hw : NonNeg go) (hen : EnterCost go) (hG : ∀ ds q n, IsCostPath go D orig ds q n → InGrid T q)
    {L : List P2} (hcost : ∀ ds q n, IsCostPath go D orig ds q n → q ∈ L) {fuel : Nat} (hfuel : 8 * L.length + 1 < fuel) {f : P2 → Option Dir}
    (h1 : BSt.search go (fun _ => 0) D dest fuel (BSt.init usizeMax orig) (fun _ => none) = .ok (.ok f)) {path : List Dir} (b1 : Arrives T f orig dest path)
    {m : Int} (hm : IsMinCost go D orig dest m) : IsCostPath go D orig path dest m := by
  obtain ⟨r, h3, h4⟩ := BSt.search_enter_init (L := L) (INF := usizeMax) (dest := dest) usizeMax_pos hw hen hcost hfuel (fun _ => none)
  rw [h1] at h3
  injection h3 with h3
  subst h3
  obtain ⟨t, n, F, s, H, E, ht⟩ := h4
  obtain ⟨path', c1, c2⟩ := H.arrives_tight hgo hG (by
    intro q d u w hq hne hf hu he _
    obtain ⟨d', u', w', a1, a2, a3, a4⟩ := E.back q hq hne
    rw [hf] at a1
    injection a1 with a1
    subst a1
    have hin : ∀ v, 1 ≤ t v → InGrid T v := fun v hv => by
      obtain ⟨ds, hds⟩ := H.g.walk v (H.g.fin v hv)
      exact hG _ _ _ hds
    have e1 := (hgo u (opposite d) q (hin u hu) (by simp [dropCost, he.2])).2
    have e2 := (hgo u' (opposite d) q (hin u' a2) (by simp [dropCost, a3.2])).2
    have e3 : u = neighbour q d := by rw [e1, neighbour_opposite']
    have e4 : u' = neighbour q d := by rw [e2, neighbour_opposite']
    have e5 : u' = u := by rw [e3, e4]
    subst e5
    have := hen _ _ _ _ _ _ _ he.2 a3.2
    omega) dest ht
  rw [b1.unique c1, isMinCost_unique hm (H.isMinCost ht)]
  exact c2

/-- The outcome in every position type, up to the arithmetic of the way back, where the sums of the loop are exact. -/
theorem Ucs.searchPath_out' [Target] (hT : T.WF) (hgo : Adjacent T (dropCost go)) (hw : NonNeg go)
    (ho : InGrid T orig) {L : List P2} (hL : ∀ q, Reachable (dropCost go) D orig q → q ∈ L) (fuel : Nat) (hfuel : 8 * L.length + 1 < fuel)
    (heq : Ucs.searchMapmov (MapImpl.ideal none) (MapImpl.ideal 0) D go orig dest fuel =
      BSt.search go (fun _ => 0) D dest fuel (BSt.init usizeMax orig) (fun _ => none)) :
    ((∀ n, IsMinCost go D orig dest n → limit ≤ n) ∧
      Ucs.searchPath T (MapImpl.ideal none) (MapImpl.ideal 0) D go orig dest fuel = .ok (.error .destinationUnreachable)) ∨
    ((∃ n, IsMinCost go D orig dest n ∧ n < limit) ∧ ∃ path, IsPath (dropCost go) D orig path dest ∧ path.length < L.length ∧
      (EnterCost go → ∀ n, IsMinCost go D orig dest n → IsCostPath go D orig path dest n) ∧
      Ucs.searchPath T (MapImpl.ideal none) (MapImpl.ideal 0) D go orig dest fuel = wayOut T orig dest (some path)) := by
  have hG := cost_inGrid (D := D) hgo.staysIn ho
  have hcost := cost_covers hL
  simp only [limit_eq]
  obtain ⟨r, h1, h2⟩ := BSt.search_init (L := L) (INF := usizeMax) (dest := dest) usizeMax_pos hw (consistent_zero hw) hcost hfuel (fun _ => none)
  rw [← heq] at h1
  rw [Ucs.searchPath_of_mapmov h1]
  cases r with
  | error e =>
    refine .inl ⟨fun n hn => ?_, by rw [h2.1]⟩
    obtain ⟨⟨ds, hds⟩, -⟩ := hn
    exact h2.2 ds n hds
  | ok f =>
    obtain ⟨t, n, F, s, H, ht, -⟩ := h2
    right
    simp only
    obtain ⟨path, b1, b2⟩ := H.arrives hgo hG dest ht
    refine ⟨⟨_, H.isMinCost ht, H.g.fin dest ht⟩, path, b2, b1.length_lt_list (H.g.back_step hgo hG) (fun q hq => by
      obtain ⟨ds, hds⟩ := H.g.walk q (H.g.fin q hq)
      exact hcost _ _ _ hds) ht, fun hen m hm => ?_, ?_⟩
    · exact Ucs.arrives_cheapest hgo hw hen hG hcost hfuel (heq ▸ h1) b1 hm
    · obtain ⟨o, a1, ⟨path', rfl, a2, -⟩ | ⟨-, a2⟩⟩ := camefrom_of_inv hT hgo hG H.g ht
      · rw [a1, b1.unique a2]
      · exact absurd b1 (a2 _)

/-- The outcome in every position type, up to the arithmetic of the way back. -/
theorem Ucs.searchPath_out [Target] (hT : T.WF) (hgo : Adjacent T (dropCost go)) (hw : NonNeg go) (hc : Target.checks = true ∨ NoOverflow go D orig)
    (ho : InGrid T orig) {L : List P2} (hL : ∀ q, Reachable (dropCost go) D orig q → q ∈ L) (fuel : Nat) (hfuel : 8 * L.length + 1 < fuel) :
    (¬ NoOverflow go D orig ∧ Ucs.searchPath T (MapImpl.ideal none) (MapImpl.ideal 0) D go orig dest fuel = .panic) ∨
    ((∀ n, IsMinCost go D orig dest n → limit ≤ n) ∧
      Ucs.searchPath T (MapImpl.ideal none) (MapImpl.ideal 0) D go orig dest fuel = .ok (.error .destinationUnreachable)) ∨
    ((∃ n, IsMinCost go D orig dest n ∧ n < limit) ∧ ∃ path, IsPath (dropCost go) D orig path dest ∧ path.length < L.length ∧
      (EnterCost go → ∀ n, IsMinCost go D orig dest n → IsCostPath go D orig path dest n) ∧
      Ucs.searchPath T (MapImpl.ideal none) (MapImpl.ideal 0) D go orig dest fuel = wayOut T orig dest (some path)) := by
  have hG := cost_inGrid (D := D) hgo.staysIn ho
  have hcost := cost_covers hL
  by_cases hno : NoOverflow go D orig
  swap
  · rcases Ucs.searchMapmov_cases (D := D) (orig := orig) (hc.resolve_right hno) hw dest fuel with hpan | heq
    · exact .inl ⟨hno, Ucs.searchPath_panic hpan⟩
    · right
      exact Ucs.searchPath_out' hT hgo hw ho hL fuel hfuel heq
  right
  exact Ucs.searchPath_out' hT hgo hw ho hL fuel hfuel (Ucs.searchMapmov_eq hw hno dest fuel)

/-- The outcome. -/
theorem Ucs.searchPath_spec [Target] (hT : T.Searchable) (hgo : Adjacent T (dropCost go)) (hw : NonNeg go) (hc : Target.checks = true ∨ NoOverflow go D orig)
    (ho : InGrid T orig) (hd : InGrid T dest) (fuel : Nat) (hfuel : 8 * (T.nx * T.ny) + 1 < fuel) :
    Ucs.searchPath T (MapImpl.ideal none) (MapImpl.ideal 0) D go orig dest fuel = .panic ∨
    ((∀ n, IsMinCost go D orig dest n → limit ≤ n) ∧
      Ucs.searchPath T (MapImpl.ideal none) (MapImpl.ideal 0) D go orig dest fuel = .ok (.error .destinationUnreachable)) ∨
    ((∃ n, IsMinCost go D orig dest n ∧ n < limit) ∧ ∃ path, IsPath (dropCost go) D orig path dest ∧ path.length < T.nx * T.ny ∧
      (EnterCost go → ∀ n, IsMinCost go D orig dest n → IsCostPath go D orig path dest n) ∧
      Ucs.searchPath T (MapImpl.ideal none) (MapImpl.ideal 0) D go orig dest fuel =
        if path.length ≤ T.nx * T.nx then .ok (.ok path) else .ok (.error .loop)) := by
  rcases Ucs.searchPath_out (dest := dest) hT.wf hgo hw hc ho (covers hgo.staysIn ho) fuel (by rwa [PosTy.allPositions_length]) with
    ⟨-, h⟩ | h | ⟨h1, path, h2, h3, h4, h5⟩
  · exact .inl h
  · exact .inr (.inl h)
  · rw [PosTy.allPositions_length] at h3
    refine .inr (.inr ⟨h1, path, h2, h3, h4, ?_⟩)
    rw [h5, wayOut_searchable hT ho hd]
    simp only
    split <;> rfl

/-! ### Validity of the path, with any sums -/

/-- Every movement `m` is a step along an edge, or to the origin; its position is reachable. -/
def Linked (T : PosTy) (go : WGo) (D : Bool) (orig : P2) (m : P2 × Dir) : Prop :=
  (InGrid T m.1 ∧ Reachable (dropCost go) D orig m.1) ∧ (m.1 = orig ∨ Allowed D (opposite m.2) ∧ dropCost go (neighbour m.1 m.2) (opposite m.2) = some m.1)

theorem UcsIter.relax_linked [Target] (hgo : Adjacent T (dropCost go)) {p : P2} (hp : InGrid T p ∧ Reachable (dropCost go) D orig p)
    {s s' : UcsIter (MapImpl.ideal 0)} {d : Dir} (hd : Allowed D d) (h : ∀ e ∈ s.frontier, Linked T go D orig e.2) (hr : UcsIter.relax (MapImpl.ideal 0) go p s d = .ok s') : ∀ e ∈ s'.frontier, Linked T go D orig e.2 := by
  unfold UcsIter.relax at hr
  cases hg : go p d with
  | none => rw [hg] at hr; injection hr with hr; exact hr ▸ h
  | some qw =>
    obtain ⟨q, w⟩ := qw
    rw [hg] at hr
    simp only [MapImpl.ideal, Out.ok_bind] at hr
    cases ha : IntTy.usize.add (s.cost p) w with
    | ok v =>
      rw [ha, Out.ok_bind] at hr
      split at hr
      · rw [Dir.flip_eq, Out.ok_bind] at hr
        injection hr with hr
        subst hr
        intro e he
        rcases List.mem_cons.1 he with rfl | he
        · have hdc : dropCost go p d = some q := by simp [dropCost, hg]
          obtain ⟨h1, h2⟩ := hgo p d q hp.1 hdc
          obtain ⟨ds, hds⟩ := hp.2
          refine ⟨⟨h1, _, isPath_append hds (isPath_single hd hdc)⟩, .inr ?_⟩
          simp only [opposite_opposite]
          rw [h2, neighbour_opposite, ← h2]
          exact ⟨hd, hdc⟩
        · exact h e he
      · injection hr with hr; exact hr ▸ h
    | panic => rw [ha] at hr; cases hr
    | ub => rw [ha] at hr; cases hr
    | timeout => rw [ha] at hr; cases hr

theorem UcsIter.next_linked [Target] (hgo : Adjacent T (dropCost go)) {s s' : UcsIter (MapImpl.ideal 0)} {o : Option (P2 × Dir)}
    (h : ∀ e ∈ s.frontier, Linked T go D orig e.2) (hr : UcsIter.next (MapImpl.ideal 0) D go s = .ok (o, s')) :
    (∀ e ∈ s'.frontier, Linked T go D orig e.2) ∧ ∀ m, o = some m → Linked T go D orig m := by
  unfold UcsIter.next at hr
  cases hp : Heap.pop s.frontier with
  | none =>
    rw [hp] at hr
    injection hr with hr
    injection hr with h1 h2
    subst h1 h2
    exact ⟨h, fun m hm => by cases hm⟩
  | some er =>
    obtain ⟨⟨pr, mov⟩, rest⟩ := er
    obtain ⟨hm, -, hperm⟩ := Heap.pop_some hp
    have hmov := h _ hm
    rw [hp] at hr
    simp only at hr
    rw [toList_dirs, Out.ok_bind] at hr
    have key : ∀ (ds : List Dir), (∀ d ∈ ds, Allowed D d) → ∀ s s' : UcsIter (MapImpl.ideal 0), (∀ e ∈ s.frontier, Linked T go D orig e.2) →
        ds.foldlM (UcsIter.relax (MapImpl.ideal 0) go mov.1) s = .ok s' → ∀ e ∈ s'.frontier, Linked T go D orig e.2 := by
      intro ds
      induction ds with
      | nil => intro _ s s' h h'; injection h' with h'; exact h' ▸ h
      | cons d ds ih =>
        intro hds s s' h h'
        rw [List.foldlM_cons] at h'
        cases hx : UcsIter.relax (MapImpl.ideal 0) go mov.1 s d with
        | ok s1 =>
          rw [hx, Out.ok_bind] at h'
          exact ih (fun d hd => hds d (by simp [hd])) s1 s' (UcsIter.relax_linked hgo hmov.1 (hds d (by simp)) h hx) h'
        | panic => rw [hx] at h'; cases h'
        | ub => rw [hx] at h'; cases h'
        | timeout => rw [hx] at h'; cases h'
    cases hx : (clockwise D).foldlM (UcsIter.relax (MapImpl.ideal 0) go mov.1) { s with frontier := rest } with
    | ok s1 =>
      rw [hx, Out.ok_bind] at hr
      injection hr with hr
      injection hr with h1 h2
      subst h1 h2
      refine ⟨key _ (fun d hd => mem_clockwise.1 hd) _ _ (fun e he => h e (hperm.mem_iff.2 (List.mem_cons_of_mem _ he))) hx, fun m hm => ?_⟩
      injection hm with hm
      exact hm ▸ hmov
    | panic => rw [hx] at hr; cases hr
    | ub => rw [hx] at hr; cases hr
    | timeout => rw [hx] at hr; cases hr

theorem Ucs.loop_linked [Target] (hgo : Adjacent T (dropCost go)) (fuel : Nat) : ∀ {s : UcsIter (MapImpl.ideal 0)} {f g : P2 → Option Dir},
    (∀ e ∈ s.frontier, Linked T go D orig e.2) → (∀ p d, f p = some d → Linked T go D orig (p, d)) →
    Ucs.searchLoop (MapImpl.ideal none) (MapImpl.ideal 0) D go dest fuel s f = .ok (.ok g) → ∀ p d, g p = some d → Linked T go D orig (p, d) := by
  induction fuel with
  | zero => intro s f g _ _ h; cases h
  | succ n ih =>
    intro s f g h1 h2 h
    unfold Ucs.searchLoop at h
    cases hn : UcsIter.next (MapImpl.ideal 0) D go s with
    | ok x =>
      obtain ⟨o, s'⟩ := x
      obtain ⟨k1, k2⟩ := UcsIter.next_linked hgo h1 hn
      rw [hn, Out.ok_bind] at h
      cases o with
      | none => cases h
      | some m =>
        obtain ⟨p, d⟩ := m
        have hf : ∀ q e, upd f p (some d) q = some e → Linked T go D orig (q, e) := by
          intro q e he
          by_cases hq : q = p
          · subst hq; rw [upd_same] at he; injection he with he; exact he ▸ k2 _ rfl
          · rw [upd_other _ _ hq] at he; exact h2 q e he
        simp only [MapImpl.ideal, Out.ok_bind] at h
        split at h
        · injection h with h; injection h with h; exact h ▸ hf
        · exact ih k1 hf h
    | panic => rw [hn] at h; cases h
    | ub => rw [hn] at h; cases h
    | timeout => rw [hn] at h; cases h

theorem Ucs.loop_error [Target] (fuel : Nat) : ∀ {s : UcsIter (MapImpl.ideal 0)} {f : P2 → Option Dir} {e : Error},
    Ucs.searchLoop (MapImpl.ideal none) (MapImpl.ideal 0) D go dest fuel s f = .ok (.error e) → e = .destinationUnreachable := by
  induction fuel with
  | zero => intro s f e h; cases h
  | succ n ih =>
    intro s f e h
    unfold Ucs.searchLoop at h
    cases hn : UcsIter.next (MapImpl.ideal 0) D go s with
    | ok x =>
      obtain ⟨o, s'⟩ := x
      rw [hn, Out.ok_bind] at h
      cases o with
      | none => injection h with h; injection h with h; exact h.symm
      | some m =>
        simp only [MapImpl.ideal, Out.ok_bind] at h
        split at h
        · injection h with h; cases h
        · exact ih h
    | panic => rw [hn] at h; cases h
    | ub => rw [hn] at h; cases h
    | timeout => rw [hn] at h; cases h

/-- The path is the way back along linked movements, also if sums wrap around. -/
theorem Ucs.searchPath_linked [Target] (hT : T.WF) (hgo : Adjacent T (dropCost go)) (ho : InGrid T orig) (hd : InGrid T dest) (fuel : Nat) {path : List Dir}
    (h : Ucs.searchPath T (MapImpl.ideal none) (MapImpl.ideal 0) D go orig dest fuel = .ok (.ok path)) :
    ∃ g, (∀ p d, g p = some d → Linked T go D orig (p, d)) ∧ Arrives T g orig dest path := by
  cases hm : Ucs.searchMapmov (MapImpl.ideal none) (MapImpl.ideal 0) D go orig dest fuel with
  | ok r =>
    rw [Ucs.searchPath_of_mapmov hm] at h
    cases r with
    | error e => cases h
    | ok g =>
      simp only at h
      unfold Ucs.searchMapmov at hm
      rw [UcsIter.new_eq, Out.ok_bind] at hm
      refine ⟨g, Ucs.loop_linked (orig := orig) hgo fuel (fun e he => by
        simp only [BSt.ucs, BSt.init, List.mem_singleton] at he
        subst he
        exact ⟨⟨ho, [], isPath_nil⟩, .inl rfl⟩) (fun p d h => by cases h) hm, ?_⟩
      exact camefrom_arrives hT hd h
  | panic => unfold Ucs.searchPath at h; rw [hm] at h; cases h
  | ub => unfold Ucs.searchPath at h; rw [hm] at h; cases h
  | timeout => unfold Ucs.searchPath at h; rw [hm] at h; cases h

theorem Linked.isPath {g : P2 → Option Dir} (hl : ∀ p d, g p = some d → Linked T go D orig (p, d)) {q : P2} {path : List Dir} (hp : Arrives T g orig q path) :
    IsPath (dropCost go) D orig path q := by
  induction hp with
  | here => exact isPath_nil
  | step hne hg hin _ ih =>
    rcases (hl _ _ hg).2 with h | ⟨h1, h2⟩
    · exact absurd h hne
    · exact isPath_append ih (isPath_single h1 h2)

/-- The destination is not reachable: no answer but `DestinationUnreachable`. -/
theorem Ucs.searchPath_unreachable [Target] (hgo : Adjacent T (dropCost go)) (ho : InGrid T orig) (fuel : Nat)
    (hn : ¬ Reachable (dropCost go) D orig dest) {r : Res (List Dir)}
    (h : Ucs.searchPath T (MapImpl.ideal none) (MapImpl.ideal 0) D go orig dest fuel = .ok r) : r = .error .destinationUnreachable := by
  cases hm : Ucs.searchMapmov (MapImpl.ideal none) (MapImpl.ideal 0) D go orig dest fuel with
  | ok x =>
    have hm' := hm
    rw [Ucs.searchPath_of_mapmov hm] at h
    cases x with
    | error e =>
      injection h with h
      subst h
      unfold Ucs.searchMapmov at hm
      rw [UcsIter.new_eq, Out.ok_bind] at hm
      rw [Ucs.loop_error fuel hm]
    | ok g =>
      simp only at h
      unfold Ucs.searchMapmov at hm
      rw [UcsIter.new_eq, Out.ok_bind] at hm
      have hl := Ucs.loop_linked (orig := orig) hgo fuel (fun e he => by
        simp only [BSt.ucs, BSt.init, List.mem_singleton] at he
        subst he
        exact ⟨⟨ho, [], isPath_nil⟩, .inl rfl⟩) (fun p d h => by cases h) hm
      cases hg : g dest with
      | some d => exact absurd (hl _ _ hg).1.2 hn
      | none => exact camefrom_none hg h
  | panic => unfold Ucs.searchPath at h; rw [hm] at h; cases h
  | ub => unfold Ucs.searchPath at h; rw [hm] at h; cases h
  | timeout => unfold Ucs.searchPath at h; rw [hm] at h; cases h

/-- The path is along edges, also if sums wrap around. -/
theorem Ucs.searchPath_valid [Target] (hT : T.WF) (hgo : Adjacent T (dropCost go)) (ho : InGrid T orig) (hd : InGrid T dest) (fuel : Nat) {path : List Dir}
    (h : Ucs.searchPath T (MapImpl.ideal none) (MapImpl.ideal 0) D go orig dest fuel = .ok (.ok path)) : IsPath (dropCost go) D orig path dest := by
  obtain ⟨g, h1, h2⟩ := Ucs.searchPath_linked hT hgo ho hd fuel h
  exact Linked.isPath h1 h2

end

end Sqrid
