import Mathlib.Tactic.IntervalCases
import Verif.Proofs.BestFirstFresh
import Verif.Props.Ties
/-!
# Ties between the neighbours on shortest ways: C140

C137 says which of several neighbours a step of a returned path comes from, if the position is reached before the destination would be. Here is the same for steps that
are on a cheapest way to the position, also if that is the destination. It determines the path that the searches return in simple cases.
-/

namespace Sqrid

-- Statements that do not mention a target are about a debug build for a 64-bit machine.
attribute [local instance] debug64

open Spec

/-- The position that a step leads to was expanded too. -/
theorem CInv.step_at_popped {T : PosTy} {go : WGo} {h : P2 → Int} {D : Bool} {INF : Int} {orig dest : P2} {t : P2 → Nat} {n : Nat} {F : Int}
    {f : P2 → Option Dir} {s : BSt} (hgo : Adjacent T (dropCost go)) (hG : ∀ ds q n, IsCostPath go D orig ds q n → InGrid T q)
    (H : CInv go h D INF orig t n F f s) (hd : 1 ≤ t dest) {as bs : List Dir} {d : Dir} (ha : Arrives T f orig dest (as ++ d :: bs)) :
    ∃ q r w d', follow (dropCost go) orig as = some q ∧ 1 ≤ t q ∧ go q d = some (r, w) ∧ r ≠ orig ∧ f r = some d' ∧ neighbour r d' = q ∧ 1 ≤ t r := by
  obtain ⟨q, r, w, d', h1, h2, h3, h4, h5, h6⟩ := H.step_at hgo hG hd ha
  refine ⟨q, r, w, d', h1, h2, h3, h4, h5, h6, ?_⟩
  obtain ⟨r', hr, hra⟩ := ha.pre (K := fun q => 1 ≤ t q) (H.g.back_step hgo hG) hd (as ++ [d]) bs (by simp)
  have h7 := (H.g.arrives_path hgo hG hra hr).2
  rw [follow_append, h1] at h7
  simp only [Option.bind_some, follow, dropCost, h3, Option.map_some, Option.some.injEq] at h7
  rwa [h7]

/-- The step to `r` comes from `q`, so no other neighbour of `r` that is on a cheapest way to `r` has a way that is taken before `q`. -/
theorem SInv.tie_tight {go : WGo} {h : P2 → Int} {D : Bool} {INF : Int} {orig : P2} {t : P2 → Nat} {n : Nat} {F : Int} {f : P2 → Option Dir} {s : BSt}
    (H : CInv go h D INF orig t n F f s) (S : SInv go h D INF orig t f s) (I : FInv h t s) {q r z q' : P2} {d d' : Dir} {ds : List Dir} {m w' : Int} (hq : 1 ≤ t q)
    (hr : 1 ≤ t r) (hro : r ≠ orig) (hf : f r = some d) (hs : neighbour r d = q) (hne : z ≠ q)
    (hz : ∀ ds, IsPath (dropCost go) D orig ds q → ∃ i, follow (dropCost go) orig (ds.take i) = some z)
    (hds : IsCostPath go D z ds q' m) (hquick : Quick go h D INF z q (s.c z) (s.c q + h q) ds) (hd' : WEdge go D q' d' r w')
    (htight : s.c r = s.c z + m + w') : q' = q := by
  obtain ⟨h1, h2⟩ := H.dominator hq hne hz
  obtain ⟨h3, h4⟩ := S.ahead q z h1 h2 ds q' m hds hquick
  obtain ⟨ps, hps⟩ := H.g.walk z (H.g.fin z h1)
  have h5 := H.opt q' h3 _ _ (isCostPath_append hps hds)
  have h6 := H.closed q' h3 _ _ _ hd'
  have h7 := H.g.fin r hr
  rcases S.edge q' h3 d' r w' hd' hro (by omega) with ⟨e, a1, a2, a3, -⟩ | ⟨-, d2, a1, a2⟩
  · have := I.popped e a1 (by rw [a2]; exact hr)
    rw [a2] at this
    omega
  · rw [hf] at a1
    injection a1 with a1
    subst a1
    rw [hs] at a2
    exact (S.inj q q' hq (by omega)).symm

/-- The core of C140 for the uniform-cost search: the way back of the map of a search. -/
theorem Ucs.not_from [Target] {T : PosTy} {go : WGo} {D : Bool} (hgo : Adjacent T (dropCost go)) (hc : UsizeCosts go) {orig dest : P2} (ho : InGrid T orig) {fuel : Nat}
    {f : P2 → Option Dir} (hm : BSt.search go (fun _ => 0) D dest fuel (BSt.init usizeMax orig) (fun _ => none) = .ok (.ok f))
    {as : List Dir} {d : Dir} {bs : List Dir} (ha : Arrives T f orig dest (as ++ d :: bs))
    {q₀ r : P2} {w : Int} (hq : follow (dropCost go) orig as = some q₀) (hqr : go q₀ d = some (r, w)) {q : P2} {k : Int} (hk : IsMinCost go D orig q k)
    {z : P2} (hzq : z ≠ q) (hz : ∀ ds, IsPath (dropCost go) D orig ds q → ∃ i, follow (dropCost go) orig (ds.take i) = some z)
    {c : Int} (hcz : IsMinCost go D orig z c) {ds : List Dir} {q' : P2} (hq' : q' ≠ q) {m : Int} (hds : IsCostPath go D z ds q' m)
    (hway : ∀ i p j, 1 ≤ i → i ≤ ds.length → IsCostPath go D z (ds.take i) p j → c + j < k ∨ c + j = k ∧ (q.1 < p.1 ∨ q.1 = p.1 ∧ q.2 < p.2))
    {d' : Dir} {w' : Int} (hd' : Allowed D d') (hg' : go q' d' = some (r, w')) (htight : IsMinCost go D orig r (c + m + w')) : q₀ ≠ q := by
  rintro rfl
  have hG := cost_inGrid (D := D) hgo.staysIn ho
  obtain ⟨t, n', F, s, H, S, I, hK, hF⟩ := BSt.search_fresh_init usizeMax_pos hc.nonNeg (consistent_zero hc.nonNeg) (stepsBack_of_adjacent hgo hG) hm
  obtain ⟨q2, r2, w2, d2, a1, a2, a3, a4, a5, a6, a8⟩ := H.step_at_popped hgo hG hK ha
  rw [hq] at a1
  injection a1 with a1
  subst a1
  rw [hqr] at a3
  injection a3 with a3
  injection a3 with a3 a7
  subst a3
  have hfinq := H.g.fin q₀ a2
  have e2 := isMinCost_unique hk (H.isMinCost a2)
  have e3 := isMinCost_unique hcz (H.isMinCost (H.dominator a2 hzq hz).1)
  have e4 := isMinCost_unique htight (H.isMinCost a8)
  refine hq' (S.tie_tight H I a2 a8 a4 a5 a6 hzq hz hds (fun pre suf hpre hnil p j hp => ?_) ⟨hd', hg'⟩ (by omega))
  have := hway pre.length p j (List.length_pos_of_ne_nil hnil) (by rw [hpre]; simp) (by rw [hpre, List.take_left' rfl]; exact hp)
  simp only [PosTy.lt, Bool.or_eq_true, Bool.and_eq_true, decide_eq_true_eq, beq_iff_eq]
  omega

/-- A path that the uniform-cost search returns is the way back of a map. -/
theorem Ucs.returned_arrives [Target] {T : PosTy} (hT : T.Searchable) {ucs} (hucs : Ucs.IsSearch T ucs) {go : WGo} {D : Bool} (hgo : Adjacent T (dropCost go))
    (hc : UsizeCosts go) {orig dest : P2} (hov : Target.checks = true ∨ NoOverflow go D orig) (ho : InGrid T orig) (hd : InGrid T dest) {fuel : Nat} {path : List Dir}
    (h : ucs D go orig dest fuel = .ok (.ok path)) :
    ∃ f, BSt.search go (fun _ => 0) D dest fuel (BSt.init usizeMax orig) (fun _ => none) = .ok (.ok f) ∧ Arrives T f orig dest path := by
  rw [hucs.eq hT hgo.staysIn ho hd] at h
  rcases hov.elim (fun hck => Ucs.searchMapmov_cases (D := D) (orig := orig) hck hc.nonNeg dest fuel)
    (fun hno => .inr (Ucs.searchMapmov_eq hc.nonNeg hno dest fuel)) with hpan | heq'
  · rw [Ucs.searchPath_panic hpan] at h; cases h
  cases hm : Ucs.searchMapmov (MapImpl.ideal none) (MapImpl.ideal 0) D go orig dest fuel with
  | ok r =>
    rw [Ucs.searchPath_of_mapmov hm] at h
    cases r with
    | error e => cases h
    | ok f => exact ⟨f, heq' ▸ hm, camefrom_arrives hT.wf hd h⟩
  | panic => unfold Ucs.searchPath at h; rw [hm] at h; cases h
  | ub => unfold Ucs.searchPath at h; rw [hm] at h; cases h
  | timeout => unfold Ucs.searchPath at h; rw [hm] at h; cases h

/-- C140. In a path that the uniform-cost search returns, a step that leads to `r` comes from `q₀`. Let `q` be any position, and `z` another one, which every way
from the origin to `q` goes through. Let a way lead on from `z` to a position `q'`, not `q`, and from there to `r`, and let this be a cheapest way to `r`.
If each position on this way from `z` to `q'` is cheaper to reach along it than `q`, or costs the same and is greater in the order of the positions, then `q₀` is not
`q`. -/
theorem C140_ucs [Target] (T : PosTy) (hT : T.Searchable) (ucs) (hucs : Ucs.IsSearch T ucs) (D : Bool)
    (go : Int × Int → Dir → Option ((Int × Int) × Int)) (hgo : Adjacent T (dropCost go)) (hc : UsizeCosts go) (orig dest : Int × Int)
    (hov : Target.checks = true ∨ NoOverflow go D orig) (ho : InGrid T orig) (hd : InGrid T dest) (fuel : Nat)
    (as : List Dir) (d : Dir) (bs : List Dir) (h : ucs D go orig dest fuel = .ok (.ok (as ++ d :: bs)))
    (q₀ r : Int × Int) (w : Int) (hq : follow (dropCost go) orig as = some q₀) (hqr : go q₀ d = some (r, w)) (q : Int × Int)
    (k : Int) (hk : IsMinCost go D orig q k)
    (z : Int × Int) (hzq : z ≠ q) (hz : ∀ ds, IsPath (dropCost go) D orig ds q → ∃ i, follow (dropCost go) orig (ds.take i) = some z)
    (c : Int) (hcz : IsMinCost go D orig z c) (ds : List Dir) (q' : Int × Int) (hq' : q' ≠ q) (m : Int) (hds : IsCostPath go D z ds q' m)
    (hway : ∀ i p j, 1 ≤ i → i ≤ ds.length → IsCostPath go D z (ds.take i) p j → c + j < k ∨ c + j = k ∧ (q.1 < p.1 ∨ q.1 = p.1 ∧ q.2 < p.2))
    (d' : Dir) (w' : Int) (hd' : Allowed D d') (hg' : go q' d' = some (r, w')) (htight : IsMinCost go D orig r (c + m + w')) : q₀ ≠ q := by
  obtain ⟨f, hm, ha⟩ := Ucs.returned_arrives hT hucs hgo hc hov ho hd h
  exact Ucs.not_from hgo hc ho hm ha hq hqr hk hzq hz hcz hq' hds hway hd' hg' htight

/-- In a grid with walls and costs of 1, a path as long as the Manhattan distance is a cheapest one. -/
theorem isMinCost_straight {T : PosTy} {walls : List P2} {orig q : P2} (ho : InGrid T orig) (ds : List Dir) (h1 : ∀ d ∈ ds, Allowed false d)
    (h2 : follow (aroundWalls T walls) orig ds = some q) (h3 : (ds.length : Int) = l1 orig q) : IsMinCost (unitCost (aroundWalls T walls)) false orig q ds.length := by
  refine isMinCost_unit.2 ⟨_, rfl, ⟨ds, ⟨h1, h2⟩, rfl⟩, fun ds' h' => ?_⟩
  have := l1_le_path (aroundWalls_adjacent T walls) ho h'
  omega

-- With costs of 1, both (2, 1) and (1, 2) lead to the destination (2, 2). The path does not come from (1, 2).
example (as : List Dir) (d : Dir) (bs : List Dir)
    (h : Ucs.pathHash (PosTy.pos 2 2) false (unitCost (aroundWalls (PosTy.pos 2 2) [(2, 0), (0, 2)])) (0, 0) (2, 2) 300 = .ok (.ok (as ++ d :: bs))) (q₀ : Int × Int)
    (hq : follow (dropCost (unitCost (aroundWalls (PosTy.pos 2 2) [(2, 0), (0, 2)]))) (0, 0) as = some q₀)
    (hr : unitCost (aroundWalls (PosTy.pos 2 2) [(2, 0), (0, 2)]) q₀ d = some ((2, 2), 1)) : q₀ ≠ (1, 2) := by
  have hgo := aroundWalls_adjacent (PosTy.pos 2 2) [(2, 0), (0, 2)]
  have ho : InGrid (PosTy.pos 2 2) (0, 0) := by unfold InGrid; decide
  refine C140_ucs (PosTy.pos 2 2) (PosTy.pos_searchable (by decide) (by decide) (.inl rfl)) _ (.inr (.inl rfl)) false _ (unitCost_adjacent hgo) (unitCost_usize _) (0, 0) (2, 2)
    (.inl rfl) ho (by unfold InGrid; decide) 300 as d bs h q₀ (2, 2) 1 hq hr (1, 2) 3
    (isMinCost_straight ho [.E, .S, .S] (by simp [Allowed, unit]) (by decide +kernel) (by decide +kernel)) (0, 0) (by decide) (fun _ _ => ⟨0, rfl⟩) 0
    (isMinCost_self (unitCost_nonneg _)) [.E, .S, .E] (2, 1) (by decide) 3 (isCostPath_unit.2 ⟨⟨by simp [Allowed, unit], by decide +kernel⟩, rfl⟩) (fun i p j h1 h2 hp => ?_)
    .S 1 (by simp [Allowed, unit]) (by decide +kernel) (isMinCost_straight ho [.E, .S, .E, .S] (by simp [Allowed, unit]) (by decide +kernel) (by decide +kernel))
  obtain ⟨h3, rfl⟩ := isCostPath_unit.1 hp
  have h4 := h3.2
  simp only [List.length_cons, List.length_nil] at h2
  interval_cases i
  · rw [show follow (aroundWalls (PosTy.pos 2 2) [(2, 0), (0, 2)]) (0, 0) (List.take 1 [.E, .S, .E]) = some (1, 0) by decide +kernel, Option.some.injEq] at h4
    subst h4
    decide
  · rw [show follow (aroundWalls (PosTy.pos 2 2) [(2, 0), (0, 2)]) (0, 0) (List.take 2 [.E, .S, .E]) = some (1, 1) by decide +kernel, Option.some.injEq] at h4
    subst h4
    decide
  · rw [show follow (aroundWalls (PosTy.pos 2 2) [(2, 0), (0, 2)]) (0, 0) (List.take 3 [.E, .S, .E]) = some (2, 1) by decide +kernel, Option.some.injEq] at h4
    subst h4
    decide
example : Ucs.pathHash (PosTy.pos 2 2) false (unitCost (aroundWalls (PosTy.pos 2 2) [(2, 0), (0, 2)])) (0, 0) (2, 2) 300 = .ok (.ok ([.E, .S, .E] ++ .S :: [])) := by
  decide +kernel

/-- C140. The same for A* without diagonals: what counts for a position is its distance from the origin and its Manhattan distance to the destination, added up. -/
theorem C140_astar [Target] (T : PosTy) (hT : T.Searchable) (astar) (hastar : Astar.IsSearch T astar)
    (go : Int × Int → Dir → Option (Int × Int)) (hgo : Adjacent T go) (orig dest : Int × Int) (ho : InGrid T orig) (hd : InGrid T dest) (fuel : Nat)
    (as : List Dir) (d : Dir) (bs : List Dir) (h : astar false go orig dest fuel = .ok (.ok (as ++ d :: bs)))
    (q₀ r : Int × Int) (hq : follow go orig as = some q₀) (hqr : go q₀ d = some r) (q : Int × Int) (k : Nat) (hk : IsDist go false orig q k)
    (z : Int × Int) (hzq : z ≠ q) (hz : ∀ ds, IsPath go false orig ds q → ∃ i, follow go orig (ds.take i) = some z)
    (c : Nat) (hcz : IsDist go false orig z c) (ds : List Dir) (q' : Int × Int) (hq' : q' ≠ q)
    (hds : IsPath go false z ds q')
    (hway : ∀ i p, 1 ≤ i → i ≤ ds.length → follow go z (ds.take i) = some p →
      (c : Int) + i + l1 p dest < k + l1 q dest ∨ (c : Int) + i + l1 p dest = k + l1 q dest ∧ (q.1 < p.1 ∨ q.1 = p.1 ∧ q.2 < p.2))
    (d' : Dir) (hd' : Allowed false d') (hg' : go q' d' = some r) (htight : IsDist go false orig r (c + ds.length + 1)) : q₀ ≠ q := by
  rintro rfl
  obtain ⟨fuel, hfuel, h⟩ := hastar.more (Astar.steps T) h
  rw [hastar.eq hT hgo.staysIn ho hd] at h
  have hG := unit_inGrid (D := false) hgo.staysIn ho
  have hcons := astar_consistent hgo ho dest
  have hadj := unit_adjacent hgo
  obtain ⟨r', h1, -⟩ := BSt.search_init (L := allPositions T true) (INF := usizeMax) usizeMax_pos (unitCost_nonneg go) hcons (dest := dest)
    (fun ds q n h => PosTy.mem_allPositions.2 (hG ds q n h)) (by rw [PosTy.allPositions_length]; exact (Astar.steps_nat hT.toIsGrid hfuel).2) (fun _ => none)
  have h1' := h1
  rw [← Astar.searchMapmov_eq hT hgo.staysIn ho hd false fuel] at h1
  rw [Astar.searchPath_of_mapmov h1] at h
  cases r' with
  | error e => cases h
  | ok f =>
    obtain ⟨t, n', F, s, H, S, I, hK, hF⟩ := BSt.search_fresh_init usizeMax_pos (unitCost_nonneg go) hcons (stepsBack_of_adjacent hadj hG) h1'
    obtain ⟨q2, r2, w2, d2, a1, a2, a3, a4, a5, a6, a8⟩ := H.step_at_popped hadj hG hK (camefrom_arrives hT.wf hd h)
    rw [dropCost_unitCost, hq] at a1
    injection a1 with a1
    subst a1
    have a3 := (unitCost_some.1 a3).1
    rw [hqr] at a3
    injection a3 with a3
    subst a3
    have hz' : ∀ ds, IsPath (dropCost (unitCost go)) false orig ds q₀ → ∃ i, follow (dropCost (unitCost go)) orig (ds.take i) = some z := by
      rw [dropCost_unitCost]; exact hz
    have e2 := isMinCost_unique (isMinCost_unit.2 ⟨k, rfl, hk⟩) (H.isMinCost a2)
    have e3 := isMinCost_unique (isMinCost_unit.2 ⟨c, rfl, hcz⟩) (H.isMinCost (H.dominator a2 hzq hz').1)
    have e4 := isMinCost_unique (isMinCost_unit.2 ⟨_, rfl, htight⟩) (H.isMinCost a8)
    have hfinq := H.g.fin q₀ a2
    refine hq' (S.tie_tight H I a2 a8 a4 a5 a6 hzq hz' (isCostPath_unit.2 ⟨hds, rfl⟩) (fun pre suf hpre hnil p j hp => ?_) ⟨hd', unitCost_some.2 ⟨hg', rfl⟩⟩ (by omega))
    obtain ⟨hp0, rfl⟩ := isCostPath_unit.1 hp
    have hlen : pre.length ≤ ds.length := by rw [hpre]; simp
    have := hway pre.length p (List.length_pos_of_ne_nil hnil) hlen (by rw [hpre, List.take_left' rfl]; exact hp0.2)
    have hfr := H.g.fin r a8
    simp only [PosTy.lt, Bool.or_eq_true, Bool.and_eq_true, decide_eq_true_eq, beq_iff_eq]
    omega

-- From (1, 1) to (0, 0): both (1, 0) and (0, 1) lead to the destination. The path does not come from (0, 1).
example (as : List Dir) (d : Dir) (bs : List Dir) (h : Astar.pathHash (PosTy.pos 2 2) false (aroundWalls (PosTy.pos 2 2) []) (1, 1) (0, 0) 300 = .ok (.ok (as ++ d :: bs)))
    (q₀ : Int × Int) (hq : follow (aroundWalls (PosTy.pos 2 2) []) (1, 1) as = some q₀) (hr : aroundWalls (PosTy.pos 2 2) [] q₀ d = some (0, 0)) : q₀ ≠ (0, 1) := by
  have hgo := aroundWalls_adjacent (PosTy.pos 2 2) []
  have ho : InGrid (PosTy.pos 2 2) (1, 1) := by unfold InGrid; decide
  have key : ∀ (ds : List Dir) (q : P2), (∀ d ∈ ds, Allowed false d) → follow (aroundWalls (PosTy.pos 2 2) []) (1, 1) ds = some q → (ds.length : Int) = l1 (1, 1) q →
      IsDist (aroundWalls (PosTy.pos 2 2) []) false (1, 1) q ds.length := by
    intro ds q h1 h2 h3
    refine ⟨⟨ds, ⟨h1, h2⟩, rfl⟩, fun ds' h' => ?_⟩
    have := l1_le_path hgo ho h'
    omega
  refine C140_astar (PosTy.pos 2 2) (PosTy.pos_searchable (by decide) (by decide) (.inl rfl)) _ (.inr (.inl rfl)) _ hgo (1, 1) (0, 0)
    ho (by unfold InGrid; decide) 300 as d bs h q₀ (0, 0) hq hr (0, 1) 1 (key [.W] _ (by simp [Allowed, unit]) (by decide +kernel) (by decide +kernel)) (1, 1) (by decide)
    (fun _ _ => ⟨0, rfl⟩) 0 (key [] _ (by simp) rfl (by decide)) [.N] (1, 0) (by decide) ⟨by simp [Allowed, unit], by decide +kernel⟩ (fun i p h1 h2 h4 => ?_)
    .W (by simp [Allowed, unit]) (by decide +kernel) (key [.N, .W] _ (by simp [Allowed, unit]) (by decide +kernel) (by decide +kernel))
  simp only [List.length_cons, List.length_nil] at h2
  interval_cases i
  rw [show follow (aroundWalls (PosTy.pos 2 2) []) (1, 1) (List.take 1 [.N]) = some (1, 0) by decide +kernel, Option.some.injEq] at h4
  subst h4
  decide
example : Astar.pathHash (PosTy.pos 2 2) false (aroundWalls (PosTy.pos 2 2) []) (1, 1) (0, 0) 300 = .ok (.ok ([.N] ++ .W :: [])) := by decide +kernel

end Sqrid
