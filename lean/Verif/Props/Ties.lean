import Verif.Props.PathSource
import Verif.Props.Detour
/-!
# Ties between the neighbours a step can come from: C137

C131 says which neighbours a step of a returned path can come from. It leaves open which one it is, if several are equally near. Then the order of the positions
decides, at each position on the ways to them.
-/

namespace Sqrid

-- Statements that do not mention a target are about a debug build for a 64-bit machine.
attribute [local instance] debug64

open Spec

/-- The recorded step to a position on the way along the recorded directions. -/
theorem CInv.step_at {T : PosTy} {go : WGo} {h : P2 → Int} {D : Bool} {INF : Int} {orig dest : P2} {t : P2 → Nat} {n : Nat} {F : Int}
    {f : P2 → Option Dir} {s : BSt} (hgo : Adjacent T (dropCost go)) (hG : ∀ ds q n, IsCostPath go D orig ds q n → InGrid T q)
    (H : CInv go h D INF orig t n F f s) (hd : 1 ≤ t dest) {as bs : List Dir} {d : Dir} (ha : Arrives T f orig dest (as ++ d :: bs)) :
    ∃ q r w d', follow (dropCost go) orig as = some q ∧ 1 ≤ t q ∧ go q d = some (r, w) ∧ r ≠ orig ∧ f r = some d' ∧ neighbour r d' = q := by
  obtain ⟨r, hr, hra⟩ := ha.pre (K := fun q => 1 ≤ t q) (H.g.back_step hgo hG) hd (as ++ [d]) bs (by simp)
  generalize hp : as ++ [d] = path at hra
  cases hra with
  | here => simp at hp
  | @step _ d' path hne hf hin hra =>
    obtain ⟨e1, e2⟩ := List.append_inj' hp rfl
    injection e2 with e2
    subst e1 e2
    obtain ⟨d2, u, w, h1, h2, -, h4, -⟩ := H.back r hr hne
    rw [hf] at h1
    injection h1 with h1
    subst h1
    obtain ⟨ds, hds⟩ := H.g.walk u (H.g.fin u h2)
    have e := stepsBack_of_adjacent hgo hG _ _ _ _ _ _ hds h4
    rw [e] at hra
    exact ⟨u, r, w, d', (H.g.arrives_path hgo hG hra h2).2, h2, h4.2, hne, hf, e⟩

/-- A position that is on every way to an expanded position was expanded before. -/
theorem CInv.dominator {go : WGo} {h : P2 → Int} {D : Bool} {INF : Int} {orig : P2} {t : P2 → Nat} {n : Nat} {F : Int} {f : P2 → Option Dir} {s : BSt}
    (H : CInv go h D INF orig t n F f s) {z u : P2} (hu : 1 ≤ t u) (hne : z ≠ u)
    (hz : ∀ ds, IsPath (dropCost go) D orig ds u → ∃ i, follow (dropCost go) orig (ds.take i) = some z) : 1 ≤ t z ∧ t z < t u := by
  have key : ∀ k u, t u ≤ k → 1 ≤ t u → ∃ ds, IsPath (dropCost go) D orig ds u ∧
      ∀ i p, follow (dropCost go) orig (ds.take i) = some p → p = u ∨ (1 ≤ t p ∧ t p < t u) := by
    intro k
    induction k with
    | zero => intro u h1 h2; omega
    | succ k ih =>
      intro u h1 h2
      by_cases ho : u = orig
      · subst ho
        refine ⟨[], ⟨by simp, rfl⟩, fun i p hp => .inl ?_⟩
        simp only [List.take_nil, follow, Option.some.injEq] at hp
        exact hp.symm
      · obtain ⟨d, v, w, b1, b2, b3, b4, -⟩ := H.back u h2 ho
        obtain ⟨ds, h3, h4⟩ := ih v (by omega) b2
        have hs : dropCost go v (opposite d) = some u := by simp [dropCost, b4.2]
        refine ⟨ds ++ [opposite d], isPath_append h3 (isPath_single b4.1 hs), fun i p hp => ?_⟩
        by_cases hi : i ≤ ds.length
        · rw [List.take_append_of_le_length hi] at hp
          rcases h4 i p hp with rfl | h5
          · exact .inr ⟨b2, b3⟩
          · exact .inr (by omega)
        · rw [List.take_of_length_le (by simp; omega), follow_append, h3.2] at hp
          simp only [Option.bind_some, follow, hs, Option.some.injEq] at hp
          exact .inl hp.symm
  obtain ⟨ds, h1, h2⟩ := key (t u) u (Nat.le_refl _) hu
  obtain ⟨i, hi⟩ := hz ds h1
  exact (h2 i z hi).resolve_left hne

/-- The step to `r` comes from `q`, so no other neighbour of `r` that can be reached in time has a way that is taken before `q`. -/
theorem SInv.tie {go : WGo} {h : P2 → Int} {D : Bool} {INF : Int} {orig : P2} {t : P2 → Nat} {n : Nat} {F : Int} {f : P2 → Option Dir} {s : BSt}
    (H : CInv go h D INF orig t n F f s) (S : SInv go h D INF orig t f s) {q r z q' : P2} {d d' : Dir} {ds : List Dir} {m w' : Int} (hq : 1 ≤ t q)
    (hr : r ≠ orig) (hf : f r = some d) (hs : neighbour r d = q) (hne : z ≠ q)
    (hz : ∀ ds, IsPath (dropCost go) D orig ds q → ∃ i, follow (dropCost go) orig (ds.take i) = some z)
    (hds : IsCostPath go D z ds q' m) (hquick : Quick go h D INF z q (s.c z) (s.c q + h q) ds) (hd' : WEdge go D q' d' r w')
    (hlt : s.c z + m + w' + h r < F) (hINF : s.c z + m + w' < INF) : q' = q := by
  obtain ⟨h1, h2⟩ := H.dominator hq hne hz
  obtain ⟨h3, h4⟩ := S.ahead q z h1 h2 ds q' m hds hquick
  obtain ⟨ps, hps⟩ := H.g.walk z (H.g.fin z h1)
  have h5 := H.opt q' h3 _ _ (isCostPath_append hps hds)
  have h6 := S.first H h3 hd' hr (by omega) (by omega) hf
  rw [hs] at h6
  exact (S.inj q q' hq (by omega)).symm

/-- C137. In a path that the uniform-cost search returns, a step that leads to `r` comes from `q₀`. Let `q` be any position, and `z` another one, which every way
from the origin to `q` goes through. Let a way lead on from `z` to a position `q'`, not `q`, and from there to `r`, all for less than the cheapest cost of the destination.
If each position on this way from `z` to `q'` is cheaper to reach along it than `q`, or costs the same and is greater in the order of the positions, then `q₀` is not
`q`: the search reached `q'` before `q`. -/
theorem C137_ucs [Target] (T : PosTy) (hT : T.Searchable) (ucs) (hucs : Ucs.IsSearch T ucs) (D : Bool)
    (go : Int × Int → Dir → Option ((Int × Int) × Int)) (hgo : Adjacent T (dropCost go)) (hc : UsizeCosts go) (orig dest : Int × Int)
    (hov : Target.checks = true ∨ NoOverflow go D orig) (ho : InGrid T orig) (hd : InGrid T dest) (fuel : Nat)
    (as : List Dir) (d : Dir) (bs : List Dir) (h : ucs D go orig dest fuel = .ok (.ok (as ++ d :: bs)))
    (q₀ r : Int × Int) (w : Int) (hq : follow (dropCost go) orig as = some q₀) (hqr : go q₀ d = some (r, w)) (q : Int × Int)
    (k n : Int) (hk : IsMinCost go D orig q k) (hn : IsMinCost go D orig dest n)
    (z : Int × Int) (hzq : z ≠ q) (hz : ∀ ds, IsPath (dropCost go) D orig ds q → ∃ i, follow (dropCost go) orig (ds.take i) = some z)
    (c : Int) (hcz : IsMinCost go D orig z c) (ds : List Dir) (q' : Int × Int) (hq' : q' ≠ q) (m : Int) (hds : IsCostPath go D z ds q' m)
    (hway : ∀ i p j, 1 ≤ i → i ≤ ds.length → IsCostPath go D z (ds.take i) p j → c + j < k ∨ c + j = k ∧ (q.1 < p.1 ∨ q.1 = p.1 ∧ q.2 < p.2))
    (d' : Dir) (w' : Int) (hd' : Allowed D d') (hg' : go q' d' = some (r, w')) (hlt : c + m + w' < n) : q₀ ≠ q := by
  rintro rfl
  rw [hucs.eq hT hgo.staysIn ho hd] at h
  have hG := cost_inGrid (D := D) hgo.staysIn ho
  rcases hov.elim (fun hck => Ucs.searchMapmov_cases (D := D) (orig := orig) hck hc.nonNeg dest fuel)
    (fun hno => .inr (Ucs.searchMapmov_eq hc.nonNeg hno dest fuel)) with hpan | heq'
  · rw [Ucs.searchPath_panic hpan] at h; cases h
  cases hm : Ucs.searchMapmov (MapImpl.ideal none) (MapImpl.ideal 0) D go orig dest fuel with
  | ok r =>
    rw [Ucs.searchPath_of_mapmov hm] at h
    cases r with
    | error e => cases h
    | ok f =>
      rw [heq'] at hm
      obtain ⟨t, n', F, s, H, S, hK, hF⟩ := BSt.search_source_init usizeMax_pos hc.nonNeg (consistent_zero hc.nonNeg) (stepsBack_of_adjacent hgo hG) hm
      obtain ⟨q2, r2, w2, d2, a1, a2, a3, a4, a5, a6⟩ := H.step_at hgo hG hK (camefrom_arrives hT.wf hd h)
      rw [hq] at a1
      injection a1 with a1
      subst a1
      rw [hqr] at a3
      injection a3 with a3
      injection a3 with a3 a7
      subst a3
      have hfin := H.g.fin dest hK
      have hfinq := H.g.fin q₀ a2
      have e1 := isMinCost_unique hn (H.isMinCost hK)
      have e2 := isMinCost_unique hk (H.isMinCost a2)
      have e3 := isMinCost_unique hcz (H.isMinCost (H.dominator a2 hzq hz).1)
      refine hq' (S.tie H a2 a4 a5 a6 hzq hz hds (fun pre suf hpre hnil p j hp => ?_) ⟨hd', hg'⟩ (by omega) (by omega))
      have := hway pre.length p j (List.length_pos_of_ne_nil hnil) (by rw [hpre]; simp) (by rw [hpre, List.take_left' rfl]; exact hp)
      simp only [PosTy.lt, Bool.or_eq_true, Bool.and_eq_true, decide_eq_true_eq, beq_iff_eq]
      omega
  | panic => unfold Ucs.searchPath at h; rw [hm] at h; cases h
  | ub => unfold Ucs.searchPath at h; rw [hm] at h; cases h
  | timeout => unfold Ucs.searchPath at h; rw [hm] at h; cases h

-- With costs of 1, both neighbours (1, 0) and (0, 1) of the origin lead to (1, 1). The path goes by (1, 0), which is greater. The hypotheses of `C137_ucs` hold for
-- `q` = (0, 1), `z` = the origin, and the way [E] to `q'` = (1, 0).
example : Ucs.pathHash (PosTy.pos 2 2) false (unitCost (aroundWalls (PosTy.pos 2 2) [(2, 0), (0, 2)])) (0, 0) (2, 2) 300 = .ok (.ok ([.E] ++ .S :: [.E, .S])) ∧
    follow (aroundWalls (PosTy.pos 2 2) [(2, 0), (0, 2)]) (0, 0) [.E] = some (1, 0) ∧ aroundWalls (PosTy.pos 2 2) [(2, 0), (0, 2)] (1, 0) .S = some (1, 1) ∧
    aroundWalls (PosTy.pos 2 2) [(2, 0), (0, 2)] (0, 1) .E = some (1, 1) ∧
    (∀ q n, (q, n) ∈ [(((0, 0) : Int × Int), (0 : Int)), ((0, 1), 1), ((1, 0), 1), ((2, 2), 4)] →
      IsMinCost (unitCost (aroundWalls (PosTy.pos 2 2) [(2, 0), (0, 2)])) false (0, 0) q n) := by
  refine ⟨by decide +kernel, by decide +kernel, by decide +kernel, by decide +kernel, fun q n h => ?_⟩
  have key : ∀ (ds : List Dir) (q : Int × Int), (∀ d ∈ ds, Allowed false d) → follow (aroundWalls (PosTy.pos 2 2) [(2, 0), (0, 2)]) (0, 0) ds = some q →
      (ds.length : Int) = l1 (0, 0) q → IsMinCost (unitCost (aroundWalls (PosTy.pos 2 2) [(2, 0), (0, 2)])) false (0, 0) q ds.length := by
    intro ds q h1 h2 h3
    refine isMinCost_unit.2 ⟨_, rfl, ⟨ds, ⟨h1, h2⟩, rfl⟩, fun ds' h' => ?_⟩
    have := l1_le_path (aroundWalls_adjacent (PosTy.pos 2 2) [(2, 0), (0, 2)]) (by unfold InGrid; decide) h'
    omega
  simp only [List.mem_cons, Prod.mk.injEq, List.not_mem_nil, or_false] at h
  rcases h with ⟨rfl, rfl⟩ | ⟨rfl, rfl⟩ | ⟨rfl, rfl⟩ | ⟨rfl, rfl⟩
  · exact key [] _ (by simp) (by decide +kernel) (by decide +kernel)
  · exact key [.S] _ (by simp [Allowed, unit]) (by decide +kernel) (by decide +kernel)
  · exact key [.E] _ (by simp [Allowed, unit]) (by decide +kernel) (by decide +kernel)
  · exact key [.E, .S, .S, .E] _ (by simp [Allowed, unit]) (by decide +kernel) (by decide +kernel)

/-- C137. The same for A* without diagonals: what counts for a position is its distance from the origin and its Manhattan distance to the destination, added up. -/
theorem C137_astar [Target] (T : PosTy) (hT : T.Searchable) (astar) (hastar : Astar.IsSearch T astar)
    (go : Int × Int → Dir → Option (Int × Int)) (hgo : Adjacent T go) (orig dest : Int × Int) (ho : InGrid T orig) (hd : InGrid T dest) (fuel : Nat)
    (as : List Dir) (d : Dir) (bs : List Dir) (h : astar false go orig dest fuel = .ok (.ok (as ++ d :: bs)))
    (q₀ r : Int × Int) (hq : follow go orig as = some q₀) (hqr : go q₀ d = some r) (q : Int × Int) (k n : Nat) (hk : IsDist go false orig q k) (hn : IsDist go false orig dest n)
    (z : Int × Int) (hzq : z ≠ q) (hz : ∀ ds, IsPath go false orig ds q → ∃ i, follow go orig (ds.take i) = some z)
    (c : Nat) (hcz : IsDist go false orig z c) (ds : List Dir) (q' : Int × Int) (hq' : q' ≠ q)
    (hds : IsPath go false z ds q')
    (hway : ∀ i p, 1 ≤ i → i ≤ ds.length → follow go z (ds.take i) = some p →
      (c : Int) + i + l1 p dest < k + l1 q dest ∨ (c : Int) + i + l1 p dest = k + l1 q dest ∧ (q.1 < p.1 ∨ q.1 = p.1 ∧ q.2 < p.2))
    (d' : Dir) (hd' : Allowed false d') (hg' : go q' d' = some r) (hlt : (c : Int) + ds.length + 1 + l1 r dest < n) : q₀ ≠ q := by
  rintro rfl
  obtain ⟨fuel, hfuel, h⟩ := hastar.more (Astar.steps T) h
  rw [hastar.eq hT hgo.staysIn ho hd] at h
  have hG := unit_inGrid (D := false) hgo.staysIn ho
  have hcons := astar_consistent hgo ho dest
  have hadj := unit_adjacent hgo
  obtain ⟨r', h1, -⟩ := BSt.search_init (L := allPositions T true) (INF := usizeMax) usizeMax_pos (unitCost_nonneg go) hcons (dest := dest)
    (fun ds q n h => PosTy.mem_allPositions.2 (hG ds q n h)) (by rw [PosTy.allPositions_length]; exact (Astar.steps_nat hT.toIsGrid hfuel).2) (fun _ => none)
  have h1' := h1
  rw [← Astar.searchMapmov_eq hT hgo.staysIn ho hd false fuel] at h1
  rw [Astar.searchPath_of_mapmov h1] at h
  cases r' with
  | error e => cases h
  | ok f =>
    obtain ⟨t, n', F, s, H, S, hK, hF⟩ := BSt.search_source_init usizeMax_pos (unitCost_nonneg go) hcons (stepsBack_of_adjacent hadj hG) h1'
    obtain ⟨q2, r2, w2, d2, a1, a2, a3, a4, a5, a6⟩ := H.step_at hadj hG hK (camefrom_arrives hT.wf hd h)
    rw [dropCost_unitCost, hq] at a1
    injection a1 with a1
    subst a1
    have a3 := (unitCost_some.1 a3).1
    rw [hqr] at a3
    injection a3 with a3
    subst a3
    have hfin := H.g.fin dest hK
    have hz' : ∀ ds, IsPath (dropCost (unitCost go)) false orig ds q₀ → ∃ i, follow (dropCost (unitCost go)) orig (ds.take i) = some z := by
      rw [dropCost_unitCost]; exact hz
    have e1 := isMinCost_unique (isMinCost_unit.2 ⟨n, rfl, hn⟩) (H.isMinCost hK)
    have e2 := isMinCost_unique (isMinCost_unit.2 ⟨k, rfl, hk⟩) (H.isMinCost a2)
    have e3 := isMinCost_unique (isMinCost_unit.2 ⟨c, rfl, hcz⟩) (H.isMinCost (H.dominator a2 hzq hz').1)
    have h0 : l1 dest dest = 0 := by simp [l1]
    have hr0 : 0 ≤ l1 r dest := by unfold l1; omega
    refine hq' (S.tie H a2 a4 a5 a6 hzq hz' (isCostPath_unit.2 ⟨hds, rfl⟩) (fun pre suf hpre hnil p j hp => ?_) ⟨hd', unitCost_some.2 ⟨hg', rfl⟩⟩ (by omega) (by omega))
    obtain ⟨hp0, rfl⟩ := isCostPath_unit.1 hp
    have hlen : pre.length ≤ ds.length := by rw [hpre]; simp
    have := hway pre.length p (List.length_pos_of_ne_nil hnil) hlen (by rw [hpre, List.take_left' rfl]; exact hp0.2)
    simp only [PosTy.lt, Bool.or_eq_true, Bool.and_eq_true, decide_eq_true_eq, beq_iff_eq]
    omega

end Sqrid
