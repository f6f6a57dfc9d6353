import Verif.Props.SearchLaws
/-!
# How long and how expensive a returned path can be: C117

`astar_path` and `ucs_path` may return a path that is not a shortest or cheapest one (C58, C63). These theorems bound how far from that it can be.
-/

namespace Sqrid

-- Statements that do not mention a target are about a debug build for a 64-bit machine.
attribute [local instance] debug64

open Spec

/-- The last step of a way along the recorded directions. -/
theorem CInv.last_step {T : PosTy} {go : WGo} {h : P2 → Int} {D : Bool} {INF : Int} {orig : P2} {t : P2 → Nat} {n : Nat} {F : Int} {f : P2 → Option Dir} {s : BSt}
    (hgo : Adjacent T (dropCost go)) (hG : ∀ ds q n, IsCostPath go D orig ds q n → InGrid T q) (H : CInv go h D INF orig t n F f s) {r : P2}
    (hr : 1 ≤ t r) {as : List Dir} {d : Dir} (ha : Arrives T f orig r (as ++ [d])) :
    ∃ q w, follow (dropCost go) orig as = some q ∧ 1 ≤ t q ∧ Allowed D d ∧ go q d = some (r, w) ∧ s.c q + w + h r ≤ F := by
  generalize hp : as ++ [d] = path at ha
  cases ha with
  | here => simp at hp
  | @step _ d' path hne hf hin ha =>
    obtain ⟨e1, e2⟩ := List.append_inj' hp rfl
    injection e2 with e2
    subst e1 e2
    obtain ⟨d2, u, w, h1, h2, -, h4, h5⟩ := H.back r hr hne
    rw [hf] at h1
    injection h1 with h1
    subst h1
    have hu : InGrid T u := by
      obtain ⟨ds, hds⟩ := H.g.walk u (H.g.fin u h2)
      exact hG _ _ _ hds
    have hg : dropCost go u (opposite d') = some r := by simp [dropCost, h4.2]
    have e : neighbour r d' = u := by rw [(hgo u _ r hu hg).2, neighbour_opposite']
    rw [e] at ha
    exact ⟨u, w, (H.g.arrives_path hgo hG ha h2).2, h2, h4.1, h4.2, h5⟩

/-- Any step of the way. -/
theorem CInv.some_step {T : PosTy} {go : WGo} {h : P2 → Int} {D : Bool} {INF : Int} {orig dest : P2} {t : P2 → Nat} {n : Nat} {F : Int} {f : P2 → Option Dir} {s : BSt}
    (hgo : Adjacent T (dropCost go)) (hG : ∀ ds q n, IsCostPath go D orig ds q n → InGrid T q) (H : CInv go h D INF orig t n F f s)
    (hd : 1 ≤ t dest) {as bs : List Dir} {d : Dir} (ha : Arrives T f orig dest (as ++ d :: bs)) :
    ∃ q r w, follow (dropCost go) orig as = some q ∧ 1 ≤ t q ∧ 1 ≤ t r ∧ Allowed D d ∧ go q d = some (r, w) ∧ s.c q + w + h r ≤ F ∧ (bs = [] → r = dest) := by
  by_cases hb : bs = []
  · subst hb
    obtain ⟨q, w, h1, h2, h3, h4, h5⟩ := H.last_step hgo hG hd ha
    exact ⟨q, dest, w, h1, h2, hd, h3, h4, h5, fun _ => rfl⟩
  · obtain ⟨r, hr, hra⟩ := ha.pre (K := fun q => 1 ≤ t q) (H.g.back_step hgo hG) hd (as ++ [d]) bs (by simp)
    obtain ⟨q, w, h1, h2, h3, h4, h5⟩ := H.last_step hgo hG hr hra
    exact ⟨q, r, w, h1, h2, hr, h3, h4, h5, fun h => absurd h hb⟩

/-- C117. Each step of the path that the uniform-cost search returns, added to the cheapest way to where it starts, costs at most as much as the
cheapest way to the destination; and the last step ends a cheapest way. -/
theorem C117_ucs_steps [Target] (T : PosTy) (hT : T.Searchable) (ucs) (hucs : Ucs.IsSearch T ucs) (D : Bool)
    (go : Int × Int → Dir → Option ((Int × Int) × Int)) (hgo : Adjacent T (dropCost go)) (hc : UsizeCosts go) (orig dest : Int × Int)
    (hov : Target.checks = true ∨ NoOverflow go D orig) (ho : InGrid T orig) (hd : InGrid T dest) (fuel : Nat)
    (as : List Dir) (d : Dir) (bs : List Dir) (h : ucs D go orig dest fuel = .ok (.ok (as ++ d :: bs))) :
    ∃ q r w k n, follow (dropCost go) orig as = some q ∧ go q d = some (r, w) ∧ IsMinCost go D orig q k ∧ IsMinCost go D orig dest n ∧
      k + w ≤ n ∧ (bs = [] → k + w = n) := by
  obtain ⟨fuel, hfuel, h⟩ := hucs.more (Ucs.steps T) h
  rw [hucs.eq hT hgo.staysIn ho hd] at h
  have hG := cost_inGrid (D := D) hgo.staysIn ho
  rcases hov.elim (fun hck => Ucs.searchMapmov_cases (D := D) (orig := orig) hck hc.nonNeg dest fuel)
    (fun hno => .inr (Ucs.searchMapmov_eq hc.nonNeg hno dest fuel)) with hpan | heq'
  · rw [Ucs.searchPath_panic hpan] at h; cases h
  obtain ⟨r, h1, h2⟩ := BSt.search_init (L := allPositions T true) (INF := usizeMax) (dest := dest) usizeMax_pos hc.nonNeg (consistent_zero hc.nonNeg)
    (fun ds q n h => PosTy.mem_allPositions.2 (hG ds q n h)) (by rw [PosTy.allPositions_length]; exact Ucs.steps_nat hT.toIsGrid hfuel) (fun _ => none)
  rw [← heq'] at h1
  rw [Ucs.searchPath_of_mapmov h1] at h
  cases r with
  | error e => cases h
  | ok f =>
    obtain ⟨t, n, F, s, H, hK, hF⟩ := h2
    obtain ⟨q, r, w, a1, a2, a3, a4, a5, a6, a7⟩ := H.some_step hgo hG hK (camefrom_arrives hT.wf hd h)
    refine ⟨q, r, w, _, _, a1, a5, H.isMinCost a2, H.isMinCost hK, by simp only at a6 hF; omega, fun hb => ?_⟩
    have := a7 hb
    subst this
    have := H.closed q a2 d r w ⟨a4, a5⟩
    simp only at a6 hF
    omega

/-- Costs add up along a path. -/
theorem cost_le_steps {go : WGo} {D : Bool} {orig : P2} {n : Int} {path : List Dir}
    (hstep : ∀ as d bs, path = as ++ d :: bs → ∀ q r w, follow (dropCost go) orig as = some q → go q d = some (r, w) → w ≤ n) :
    ∀ as bs, path = as ++ bs → ∀ q c, IsCostPath go D orig as q c → c ≤ as.length * n := by
  intro as
  induction as using List.reverseRecOn with
  | nil =>
    intro bs _ q c h
    have := h.2
    simp only [pathCost, Option.some.injEq] at this
    simp only [List.length_nil]
    omega
  | append_singleton as d ih =>
    intro bs e q c h
    obtain ⟨r, m, w, h1, -, h3, h4⟩ := isCostPath_concat h
    have e' : path = as ++ d :: bs := by rw [e]; simp
    have := ih (d :: bs) e' r m h1
    have := hstep as d bs e' r q w h1.1.2 h3
    rw [List.length_append, List.length_singleton]
    push_cast
    rw [Int.add_mul]
    omega

/-- C117. The path that the uniform-cost search returns costs at most as many times the cheapest cost as it has steps. -/
theorem C117_ucs_bound [Target] (T : PosTy) (hT : T.Searchable) (ucs) (hucs : Ucs.IsSearch T ucs) (D : Bool)
    (go : Int × Int → Dir → Option ((Int × Int) × Int)) (hgo : Adjacent T (dropCost go)) (hc : UsizeCosts go) (orig dest : Int × Int)
    (hov : Target.checks = true ∨ NoOverflow go D orig) (ho : InGrid T orig) (hd : InGrid T dest) (fuel : Nat)
    (path : List Dir) (h : ucs D go orig dest fuel = .ok (.ok path)) :
    ∃ c n, IsCostPath go D orig path dest c ∧ IsMinCost go D orig dest n ∧ c ≤ path.length * n := by
  have hp := C61_valid_path T hT ucs hucs D go hgo orig dest ho hd fuel path h
  obtain ⟨c, hcp⟩ := isPath_cost hp
  obtain ⟨n, hn⟩ := isMinCost_exists hc.nonNeg ⟨path, hp⟩
  refine ⟨c, n, hcp, hn, cost_le_steps (n := n) (path := path) (fun as d bs e q r w hq hg => ?_) path [] (by simp) dest c hcp⟩
  subst e
  obtain ⟨q', r', w', k, n', a1, a2, a3, a4, a5, -⟩ := C117_ucs_steps T hT ucs hucs D go hgo hc orig dest hov ho hd fuel as d bs h
  rw [hq] at a1
  injection a1 with a1
  subst a1
  rw [hg] at a2
  injection a2 with a2
  injection a2 with a2 a2'
  subst a2 a2'
  have := isMinCost_unique hn a4
  obtain ⟨ds, hds⟩ := a3.1
  have := isCostPath_nonneg hc.nonNeg hds
  omega

/-! The bound of `C117_ucs_bound` is close: on the road in line 0 each step to the east costs 100, beside it each costs 2, and only the road leads to
its end. The cheapest way costs 106, and the search stays on the road: three steps, which cost 300. -/
def roadCost (p : Int × Int) (d : Dir) : Int := if d = .E then (if p.2 = 0 then 100 else 2) else 1

example : Ucs.pathHash (PosTy.pos 3 1) false (stepCosts (PosTy.pos 3 1) [(3, 1)] roadCost) (0, 0) (3, 0) 200 = .ok (.ok [.E, .E, .E]) ∧
    pathCost (stepCosts (PosTy.pos 3 1) [(3, 1)] roadCost) (0, 0) [.E, .E, .E] = some 300 ∧
    pathCost (stepCosts (PosTy.pos 3 1) [(3, 1)] roadCost) (0, 0) [.S, .E, .E, .N, .E] = some 106 ∧
    Ucs.steps (PosTy.pos 3 1) < ((200 : Nat) : Int) := by decide +kernel

/-- C117. Without diagonals, each step of the path that A* returns goes from a position `q` to a position `r` with `dist(q) + 1 + |r - destination| ≤ dist(destination)`;
and the last step ends a shortest way. -/
theorem C117_astar_steps [Target] (T : PosTy) (hT : T.Searchable) (astar) (hastar : Astar.IsSearch T astar)
    (go : Int × Int → Dir → Option (Int × Int)) (hgo : Adjacent T go) (orig dest : Int × Int) (ho : InGrid T orig) (hd : InGrid T dest) (fuel : Nat) (as : List Dir) (d : Dir) (bs : List Dir) (h : astar false go orig dest fuel = .ok (.ok (as ++ d :: bs))) :
    ∃ q r k n, follow go orig as = some q ∧ go q d = some r ∧ IsDist go false orig q k ∧ IsDist go false orig dest n ∧
      (k : Int) + 1 + l1 r dest ≤ n ∧ (bs = [] → k + 1 = n) := by
  obtain ⟨fuel, hfuel, h⟩ := hastar.more (Astar.steps T) h
  rw [hastar.eq hT hgo.staysIn ho hd] at h
  have hG := unit_inGrid (D := false) hgo.staysIn ho
  have hcons := astar_consistent hgo ho dest
  have hadj := unit_adjacent hgo
  obtain ⟨r, h1, h2⟩ := BSt.search_init (L := allPositions T true) (INF := usizeMax) usizeMax_pos (unitCost_nonneg go) hcons (dest := dest)
    (fun ds q n h => PosTy.mem_allPositions.2 (hG ds q n h)) (by rw [PosTy.allPositions_length]; exact (Astar.steps_nat hT.toIsGrid hfuel).2) (fun _ => none)
  rw [← Astar.searchMapmov_eq hT hgo.staysIn ho hd false fuel] at h1
  rw [Astar.searchPath_of_mapmov h1] at h
  cases r with
  | error e => cases h
  | ok f =>
    obtain ⟨t, n, F, s, H, hK, hF⟩ := h2
    obtain ⟨q, r, w, a1, a2, a3, a4, a5, a6, a7⟩ := H.some_step hadj hG hK (camefrom_arrives hT.wf hd h)
    rw [dropCost_unitCost] at a1
    obtain ⟨k, hk1, hk2⟩ := isMinCost_unit.1 (H.isMinCost a2)
    obtain ⟨m, hm1, hm2⟩ := isMinCost_unit.1 (H.isMinCost hK)
    have hw : w = 1 ∧ go q d = some r := by
      simp only [unitCost, Option.map_eq_some_iff] at a5
      obtain ⟨x, b1, b2⟩ := a5
      injection b2 with b2 b3
      exact ⟨b3.symm, by rw [b1, b2]⟩
    have h0 : l1 dest dest = 0 := by simp [l1]
    simp only at a6 hF
    refine ⟨q, r, k, m, a1, hw.2, hk2, hm2, by omega, fun hb => ?_⟩
    have := a7 hb
    subst this
    have := H.closed q a2 d r w ⟨a4, a5⟩
    omega

/-- C117. Without diagonals, the path that A* returns has fewer steps than there are positions `q` with `dist(q) + |q - destination| ≤ dist(destination)`. -/
theorem C117_astar_bound [Target] (T : PosTy) (hT : T.Searchable) (astar) (hastar : Astar.IsSearch T astar)
    (go : Int × Int → Dir → Option (Int × Int)) (hgo : Adjacent T go) (orig dest : Int × Int) (ho : InGrid T orig) (hd : InGrid T dest) (fuel : Nat) (path : List Dir) (h : astar false go orig dest fuel = .ok (.ok path)) (n : Nat) (hn : IsDist go false orig dest n)
    (within : List (Int × Int)) (hwithin : ∀ q k, IsDist go false orig q k → (k : Int) + l1 q dest ≤ n → q ∈ within) : path.length < within.length := by
  have hpre : ∀ i, ∃ q, follow go orig (path.take i) = some q ∧ q ∈ within := by
    intro i
    obtain ⟨q, k, m, h1, h2, h3, h4⟩ := C89_astar_within T hT astar hastar go hgo orig dest ho hd fuel (path.take i) (path.drop i)
      (by rw [List.take_append_drop]; exact h)
    have := isDist_unique hn h3
    subst this
    exact ⟨q, h1, hwithin q k h2 h4⟩
  choose pos hpos hmem using hpre
  have hinj : ((List.range (path.length + 1)).map pos).Nodup := by
    rw [List.nodup_map_iff_inj_on List.nodup_range]
    intro i hi j hj e
    rw [List.mem_range] at hi hj
    exact C91_astar_simple T hT astar hastar false go hgo orig dest ho hd fuel path h i j (by omega) (by omega) (by rw [hpos, hpos, e])
  have hsub : ∀ q ∈ (List.range (path.length + 1)).map pos, q ∈ within := by
    intro q hq
    obtain ⟨i, -, rfl⟩ := List.mem_map.1 hq
    exact hmem i
  have := (hinj.subperm hsub).length_le
  rw [List.length_map, List.length_range] at this
  omega

-- the path of ten steps of `C58_refuted_straight`, where eight are enough
example : Astar.pathHash (PosTy.pos 4 3) false (aroundWalls (PosTy.pos 4 3) [(2, 3), (1, 0), (1, 2), (3, 1)]) (4, 0) (1, 3) 1000 =
      .ok (.ok ([.S, .S, .W, .W] ++ .N :: [.W, .W, .S, .S, .E])) ∧
    Astar.steps (PosTy.pos 4 3) < ((1000 : Nat) : Int) := by decide +kernel

end Sqrid
