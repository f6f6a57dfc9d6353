import Verif.Props.PathBound
import Verif.Proofs.BestFirstSource
/-!
# Which neighbour each step of a returned path comes from: C131

This explains why `astar_path` and `ucs_path` do not always return an optimal path (C58, C63): a position on the way is entered not from the neighbour
that is on the best way to it, but from the one that the search reached first.
-/

namespace Sqrid

-- Statements that do not mention a target are about a debug build for a 64-bit machine.
attribute [local instance] debug64

open Spec

theorem stepsBack_of_adjacent {T : PosTy} {go : WGo} {D : Bool} {orig : P2} (hgo : Adjacent T (dropCost go))
    (hG : ∀ ds q n, IsCostPath go D orig ds q n → InGrid T q) : StepsBack go D orig := by
  intro ds n u d q w hu hd
  have hg : dropCost go u (opposite d) = some q := by simp [dropCost, hd.2]
  rw [(hgo u _ q (hG _ _ _ hu) hg).2, neighbour_opposite']

/-- Any step of the way along the recorded directions. -/
theorem SInv.some_step {T : PosTy} {go : WGo} {h : P2 → Int} {D : Bool} {INF : Int} {orig dest : P2} {t : P2 → Nat} {n : Nat} {F : Int}
    {f : P2 → Option Dir} {s : BSt} (hw : NonNeg go) (hc : Consistent go D orig h) (hgo : Adjacent T (dropCost go))
    (hG : ∀ ds q n, IsCostPath go D orig ds q n → InGrid T q) (H : CInv go h D INF orig t n F f s) (S : SInv go h D INF orig t f s)
    (hd : 1 ≤ t dest) {as bs : List Dir} {d : Dir} (ha : Arrives T f orig dest (as ++ d :: bs)) :
    ∃ q r w, follow (dropCost go) orig as = some q ∧ 1 ≤ t q ∧ go q d = some (r, w) ∧
      ∀ q' d' w' k', IsMinCost go D orig q' k' → Allowed D d' → go q' d' = some (r, w') → k' + w' + h r < F → k' + w' < INF →
        s.c q + h q ≤ k' + h q' ∧ (q' = orig → q = orig) := by
  obtain ⟨r, hr, hra⟩ := ha.pre (K := fun q => 1 ≤ t q) (H.g.back_step hgo hG) hd (as ++ [d]) bs (by simp)
  generalize hp : as ++ [d] = path at hra
  cases hra with
  | here => simp at hp
  | @step _ d' path hne hf hin hra =>
    obtain ⟨e1, e2⟩ := List.append_inj' hp rfl
    injection e2 with e2
    subst e1 e2
    obtain ⟨d2, u, w, h1, h2, -, h4, -⟩ := H.back r hr hne
    rw [hf] at h1
    injection h1 with h1
    subst h1
    obtain ⟨ds, hds⟩ := H.g.walk u (H.g.fin u h2)
    have e := stepsBack_of_adjacent hgo hG _ _ _ _ _ _ hds h4
    rw [e] at hra
    refine ⟨u, r, w, (H.g.arrives_path hgo hG hra h2).2, h2, h4.2, fun q' d2 w' k' hk' hd' hg' hlt hINF => ?_⟩
    obtain ⟨⟨ds', hds'⟩, hmin⟩ := hk'
    have hw' := hw _ _ _ _ hg'
    have hcons := hc _ _ _ _ _ _ hds' ⟨hd', hg'⟩
    rcases H.frontier hw hc hds' (by omega) with ⟨h5, h6⟩ | ⟨x, h5, h6⟩
    · obtain ⟨ds2, hds2⟩ := H.g.walk q' (H.g.fin q' h5)
      have := hmin _ _ hds2
      have h7 := S.first H h5 ⟨hd', hg'⟩ hne (by omega) (by omega) hf
      rw [e] at h7
      have h8 := S.order u q' h2 h7
      refine ⟨by omega, fun ho => ?_⟩
      subst ho
      refine S.inj u q' h2 ?_
      have := S.one
      omega
    · have := H.F_le x h5
      omega

/-- C131. In a path that the uniform-cost search returns, the step to a position `r` comes from a neighbour `q` that is not dearer to reach than any neighbour
`q'` from which `r` can be reached for less than the cheapest cost of the destination - whatever the steps from `q` and `q'` to `r` cost. And it comes from the
origin, if the origin is such a neighbour. -/
theorem C131_ucs [Target] (T : PosTy) (hT : T.Searchable) (ucs) (hucs : Ucs.IsSearch T ucs) (D : Bool)
    (go : Int × Int → Dir → Option ((Int × Int) × Int)) (hgo : Adjacent T (dropCost go)) (hc : UsizeCosts go) (orig dest : Int × Int)
    (hov : Target.checks = true ∨ NoOverflow go D orig) (ho : InGrid T orig) (hd : InGrid T dest) (fuel : Nat)
    (as : List Dir) (d : Dir) (bs : List Dir) (h : ucs D go orig dest fuel = .ok (.ok (as ++ d :: bs))) :
    ∃ q r w k n, follow (dropCost go) orig as = some q ∧ go q d = some (r, w) ∧ IsMinCost go D orig q k ∧ IsMinCost go D orig dest n ∧
      ∀ q' d' w' k', Allowed D d' → go q' d' = some (r, w') → IsMinCost go D orig q' k' → k' + w' < n → k ≤ k' ∧ (q' = orig → q = orig) := by
  rw [hucs.eq hT hgo.staysIn ho hd] at h
  have hG := cost_inGrid (D := D) hgo.staysIn ho
  rcases hov.elim (fun hck => Ucs.searchMapmov_cases (D := D) (orig := orig) hck hc.nonNeg dest fuel)
    (fun hno => .inr (Ucs.searchMapmov_eq hc.nonNeg hno dest fuel)) with hpan | heq'
  · rw [Ucs.searchPath_panic hpan] at h; cases h
  cases hm : Ucs.searchMapmov (MapImpl.ideal none) (MapImpl.ideal 0) D go orig dest fuel with
  | ok r =>
    rw [Ucs.searchPath_of_mapmov hm] at h
    cases r with
    | error e => cases h
    | ok f =>
      rw [heq'] at hm
      obtain ⟨t, n, F, s, H, S, hK, hF⟩ := BSt.search_source_init usizeMax_pos hc.nonNeg (consistent_zero hc.nonNeg) (stepsBack_of_adjacent hgo hG) hm
      obtain ⟨q, r, w, a1, a2, a3, a4⟩ := S.some_step hc.nonNeg (consistent_zero hc.nonNeg) hgo hG H hK (camefrom_arrives hT.wf hd h)
      have hfin := H.g.fin dest hK
      refine ⟨q, r, w, _, _, a1, a3, H.isMinCost a2, H.isMinCost hK, fun q' d' w' k' b1 b2 b3 b4 => ?_⟩
      obtain ⟨c1, c2⟩ := a4 q' d' w' k' b3 b1 b2 (by omega) (by omega)
      exact ⟨by simpa using c1, c2⟩
  | panic => unfold Ucs.searchPath at h; rw [hm] at h; cases h
  | ub => unfold Ucs.searchPath at h; rw [hm] at h; cases h
  | timeout => unfold Ucs.searchPath at h; rw [hm] at h; cases h

-- the road of C117: the second position is entered from the origin, for 100, though it can be reached for 4
example : Ucs.pathHash (PosTy.pos 3 1) false (stepCosts (PosTy.pos 3 1) [(3, 1)] roadCost) (0, 0) (3, 0) 200 = .ok (.ok ([] ++ .E :: [.E, .E])) ∧
    stepCosts (PosTy.pos 3 1) [(3, 1)] roadCost (1, 1) .N = some ((1, 0), 1) ∧ stepCosts (PosTy.pos 3 1) [(3, 1)] roadCost (0, 0) .E = some ((1, 0), 100) ∧
    pathCost (stepCosts (PosTy.pos 3 1) [(3, 1)] roadCost) (0, 0) [.S, .E, .N] = some 4 ∧
    pathCost (stepCosts (PosTy.pos 3 1) [(3, 1)] roadCost) (0, 0) [.S, .E, .E, .N, .E] = some 106 := by decide +kernel

/-- C131. If a single step leads from the origin to a position for less than the cheapest cost of the destination, then a path that the uniform-cost search
returns can enter this position only with this step, also if another way there is much cheaper. -/
theorem C131_ucs_start [Target] (T : PosTy) (hT : T.Searchable) (ucs) (hucs : Ucs.IsSearch T ucs) (D : Bool)
    (go : Int × Int → Dir → Option ((Int × Int) × Int)) (hgo : Adjacent T (dropCost go)) (hc : UsizeCosts go) (orig dest : Int × Int)
    (hov : Target.checks = true ∨ NoOverflow go D orig) (ho : InGrid T orig) (hd : InGrid T dest) (fuel : Nat)
    (path : List Dir) (h : ucs D go orig dest fuel = .ok (.ok path)) (n : Int) (hn : IsMinCost go D orig dest n)
    (d : Dir) (hdir : Allowed D d) (r : Int × Int) (w : Int) (hg : go orig d = some (r, w)) (hw : w < n)
    (i : Nat) (hi : i ≤ path.length) (hri : follow (dropCost go) orig (path.take i) = some r) : i = 1 := by
  have hne : r ≠ orig := by
    have := (hgo orig d r ho (by simp [dropCost, hg])).2
    intro e
    rw [e] at this
    exact neighbour_ne orig d this.symm
  cases i with
  | zero =>
    simp only [List.take_zero, follow, Option.some.injEq] at hri
    exact absurd hri.symm hne
  | succ i =>
    have hsplit : path = path.take i ++ path[i] :: path.drop (i + 1) := by simp
    rw [hsplit] at h
    obtain ⟨q, r', w', k, n', a1, a2, a3, a4, a5⟩ := C131_ucs T hT ucs hucs D go hgo hc orig dest hov ho hd fuel _ _ _ h
    rw [← hsplit] at h
    have e := isMinCost_unique hn a4
    subst e
    have hr' : r' = r := by
      rw [List.take_succ_eq_append_getElem (by omega), follow_append, a1] at hri
      simp only [Option.bind_some, follow, dropCost, a2, Option.map_some, Option.some.injEq] at hri
      exact hri
    subst hr'
    have h0 : IsMinCost go D orig orig 0 := ⟨⟨[], isCostPath_nil⟩, fun ds m hm => isCostPath_nonneg hc.nonNeg hm⟩
    have hq := (a5 orig d w 0 hdir hg h0 (by omega)).2 rfl
    subst hq
    have := C91_ucs_simple T hT ucs hucs D go hgo q dest ho hd fuel path h i 0 (by omega) (by omega) (by rw [a1]; rfl)
    omega

/-- C131. Without diagonals, in a path that A* returns, the step to a position `r` comes from a neighbour `q` for which `dist(q) + |q - destination|` is not
larger than for any neighbour `q'` with a step to `r` and `dist(q') + 1 + |r - destination| < dist(destination)`. And it comes from the origin, if the origin is
such a neighbour. -/
theorem C131_astar [Target] (T : PosTy) (hT : T.Searchable) (astar) (hastar : Astar.IsSearch T astar)
    (go : Int × Int → Dir → Option (Int × Int)) (hgo : Adjacent T go) (orig dest : Int × Int) (ho : InGrid T orig) (hd : InGrid T dest) (fuel : Nat)
    (as : List Dir) (d : Dir) (bs : List Dir) (h : astar false go orig dest fuel = .ok (.ok (as ++ d :: bs))) :
    ∃ q r k n, follow go orig as = some q ∧ go q d = some r ∧ IsDist go false orig q k ∧ IsDist go false orig dest n ∧
      ∀ q' d' k', Allowed false d' → go q' d' = some r → IsDist go false orig q' k' → (k' : Int) + 1 + l1 r dest < n →
        (k : Int) + l1 q dest ≤ k' + l1 q' dest ∧ (q' = orig → q = orig) := by
  obtain ⟨fuel, hfuel, h⟩ := hastar.more (Astar.steps T) h
  rw [hastar.eq hT hgo.staysIn ho hd] at h
  have hG := unit_inGrid (D := false) hgo.staysIn ho
  have hcons := astar_consistent hgo ho dest
  have hadj := unit_adjacent hgo
  obtain ⟨r, h1, -⟩ := BSt.search_init (L := allPositions T true) (INF := usizeMax) usizeMax_pos (unitCost_nonneg go) hcons (dest := dest)
    (fun ds q n h => PosTy.mem_allPositions.2 (hG ds q n h)) (by rw [PosTy.allPositions_length]; exact (Astar.steps_nat hT.toIsGrid hfuel).2) (fun _ => none)
  have h1' := h1
  rw [← Astar.searchMapmov_eq hT hgo.staysIn ho hd false fuel] at h1
  rw [Astar.searchPath_of_mapmov h1] at h
  cases r with
  | error e => cases h
  | ok f =>
    obtain ⟨t, n, F, s, H, S, hK, hF⟩ := BSt.search_source_init usizeMax_pos (unitCost_nonneg go) hcons (stepsBack_of_adjacent hadj hG) h1'
    obtain ⟨q, r, w, a1, a2, a3, a4⟩ := S.some_step (unitCost_nonneg go) hcons hadj hG H hK (camefrom_arrives hT.wf hd h)
    rw [dropCost_unitCost] at a1
    obtain ⟨k, hk1, hk2⟩ := isMinCost_unit.1 (H.isMinCost a2)
    obtain ⟨m, hm1, hm2⟩ := isMinCost_unit.1 (H.isMinCost hK)
    have hfin := H.g.fin dest hK
    have h0 : l1 dest dest = 0 := by simp [l1]
    have hr0 : 0 ≤ l1 r dest := by unfold l1; omega
    refine ⟨q, r, k, m, a1, (unitCost_some.1 a3).1, hk2, hm2, fun q' d' k' b1 b2 b3 b4 => ?_⟩
    obtain ⟨c1, c2⟩ := a4 q' d' 1 k' (isMinCost_unit.2 ⟨k', rfl, b3⟩) b1 (unitCost_some.2 ⟨b2, rfl⟩) (by omega) (by omega)
    exact ⟨by omega, c2⟩

-- the path of `C58_refuted_straight`: the step to (2, 1) comes from (2, 2), four steps from the origin, and not from (2, 0), which is two steps from the origin;
-- both are on a straight way to the destination as far as the heuristic can tell
example : Astar.pathHash (PosTy.pos 4 3) false (aroundWalls (PosTy.pos 4 3) [(2, 3), (1, 0), (1, 2), (3, 1)]) (4, 0) (1, 3) 1000 =
      .ok (.ok ([.S, .S, .W, .W] ++ .N :: [.W, .W, .S, .S, .E])) ∧
    aroundWalls (PosTy.pos 4 3) [(2, 3), (1, 0), (1, 2), (3, 1)] (2, 0) .S = some (2, 1) ∧
    follow (aroundWalls (PosTy.pos 4 3) [(2, 3), (1, 0), (1, 2), (3, 1)]) (4, 0) [.W, .W] = some (2, 0) ∧
    (2 : Int) + 1 + l1 (2, 1) (1, 3) < 8 := by decide +kernel

/-! ### A family of grids

A road along line 0, of `k` steps to the east that cost `W` each. Beside it, on line 1, a step to the east costs 2. All other steps cost 1. The position below the end
of the road is a wall. The cheapest way to the end of the road goes along line 1 and takes one step on the road. The search stays on the road. -/

def roadCosts (W : Int) (p : Int × Int) (d : Dir) : Int := if d = .E then (if p.2 = 0 then W else 2) else 1

/-- The movement function. -/
def roadGo (k W : Int) : WGo := stepCosts (PosTy.pos k 1) [(k, 1)] (roadCosts W)

theorem roadGo_some {k W : Int} {p q : P2} {d : Dir} {w : Int} :
    roadGo k W p d = some (q, w) ↔ q = neighbour p d ∧ (0 ≤ q.1 ∧ q.1 ≤ k ∧ 0 ≤ q.2 ∧ q.2 ≤ 1) ∧ q ≠ (k, 1) ∧ w = roadCosts W p d := by
  have hin : ∀ q : P2, InGrid (PosTy.pos k 1) q ↔ 0 ≤ q.1 ∧ q.1 ≤ k ∧ 0 ≤ q.2 ∧ q.2 ≤ 1 := fun q => and_assoc
  simp only [roadGo, stepCosts, aroundWalls, hin, List.mem_singleton]
  split
  · rename_i h
    simp only [Option.map_some, Option.some.injEq, Prod.mk.injEq]
    constructor
    · rintro ⟨rfl, rfl⟩; exact ⟨rfl, h.1, h.2, rfl⟩
    · rintro ⟨rfl, -, -, rfl⟩; exact ⟨rfl, rfl⟩
  · rename_i h
    simp only [Option.map_none, reduceCtorEq, false_iff]
    rintro ⟨rfl, h1, h2, -⟩
    exact h ⟨h1, h2⟩

/-- What the cheapest way to a position costs. -/
def roadMin (k W : Int) (p : P2) : Int := if p.2 = 0 then (if p.1 = 0 then 0 else if p.1 = k then W + 2 * k else 2 * p.1 + 2) else 2 * p.1 + 1

theorem allowed_false {d : Dir} : Allowed false d ↔ d = .N ∨ d = .E ∨ d = .S ∨ d = .W := by
  cases d <;> simp [Allowed, unit]

theorem roadMin_le {k W : Int} (hk : 2 ≤ k) (hW : 5 ≤ W) {ds : List Dir} {q : P2} {n : Int} (h : IsCostPath (roadGo k W) false (0, 0) ds q n) :
    (0 ≤ q.1 ∧ q.1 ≤ k ∧ 0 ≤ q.2 ∧ q.2 ≤ 1) ∧ q ≠ (k, 1) ∧ roadMin k W q ≤ n := by
  induction ds using List.reverseRecOn generalizing q n with
  | nil =>
    have h1 := h.1.2
    injection h1 with h1
    have h2 := h.2
    injection h2 with h2
    subst h1
    refine ⟨by simp only; omega, by simp, ?_⟩
    simp only [roadMin, if_true]
    omega
  | append_singleton ds d ih =>
    obtain ⟨r, m, w, h1, h2, h3, h4⟩ := isCostPath_concat h
    obtain ⟨i1, i2, i3⟩ := ih h1
    obtain ⟨e1, e2, e3, e4⟩ := roadGo_some.1 h3
    refine ⟨e2, e3, ?_⟩
    obtain ⟨x, y⟩ := r
    simp only [ne_eq, Prod.mk.injEq, not_and] at i1 i2 e3
    rcases allowed_false.1 h2 with rfl | rfl | rfl | rfl <;> simp only [neighbour, unit] at e1 <;> subst e1 <;>
      simp only [roadMin, roadCosts, Prod.mk.injEq, reduceCtorEq, if_false, if_true] at * <;> split_ifs at * <;> omega

theorem road_below {k W : Int} {i : Nat} (hi : (i : Int) < k) :
    IsCostPath (roadGo k W) false (0, 0) (.S :: List.replicate i .E) (i, 1) (2 * i + 1) := by
  induction i with
  | zero =>
    have := isCostPath_snoc (go := roadGo k W) (D := false) (p := (0, 0)) isCostPath_nil (d := .S) (r := (0, 1)) (w := 1) (allowed_false.2 (by simp))
      (roadGo_some.2 ⟨rfl, ⟨by simp, by simp only; omega, by simp, by simp⟩, by simp only [ne_eq, Prod.mk.injEq]; omega, rfl⟩)
    simpa using this
  | succ i ih =>
    have := isCostPath_snoc (ih (by omega)) (d := .E) (r := ((i : Int) + 1, 1)) (w := 2) (allowed_false.2 (by simp))
      (roadGo_some.2 ⟨by simp [neighbour, unit], ⟨by simp only; omega, by simp only; omega, by simp, by simp⟩, by simp only [ne_eq, Prod.mk.injEq]; omega,
        by simp [roadCosts]⟩)
    rw [List.replicate_succ', ← List.cons_append]
    push_cast
    have e : 2 * ((i : Int) + 1) + 1 = 2 * i + 1 + 2 := by omega
    rw [e]
    exact this

theorem road_up {k W : Int} {i : Nat} (hi : (i : Int) < k) :
    IsCostPath (roadGo k W) false (0, 0) ((.S :: List.replicate i .E) ++ [.N]) (i, 0) (2 * i + 1 + 1) :=
  isCostPath_snoc (road_below hi) (allowed_false.2 (by simp)) (roadGo_some.2 ⟨by simp [neighbour, unit],
    ⟨by simp only; omega, by simp only; omega, by simp, by simp⟩, by simp, by simp [roadCosts]⟩)

theorem road_along {k W : Int} {i : Nat} (hi : (i : Int) ≤ k) : IsCostPath (roadGo k W) false (0, 0) (List.replicate i .E) (i, 0) (i * W) := by
  induction i with
  | zero => simpa using isCostPath_nil
  | succ i ih =>
    have := isCostPath_snoc (ih (by omega)) (d := .E) (r := ((i : Int) + 1, 0)) (w := W) (allowed_false.2 (by simp))
      (roadGo_some.2 ⟨by simp [neighbour, unit], ⟨by simp only; omega, by simp only; omega, by simp, by simp⟩, by simp, by simp [roadCosts]⟩)
    rw [List.replicate_succ']
    push_cast
    rw [Int.add_mul, Int.one_mul]
    exact this

/-- The cheapest way to a position on the road. -/
theorem road_isMin {k W : Int} (hk : 2 ≤ k) (hW : 5 ≤ W) {i : Nat} (hi : (i : Int) < k) :
    IsMinCost (roadGo k W) false (0, 0) (i, 0) (roadMin k W (i, 0)) := by
  refine ⟨?_, fun ds m hm => (roadMin_le hk hW hm).2.2⟩
  by_cases h0 : i = 0
  · subst h0
    exact ⟨[], by simpa [roadMin] using isCostPath_nil⟩
  · have e : roadMin k W (i, 0) = 2 * i + 1 + 1 := by
      simp only [roadMin, if_true]
      rw [if_neg (by omega), if_neg (by omega)]
      omega
    exact ⟨_, e ▸ road_up hi⟩

/-- The cheapest way to the end of the road: along line 1, and the last step on the road. -/
theorem road_end {k : Nat} {W : Int} (hk : 2 ≤ k) (hW : 5 ≤ W) :
    IsCostPath (roadGo k W) false (0, 0) ((.S :: List.replicate (k - 1) .E) ++ [.N] ++ [.E]) (k, 0) (W + 2 * k) ∧
    IsMinCost (roadGo k W) false (0, 0) (k, 0) (W + 2 * k) := by
  have h1 : IsCostPath (roadGo k W) false (0, 0) ((.S :: List.replicate (k - 1) .E) ++ [.N] ++ [.E]) (k, 0) (W + 2 * k) := by
    have e : W + 2 * (k : Int) = 2 * ((k - 1 : Nat) : Int) + 1 + 1 + W := by omega
    rw [e]
    refine isCostPath_snoc (road_up (by omega)) (allowed_false.2 (by simp)) (roadGo_some.2 ⟨?_, ⟨by simp only; omega, by simp only; omega, by simp, by simp⟩,
      by simp, by simp [roadCosts]⟩)
    simp only [neighbour, unit, Prod.mk.injEq]
    omega
  refine ⟨h1, ⟨_, h1⟩, fun ds m hm => ?_⟩
  have := (roadMin_le (by omega) hW hm).2.2
  simp only [roadMin, if_true] at this
  rw [if_neg (by omega)] at this
  exact this

theorem road_ok [Target] (k : Nat) (hk : 2 ≤ k) (W : Int) (hW : 5 ≤ W) (hT : (PosTy.pos k 1).Searchable) (hlim : W * (2 * (k + 1)) < limit) :
    Adjacent (PosTy.pos k 1) (dropCost (roadGo k W)) ∧ UsizeCosts (roadGo k W) ∧ InGrid (PosTy.pos k 1) (0, 0) ∧ InGrid (PosTy.pos k 1) ((k : Int), 0) ∧
      BelowLimit (roadGo k W) false (0, 0) := by
  have hgo : Adjacent (PosTy.pos k 1) (dropCost (roadGo k W)) := stepCosts_adjacent _ _ _
  have hcost : ∀ p d, 0 ≤ roadCosts W p d ∧ roadCosts W p d ≤ W := by
    intro p d
    unfold roadCosts
    split_ifs <;> omega
  have hWl : W ≤ limit := by
    have h1 : W * 1 ≤ W * (2 * (k + 1)) := Int.mul_le_mul_of_nonneg_left (by omega) (by omega)
    omega
  have hc : UsizeCosts (roadGo k W) := stepCosts_usize _ _ fun p d => ⟨(hcost p d).1, by have := (hcost p d).2; omega⟩
  have hin : ∀ q : P2, InGrid (PosTy.pos k 1) q ↔ 0 ≤ q.1 ∧ q.1 ≤ k ∧ 0 ≤ q.2 ∧ q.2 ≤ 1 := fun q => and_assoc
  have ho : InGrid (PosTy.pos k 1) (0, 0) := (hin _).2 (by simp)
  have hd : InGrid (PosTy.pos k 1) ((k : Int), 0) := (hin _).2 (by simp)
  have hcols : cols (PosTy.pos k 1) = k + 1 := by show (k : Int) - 0 + 1 = k + 1; omega
  have hrows : rows (PosTy.pos k 1) = 2 := rfl
  have hb : BelowLimit (roadGo k W) false (0, 0) := by
    refine stepCosts_below hT _ _ ho (B := W) (by omega) (fun p d => (hcost p d).2) ?_
    rw [hcols, hrows, Int.mul_comm (_ + 1)]
    exact hlim
  exact ⟨hgo, hc, ho, hd, hb⟩

/-- C131, C63. The uniform-cost search can return a path that costs many times more than the cheapest one: on a road of `k` steps that cost `W` each, it returns the
`k` steps on the road, which cost `k * W`, while the cheapest way costs `W + 2 * k`. -/
theorem C131_ucs_far [Target] (k : Nat) (hk : 2 ≤ k) (W : Int) (hW : 5 ≤ W) (hT : (PosTy.pos k 1).Searchable) (ucs) (hucs : Ucs.IsSearch (PosTy.pos k 1) ucs)
    (hlim : W * (2 * (k + 1)) < limit) (fuel : Nat) (hfuel : Ucs.steps (PosTy.pos k 1) < (fuel : Int)) :
    ucs false (roadGo k W) (0, 0) (k, 0) fuel = .ok (.ok (List.replicate k .E)) ∧
    pathCost (roadGo k W) (0, 0) (List.replicate k .E) = some (k * W) ∧
    pathCost (roadGo k W) (0, 0) (.S :: (List.replicate (k - 1) .E ++ [.N, .E])) = some (W + 2 * k) ∧
    IsMinCost (roadGo k W) false (0, 0) (k, 0) (W + 2 * k) := by
  obtain ⟨hgo, hc, ho, hd, hb⟩ := road_ok k hk W hW hT hlim
  have hcols : cols (PosTy.pos k 1) = k + 1 := by show (k : Int) - 0 + 1 = k + 1; omega
  have hrows : rows (PosTy.pos k 1) = 2 := rfl
  obtain ⟨hend, hmin⟩ := road_end hk hW
  obtain ⟨path, hp⟩ := (C62_wide_partial (PosTy.pos k 1) hT (by rw [hcols, hrows]; omega) ucs hucs false (roadGo k W) hgo hc (0, 0) (k, 0) ho hd hb fuel
    hfuel).1 ⟨_, hend.1⟩
  have hpath := C61_valid_path (PosTy.pos k 1) hT ucs hucs false (roadGo k W) hgo (0, 0) (k, 0) ho hd fuel path hp
  -- going back along the path, it stays on the road
  have key : ∀ i : Nat, i ≤ k → ∀ as bs, path = as ++ bs → follow (dropCost (roadGo k W)) (0, 0) as = some ((i : Int), 0) → as = List.replicate i .E := by
    intro i
    induction i with
    | zero =>
      intro _ as bs e hf
      have := C91_ucs_simple (PosTy.pos k 1) hT ucs hucs false (roadGo k W) hgo (0, 0) (k, 0) ho hd fuel path hp as.length 0 (by rw [e]; simp) (by omega)
        (by rw [e, List.take_left, hf]; simp [follow])
      rw [List.replicate_zero]
      exact List.length_eq_zero_iff.1 this
    | succ i ih =>
      intro hi as bs e hf
      rcases List.eq_nil_or_concat as with rfl | ⟨as, d, rfl⟩
      · simp only [follow, Option.some.injEq, Prod.mk.injEq] at hf
        omega
      · rw [List.concat_eq_append] at e hf ⊢
        rw [e, List.append_assoc, List.singleton_append] at hp
        obtain ⟨q, r, w, c, n, a1, a2, a3, a4, a5⟩ := C131_ucs (PosTy.pos k 1) hT ucs hucs false (roadGo k W) hgo hc (0, 0) (k, 0) (.inr hb.noOverflow) ho hd
          fuel _ _ _ hp
        have hr : r = ((i : Int) + 1, 0) := by
          rw [follow_append, a1] at hf
          simpa [follow, dropCost, a2] using hf
        subst hr
        have en := isMinCost_unique hmin a4
        subst en
        have hda : Allowed false d := hpath.1 d (by rw [e]; simp)
        obtain ⟨⟨qs, hqs⟩, -⟩ := a3
        obtain ⟨g1, g2, g3⟩ := roadMin_le (by omega) hW hqs
        obtain ⟨e1, e2, e3, e4⟩ := roadGo_some.1 a2
        have hq : d = .E ∧ q = ((i : Int), 0) := by
          have hdear : (i : Int) + 1 < k → c ≤ roadMin k W (i, 0) := fun hlt =>
            (a5 ((i : Int), 0) .E W _ (allowed_false.2 (by simp)) (roadGo_some.2 ⟨by simp [neighbour, unit], e2, e3, by simp [roadCosts]⟩)
              (road_isMin (by omega) hW (by omega)) (by simp only [roadMin, if_true]; split_ifs <;> omega)).1
          obtain ⟨x, y⟩ := q
          simp only [ne_eq, Prod.mk.injEq, not_and] at g1 g2 e3 ⊢
          rcases allowed_false.1 hda with rfl | rfl | rfl | rfl <;> simp only [neighbour, unit, Prod.mk.injEq] at e1 <;>
            simp only [roadMin, if_true, reduceCtorEq, false_and, true_and] at * <;> split_ifs at * <;> omega
        obtain ⟨rfl, rfl⟩ := hq
        rw [ih (by omega) as _ (by rw [e, List.append_assoc]) a1, List.replicate_succ']
  have hE := key k (Nat.le_refl _) path [] (by simp) hpath.2
  subst hE
  exact ⟨hp, (road_along (Int.le_refl _)).2, by simpa using hend.2, hmin⟩

example : (PosTy.pos ((65535 : Nat) : Int) 1).Searchable ∧ 2 * (((65535 : Nat) : Int) * (65535 : Nat)) * (2 * ((65535 : Nat) + 1)) < limit ∧
    Ucs.IsSearch (PosTy.pos ((65535 : Nat) : Int) 1) (Ucs.pathHash (PosTy.pos ((65535 : Nat) : Int) 1)) :=
  ⟨PosTy.pos_searchable (by decide) (by decide) (.inl rfl), by decide, .inr (.inl rfl)⟩

/-- C117. The bound of `C117_ucs_bound` cannot be lowered by one: for every number of steps there are a grid and costs for which the path has that many steps,
`k`, and costs more than `k - 1` times the cheapest cost. -/
theorem C117_ucs_tight [Target] (k : Nat) (hk : 2 ≤ k) (hT : (PosTy.pos k 1).Searchable) (ucs) (hucs : Ucs.IsSearch (PosTy.pos k 1) ucs)
    (hlim : 2 * (k * k) * (2 * (k + 1)) < limit) (fuel : Nat) (hfuel : Ucs.steps (PosTy.pos k 1) < (fuel : Int)) :
    ∃ (go : Int × Int → Dir → Option ((Int × Int) × Int)) (orig dest : Int × Int) (path : List Dir) (c n : Int), Adjacent (PosTy.pos k 1) (dropCost go) ∧ UsizeCosts go ∧ InGrid (PosTy.pos k 1) orig ∧
      InGrid (PosTy.pos k 1) dest ∧ BelowLimit go false orig ∧ ucs false go orig dest fuel = .ok (.ok path) ∧ path.length = k ∧
      IsCostPath go false orig path dest c ∧ IsMinCost go false orig dest n ∧ (k - 1) * n < c := by
  have h4 : (2 * 2 : Int) ≤ k * k := Int.mul_le_mul (by omega) (by omega) (by omega) (by omega)
  have hW : (5 : Int) ≤ 2 * (k * k) := by omega
  obtain ⟨h1, -, -, h2⟩ := C131_ucs_far k hk (2 * (k * k)) hW hT ucs hucs hlim fuel hfuel
  obtain ⟨b1, b2, b3, b4, b5⟩ := road_ok k hk (2 * (k * k)) hW hT hlim
  refine ⟨_, _, _, _, _, _, b1, b2, b3, b4, b5, h1, by simp, road_along (Int.le_refl _), h2, ?_⟩
  have e : ((k : Int) - 1) * (2 * (k * k) + 2 * k) = k * (2 * (k * k)) - 2 * k := by ring
  rw [e]
  omega

end Sqrid
