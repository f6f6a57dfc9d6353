import Verif.Proofs.SearchLaws
import Verif.Props.OpenGrid
/-!
# Laws of the searches: C83 – C87, C89 – C91

The position that a list of directions leads to is `follow go orig ds`. A position *on* a path is one that a prefix of the path leads to.
-/

namespace Sqrid

-- Statements that do not mention a target are about a debug build for a 64-bit machine.
attribute [local instance] debug64

open Spec

/-! ## C83 -/

theorem camefrom_here [Target] {T : PosTy} (hT : T.Searchable) {f : P2 → Option Dir} {p : P2} {d : Dir} (hp : InGrid T p) :
    camefromIntoPath T (MapImpl.ideal none) (upd f p (some d)) p p = .ok (.ok []) := by
  rcases camefromIntoPath_spec hT (MapImpl.ideal none) (upd f p (some d)) (upd f p (some d)) hp hp (fun p hp => rfl) with
    ⟨a0, a⟩ | ⟨-, ⟨path', a1, -, a⟩ | ⟨m, a1, -, a⟩ | ⟨a1, -, a⟩⟩
  · rw [upd_same] at a0; cases a0
  · rw [a, Arrives.unique a1 .here]
  · cases a1 with
    | here h _ => exact absurd rfl h
    | step h _ _ _ => exact absurd rfl h
  · exact absurd (a1 [] .here) (Nat.not_lt_zero _)

/-- C83. From a position to itself, A* returns the empty path, whatever the movement function. -/
theorem C83_astar_same [Target] (T : PosTy) (hT : T.Searchable) (astar) (hastar : Astar.IsSearch T astar) (D : Bool)
    (go : Int × Int → Dir → Option (Int × Int)) (hgo : StaysIn T go) (p : Int × Int) (hp : InGrid T p) (fuel : Nat) (hfuel : 0 < fuel) :
    astar D go p p fuel = .ok (.ok []) := by
  obtain ⟨fuel, rfl⟩ : ∃ k, fuel = k + 1 := ⟨fuel - 1, by omega⟩
  rw [hastar.eq hT hgo hp hp]
  have h1 : Astar.searchMapmov T (MapImpl.ideal none) (MapImpl.ideal 0) D go p p (fuel + 1) =
      .ok (.ok (upd (fun _ => none) p (some Dir.N))) := by
    rw [Astar.searchMapmov_eq hT hgo hp hp D, BSt.search_some (e := (0, p, Dir.N)) (rest := []) (Heap.pop_single _), if_pos rfl]
  rw [Astar.searchPath_of_mapmov h1]
  exact camefrom_here hT hp

/-- C83. From a position to itself, the uniform-cost search returns the empty path, whatever the movement function and the costs. -/
theorem C83_ucs_same [Target] (T : PosTy) (hT : T.Searchable) (ucs) (hucs : Ucs.IsSearch T ucs) (D : Bool)
    (go : Int × Int → Dir → Option ((Int × Int) × Int)) (hgo : StaysIn T (dropCost go)) (hc : UsizeCosts go) (p : Int × Int) (hp : InGrid T p)
    (fuel : Nat) (hfuel : 0 < fuel) : ucs D go p p fuel = .ok (.ok []) := by
  obtain ⟨fuel, rfl⟩ : ∃ k, fuel = k + 1 := ⟨fuel - 1, by omega⟩
  rw [hucs.eq hT hgo hp hp]
  have h1 : Ucs.searchMapmov (MapImpl.ideal none) (MapImpl.ideal 0) D go p p (fuel + 1) =
      .ok (.ok (upd (fun _ => none) p (some Dir.N))) := by
    have hc0 : (BSt.init usizeMax p).c p = 0 := by simp [BSt.init, upd_same]
    unfold Ucs.searchMapmov
    rw [UcsIter.new_eq, Out.ok_bind]
    unfold Ucs.searchLoop
    rw [UcsIter.next_eq hc.nonNeg D (s := BSt.init usizeMax p) (e := (0, p, Dir.N)) (rest := []) (Heap.pop_single _)
      ⟨by rw [hc0], fun d q w h => by rw [hc0]; have := (hc _ _ _ _ h.2).2; rw [limit_eq] at this; omega⟩, Out.ok_bind]
    simp only [MapImpl.ideal, Out.ok_bind]
    rw [if_pos trivial]
  rw [Ucs.searchPath_of_mapmov h1]
  exact camefrom_here hT hp

-- a movement function that panics nowhere and leads nowhere; one whose second step would overflow
example : Astar.pathBtree (PosTy.pos 2 1) true (fun _ _ => none) (1, 1) (1, 1) 1 = .ok (.ok []) := by decide +kernel
example : UsizeCosts (stepCosts (PosTy.pos 2 1) [] fun _ _ => limit) := stepCosts_usize _ _ fun _ _ => ⟨by decide, by decide⟩
example : Ucs.pathHash (PosTy.pos 2 1) true (stepCosts (PosTy.pos 2 1) [] fun _ _ => limit) (1, 1) (1, 1) 1 = .ok (.ok []) := by decide +kernel

/-! ## C84 -/

/-- C84. The traversal depends only on the movements from the positions that it can reach. -/
theorem C84_bf_iter [Target] (T : PosTy) (iter) (hiter : Bf.IsIter T iter) (D : Bool) (go go' : Int × Int → Dir → Option (Int × Int)) (orig : Int × Int)
    (hsame : ∀ p d, Reachable go D orig p → Allowed D d → go' p d = go p d) (fuel : Nat) : iter D go' orig fuel = iter D go orig fuel := by
  rcases hiter with ⟨W, -, rfl⟩ | rfl | rfl <;> exact Bf.iterAll_congr hsame fuel

/-- C84. The breadth-first search depends only on the movements from, and the goal test at, the positions that it can reach. -/
theorem C84_bfs [Target] (T : PosTy) (bfs) (hbfs : Bf.IsSearch T bfs) (D : Bool) (go go' : Int × Int → Dir → Option (Int × Int)) (orig : Int × Int)
    (hsame : ∀ p d, Reachable go D orig p → Allowed D d → go' p d = go p d) (found found' : Int × Int → Bool)
    (hf : ∀ p, Reachable go D orig p → found' p = found p) (fuel : Nat) : bfs D go' orig found' fuel = bfs D go orig found fuel := by
  rcases hbfs with ⟨W, n, -, -, rfl⟩ | rfl | rfl <;> exact Bf.searchPath_congr hsame hf fuel

/-- C84. A* depends only on the movements from the positions that it can reach. -/
theorem C84_astar [Target] (T : PosTy) (astar) (hastar : Astar.IsSearch T astar) (D : Bool) (go go' : Int × Int → Dir → Option (Int × Int))
    (orig dest : Int × Int) (hsame : ∀ p d, Reachable go D orig p → Allowed D d → go' p d = go p d) (fuel : Nat) :
    astar D go' orig dest fuel = astar D go orig dest fuel := by
  rcases hastar with ⟨n, -, rfl⟩ | rfl | rfl <;> exact Astar.searchPath_congr hsame fuel

/-- C84. The uniform-cost search depends only on the movements, and their costs, from the positions that it can reach. -/
theorem C84_ucs [Target] (T : PosTy) (ucs) (hucs : Ucs.IsSearch T ucs) (D : Bool) (go go' : Int × Int → Dir → Option ((Int × Int) × Int))
    (orig dest : Int × Int) (hsame : ∀ p d, Reachable (dropCost go) D orig p → Allowed D d → go' p d = go p d) (fuel : Nat) :
    ucs D go' orig dest fuel = ucs D go orig dest fuel := by
  rcases hucs with ⟨n, -, rfl⟩ | rfl | rfl <;> exact Ucs.searchPath_congr hsame fuel

-- a wall between the first and the third row hides what is below it
example : ∃ p : Int × Int, aroundWalls (PosTy.pos 1 3) [(0, 1), (1, 1), (0, 3)] p .S ≠ aroundWalls (PosTy.pos 1 3) [(0, 1), (1, 1)] p .S :=
  ⟨(0, 2), by decide⟩
example : ∀ p d, Reachable (aroundWalls (PosTy.pos 1 3) [(0, 1), (1, 1)]) false (0, 0) p → Allowed false d →
    aroundWalls (PosTy.pos 1 3) [(0, 1), (1, 1), (0, 3)] p d = aroundWalls (PosTy.pos 1 3) [(0, 1), (1, 1)] p d := by
  intro p d hp hd
  have hp' : p = (0, 0) ∨ p = (1, 0) := by
    refine hp.induct (P := fun p => p = (0, 0) ∨ p = (1, 0)) (.inl rfl) ?_
    rintro q r - hq ⟨d, hd, h⟩
    rcases hd with hd | hd
    · cases hd
    · have key : ∀ q ∈ [((0, 0) : Int × Int), (1, 0)], ∀ d ∈ clockwise true, ((unit d).1 = 0 ∨ (unit d).2 = 0) →
          ∀ r ∈ (aroundWalls (PosTy.pos 1 3) [(0, 1), (1, 1)] q d).toList, r = (0, 0) ∨ r = (1, 0) := by decide
      exact key q (by simpa using hq) d (mem_clockwise.2 (.inl rfl)) hd r (by rw [h]; simp)
  rcases hd with hd | hd
  · cases hd
  · revert hd
    rcases hp' with rfl | rfl <;> cases d <;> decide

/-! ## C86 -/

/-- C86. A breadth-first traversal that has ended does not start again: every later call to `next` also returns nothing. -/
theorem C86_bf_fused (S : SetImpl) (D : Bool) (go : Int × Int → Dir → Option (Int × Int)) (st st' : BfIter S)
    (h : BfIter.next S D go st = .ok (none, st')) : BfIter.next S D go st' = .ok (none, st') := by
  unfold BfIter.next at h
  simp only at h
  split at h
  · injection h with h
    injection h with _ h
    subst h
    rfl
  · obtain ⟨s1, -, h2⟩ := Out.bind_eq_ok.1 h
    injection h2 with h2
    injection h2 with h2 _
    cases h2

/-- C86. The same for A*. -/
theorem C86_astar_fused [Target] (T : PosTy) (C : MapImpl Int) (D : Bool) (go : Int × Int → Dir → Option (Int × Int)) (dest : Int × Int) (st st' : AstarIter C)
    (h : AstarIter.next T C D go dest st = .ok (none, st')) : AstarIter.next T C D go dest st' = .ok (none, st') := by
  have h' := h
  unfold AstarIter.next at h
  cases hp : Heap.pop st.frontier with
  | none => rw [hp] at h; injection h with h; injection h with _ h; subst h; exact h'
  | some er =>
    obtain ⟨⟨pr, m⟩, rest⟩ := er
    rw [hp] at h
    simp only at h
    rw [toList_dirs, Out.ok_bind] at h
    obtain ⟨s1, -, h4⟩ := Out.bind_eq_ok.1 h
    injection h4 with h4
    injection h4 with h4 _
    cases h4

/-- C86. The same for the uniform-cost search. -/
theorem C86_ucs_fused [Target] (C : MapImpl Int) (D : Bool) (go : Int × Int → Dir → Option ((Int × Int) × Int)) (st st' : UcsIter C)
    (h : UcsIter.next C D go st = .ok (none, st')) : UcsIter.next C D go st' = .ok (none, st') := by
  have h' := h
  unfold UcsIter.next at h
  cases hp : Heap.pop st.frontier with
  | none => rw [hp] at h; injection h with h; injection h with _ h; subst h; exact h'
  | some er =>
    obtain ⟨⟨pr, m⟩, rest⟩ := er
    rw [hp] at h
    simp only at h
    rw [toList_dirs, Out.ok_bind] at h
    obtain ⟨s1, -, h4⟩ := Out.bind_eq_ok.1 h
    injection h4 with h4
    injection h4 with h4 _
    cases h4

-- a traversal of a grid of one position ends at once, others later
example : ∃ st st', BfIter.new SetImpl.hash true (aroundWalls (PosTy.pos 1 0) []) (0, 0) = .ok st ∧
    BfIter.next SetImpl.hash true (aroundWalls (PosTy.pos 1 0) []) st = .ok (some [((1, 0), .W)], st') ∧
    ∃ st'', BfIter.next SetImpl.hash true (aroundWalls (PosTy.pos 1 0) []) st' = .ok (none, st'') := ⟨_, _, rfl, rfl, _, rfl⟩

/-! ## C90 -/

theorem isPath_split {go : GoFn} {D : Bool} {p q : P2} {as bs : List Dir} (h : IsPath go D p (as ++ bs) q) :
    ∃ r, IsPath go D p as r ∧ IsPath go D r bs q := by
  obtain ⟨h1, h2⟩ := h
  rw [follow_append] at h2
  cases h3 : follow go p as with
  | none => rw [h3] at h2; cases h2
  | some r =>
    rw [h3] at h2
    exact ⟨r, ⟨fun d hd => h1 d (by simp [hd]), h3⟩, fun d hd => h1 d (by simp [hd]), h2⟩

/-- C90. Every prefix of the path of a breadth-first search is a shortest path to the position that it leads to. -/
theorem C90_bfs_prefix [Target] (T : PosTy) (hT : T.Searchable) (bfs) (hbfs : Bf.IsSearch T bfs) (D : Bool) (go : Int × Int → Dir → Option (Int × Int))
    (hgo : Adjacent T go) (orig : Int × Int) (ho : InGrid T orig) (found : Int × Int → Bool) (fuel : Nat) (dest : Int × Int) (as bs : List Dir) (h : bfs D go orig found fuel = .ok (.ok (dest, as ++ bs))) :
    ∃ q, follow go orig as = some q ∧ IsDist go D orig q as.length ∧ IsDist go D q dest bs.length := by
  obtain ⟨-, h1⟩ := C51_valid_path T hT bfs hbfs D go hgo orig ho found fuel dest _ h
  obtain ⟨⟨-, h2⟩, -⟩ := C52_shortest T hT bfs hbfs D go hgo orig ho found fuel dest _ h
  obtain ⟨q, h3, h4⟩ := isPath_split h1
  refine ⟨q, h3.2, ⟨⟨as, h3, rfl⟩, fun ds hds => ?_⟩, ⟨bs, h4, rfl⟩, fun ds hds => ?_⟩
  · have := h2 _ (isPath_append hds h4)
    simp only [List.length_append] at this
    omega
  · have := h2 _ (isPath_append h3 hds)
    simp only [List.length_append] at this
    omega

example : Bf.pathHash (PosTy.pos 2 1) false (aroundWalls (PosTy.pos 2 1) [(1, 0)]) (0, 0) (fun p => p == (2, 0)) 10 =
    .ok (.ok ((2, 0), [.S, .E] ++ [.E, .N])) := by decide +kernel

/-! ## C91 -/

/-- C91. The path of a breadth-first search does not visit a position twice: different prefixes lead to different positions. -/
theorem C91_bfs_simple [Target] (T : PosTy) (hT : T.Searchable) (bfs) (hbfs : Bf.IsSearch T bfs) (D : Bool) (go : Int × Int → Dir → Option (Int × Int))
    (hgo : Adjacent T go) (orig : Int × Int) (ho : InGrid T orig) (found : Int × Int → Bool) (fuel : Nat) (dest : Int × Int) (path : List Dir) (h : bfs D go orig found fuel = .ok (.ok (dest, path)))
    (i j : Nat) (hi : i ≤ path.length) (hj : j ≤ path.length) (heq : follow go orig (path.take i) = follow go orig (path.take j)) : i = j := by
  obtain ⟨q, h1, h2, -⟩ := C90_bfs_prefix T hT bfs hbfs D go hgo orig ho found fuel dest (path.take i) (path.drop i)
    (by rw [List.take_append_drop]; exact h)
  obtain ⟨r, h3, h4, -⟩ := C90_bfs_prefix T hT bfs hbfs D go hgo orig ho found fuel dest (path.take j) (path.drop j)
    (by rw [List.take_append_drop]; exact h)
  rw [h1, h3] at heq
  injection heq with heq
  subst heq
  have := isDist_unique h2 h4
  simp only [List.length_take] at this
  omega

/-- C91. The path of A* does not visit a position twice. -/
theorem C91_astar_simple [Target] (T : PosTy) (hT : T.Searchable) (astar) (hastar : Astar.IsSearch T astar) (D : Bool)
    (go : Int × Int → Dir → Option (Int × Int)) (hgo : Adjacent T go) (orig dest : Int × Int) (ho : InGrid T orig) (hd : InGrid T dest) (fuel : Nat) (path : List Dir) (h : astar D go orig dest fuel = .ok (.ok path))
    (i j : Nat) (hi : i ≤ path.length) (hj : j ≤ path.length) (heq : follow go orig (path.take i) = follow go orig (path.take j)) : i = j := by
  obtain ⟨fuel, hfuel, h⟩ := hastar.more (Astar.steps T) h
  rw [hastar.eq hT hgo.staysIn ho hd] at h
  obtain ⟨r, h1, h2⟩ := Astar.searchPath_general hT D hgo.staysIn ho hd fuel (Astar.steps_nat hT.toIsGrid hfuel).1
  rw [Astar.searchPath_of_mapmov h1] at h
  cases r with
  | error e => cases h
  | ok f =>
    obtain ⟨K, s, H, hK⟩ := h2
    have hG := unit_inGrid (D := D) hgo.staysIn ho
    have hadj := unit_adjacent hgo
    have ha := camefrom_arrives hT.wf hd h
    have := ha.simple (go := go) (H.back_step hadj hG) (fun q path hq hk => by
      have := H.arrives_path hadj hG hq hk
      rw [dropCost_unitCost] at this
      exact this.2) hK _ _ _ _ (List.take_append_drop i path).symm (List.take_append_drop j path).symm heq
    have := congrArg List.length this
    simp only [List.length_take] at this
    omega

/-- C91. The path of the uniform-cost search does not visit a position twice, whatever the costs. -/
theorem C91_ucs_simple [Target] (T : PosTy) (hT : T.Searchable) (ucs) (hucs : Ucs.IsSearch T ucs) (D : Bool)
    (go : Int × Int → Dir → Option ((Int × Int) × Int)) (hgo : Adjacent T (dropCost go)) (orig dest : Int × Int)
    (ho : InGrid T orig) (hd : InGrid T dest) (fuel : Nat) (path : List Dir)
    (h : ucs D go orig dest fuel = .ok (.ok path)) (i j : Nat) (hi : i ≤ path.length) (hj : j ≤ path.length)
    (heq : follow (dropCost go) orig (path.take i) = follow (dropCost go) orig (path.take j)) : i = j := by
  rw [hucs.eq hT hgo.staysIn ho hd] at h
  obtain ⟨g, h1, h2⟩ := Ucs.searchPath_linked hT.wf hgo ho hd fuel h
  have := h2.simple (K := fun _ => True) (go := dropCost go) (fun _ _ _ _ _ => trivial) (fun q path hq _ => (Linked.isPath h1 hq).2) trivial
    _ _ _ _ (List.take_append_drop i path).symm (List.take_append_drop j path).symm heq
  have := congrArg List.length this
  simp only [List.length_take] at this
  omega

/-! ## C89 -/

/-- C89. Without diagonals, every position `q` on the path of A* is within the ellipse of the distance: its distance from the origin plus its Manhattan distance to
the destination is at most the distance of the destination. -/
theorem C89_astar_within [Target] (T : PosTy) (hT : T.Searchable) (astar) (hastar : Astar.IsSearch T astar)
    (go : Int × Int → Dir → Option (Int × Int)) (hgo : Adjacent T go) (orig dest : Int × Int) (ho : InGrid T orig) (hd : InGrid T dest) (fuel : Nat) (as bs : List Dir) (h : astar false go orig dest fuel = .ok (.ok (as ++ bs))) :
    ∃ q k n, follow go orig as = some q ∧ IsDist go false orig q k ∧ IsDist go false orig dest n ∧ (k : Int) + l1 q dest ≤ n := by
  obtain ⟨fuel, hfuel, h⟩ := hastar.more (Astar.steps T) h
  rw [hastar.eq hT hgo.staysIn ho hd] at h
  have hG := unit_inGrid (D := false) hgo.staysIn ho
  have hcons := astar_consistent hgo ho dest
  have hadj := unit_adjacent hgo
  obtain ⟨r, h1, h2⟩ := BSt.search_init (L := allPositions T true) (INF := usizeMax) usizeMax_pos (unitCost_nonneg go) hcons (dest := dest)
    (fun ds q n h => PosTy.mem_allPositions.2 (hG ds q n h)) (by rw [PosTy.allPositions_length]; exact (Astar.steps_nat hT.toIsGrid hfuel).2) (fun _ => none)
  rw [← Astar.searchMapmov_eq hT hgo.staysIn ho hd false fuel] at h1
  rw [Astar.searchPath_of_mapmov h1] at h
  cases r with
  | error e => cases h
  | ok f =>
    obtain ⟨t, n, F, s, H, hK, hF⟩ := h2
    have ha := camefrom_arrives hT.wf hd h
    obtain ⟨q, hq, hqa⟩ := ha.pre (K := fun q => 1 ≤ t q) (H.g.back_step hadj hG) hK as bs rfl
    have hp := H.g.arrives_path hadj hG hqa hq
    rw [dropCost_unitCost] at hp
    obtain ⟨k, hk1, hk2⟩ := isMinCost_unit.1 (H.isMinCost hq)
    obtain ⟨m, hm1, hm2⟩ := isMinCost_unit.1 (H.isMinCost hK)
    refine ⟨q, k, m, hp.2, hk2, hm2, ?_⟩
    have := H.le_F q hq
    have h0 : l1 dest dest = 0 := by simp [l1]
    simp only at this hF
    omega

/-- C89. Every position on the path of the uniform-cost search can be reached at most as expensively as the destination. -/
theorem C89_ucs_within [Target] (T : PosTy) (hT : T.Searchable) (ucs) (hucs : Ucs.IsSearch T ucs) (D : Bool)
    (go : Int × Int → Dir → Option ((Int × Int) × Int)) (hgo : Adjacent T (dropCost go)) (hc : UsizeCosts go) (orig dest : Int × Int)
    (hov : Target.checks = true ∨ NoOverflow go D orig) (ho : InGrid T orig) (hd : InGrid T dest) (fuel : Nat) (as bs : List Dir)
    (h : ucs D go orig dest fuel = .ok (.ok (as ++ bs))) :
    ∃ q k n, follow (dropCost go) orig as = some q ∧ IsMinCost go D orig q k ∧ IsMinCost go D orig dest n ∧ k ≤ n := by
  obtain ⟨fuel, hfuel, h⟩ := hucs.more (Ucs.steps T) h
  rw [hucs.eq hT hgo.staysIn ho hd] at h
  have hG := cost_inGrid (D := D) hgo.staysIn ho
  rcases hov.elim (fun hck => Ucs.searchMapmov_cases (D := D) (orig := orig) hck hc.nonNeg dest fuel)
    (fun hno => .inr (Ucs.searchMapmov_eq hc.nonNeg hno dest fuel)) with hpan | heq'
  · rw [Ucs.searchPath_panic hpan] at h; cases h
  obtain ⟨r, h1, h2⟩ := BSt.search_init (L := allPositions T true) (INF := usizeMax) (dest := dest) usizeMax_pos hc.nonNeg (consistent_zero hc.nonNeg)
    (fun ds q n h => PosTy.mem_allPositions.2 (hG ds q n h)) (by rw [PosTy.allPositions_length]; exact Ucs.steps_nat hT.toIsGrid hfuel) (fun _ => none)
  rw [← heq'] at h1
  rw [Ucs.searchPath_of_mapmov h1] at h
  cases r with
  | error e => cases h
  | ok f =>
    obtain ⟨t, n, F, s, H, hK, hF⟩ := h2
    have ha := camefrom_arrives hT.wf hd h
    obtain ⟨q, hq, hqa⟩ := ha.pre (K := fun q => 1 ≤ t q) (H.g.back_step hgo hG) hK as bs rfl
    have hp := H.g.arrives_path hgo hG hqa hq
    refine ⟨q, _, _, hp.2, H.isMinCost hq, H.isMinCost hK, ?_⟩
    have := H.le_F q hq
    simp only at this hF
    omega

-- a detour around a wall
example : Astar.pathHash (PosTy.pos 2 1) false (aroundWalls (PosTy.pos 2 1) [(1, 0)]) (0, 0) (2, 0) 200 = .ok (.ok ([.S, .E] ++ [.E, .N])) := by
  decide +kernel
example : Ucs.pathHash (PosTy.pos 2 2) false (stepCosts (PosTy.pos 2 2) [(1, 0)] swamp) (0, 0) (2, 0) 74 = .ok (.ok ([.S] ++ [.E, .E, .N])) := by
  decide +kernel

/-! ## C87 -/

/-- The outcomes of a breadth-first search for one position. -/
theorem Bf.to_cases [Target] {T : PosTy} (hT : T.Searchable) {bfs} (hbfs : Bf.IsSearch T bfs) {D : Bool} {go : GoFn} (hgo : Adjacent T go) {orig dest : P2}
    (ho : InGrid T orig) (hne : dest ≠ orig) {fuel : Nat} (hfuel : cols T * rows T < (fuel : Int)) :
    (¬ Reachable go D orig dest ∧ bfs D go orig (fun p => p == dest) fuel = .ok (.error .destinationUnreachable)) ∨
    (∃ n, IsDist go D orig dest n ∧ (n : Int) ≤ cols T * cols T ∧ ∃ path, bfs D go orig (fun p => p == dest) fuel = .ok (.ok (dest, path)) ∧ path.length = n) ∨
    (∃ n, IsDist go D orig dest n ∧ cols T * cols T < (n : Int) ∧ bfs D go orig (fun p => p == dest) fuel = .ok (.error .loop)) := by
  obtain ⟨h1, h2⟩ := C53_exact T hT bfs hbfs D go hgo orig ho (fun p => p == dest) fuel hfuel
  by_cases hr : Reachable go D orig dest
  · obtain ⟨n, hn⟩ := reachable_iff_isDist.1 hr
    obtain ⟨h3, h4⟩ := h2 dest n (by simp) hne hn (fun q' m hq' _ hm => by
      have : q' = dest := by simpa using hq'
      subst this
      exact Nat.le_of_eq (isDist_unique hn hm))
    by_cases hle : (n : Int) ≤ cols T * cols T
    · obtain ⟨d', path, h5⟩ := h3 hle
      have h6 := (C51_valid_path T hT bfs hbfs D go hgo orig ho _ fuel _ _ h5).1
      have : d' = dest := by simpa using h6
      subst this
      have h7 := (C52_shortest T hT bfs hbfs D go hgo orig ho _ fuel _ _ h5).1
      exact .inr (.inl ⟨n, hn, hle, path, h5, isDist_unique h7 hn⟩)
    · exact .inr (.inr ⟨n, hn, by omega, h4 (by omega)⟩)
  · refine .inl ⟨hr, h1 fun q hq _ => ?_⟩
    have : q = dest := by simpa using hq
    exact this ▸ hr

/-- `go'` allows at least the movements of `go`. -/
def Spec.Extends (go' go : Int × Int → Dir → Option (Int × Int)) : Prop := ∀ p d q, go p d = some q → go' p d = some q

theorem Spec.Extends.path {go go' : GoFn} (h : Extends go' go) {D D' : Bool} (hD : D = true → D' = true) {ds : List Dir} {p q : P2}
    (hp : IsPath go D p ds q) : IsPath go' D' p ds q := by
  refine ⟨fun d hd => ?_, ?_⟩
  · rcases hp.1 d hd with h1 | h1
    · exact .inl (hD h1)
    · exact .inr h1
  · have := hp.2
    clear hp
    induction ds generalizing p with
    | nil => exact this
    | cons d ds ih =>
      simp only [follow] at this ⊢
      cases hg : go p d with
      | none => rw [hg] at this; cases this
      | some r =>
        rw [hg] at this
        rw [h p d r hg]
        exact ih this

/-- C87. More movements, and diagonals, never make a breadth-first search fail or its path longer. -/
theorem C87_bfs_monotone [Target] (T : PosTy) (hT : T.Searchable) (bfs) (hbfs : Bf.IsSearch T bfs) (D D' : Bool) (hD : D = true → D' = true)
    (go go' : Int × Int → Dir → Option (Int × Int)) (hgo : Adjacent T go) (hgo' : Adjacent T go') (hext : Extends go' go) (orig : Int × Int)
    (ho : InGrid T orig) (found : Int × Int → Bool) (fuel : Nat) (hfuel : cols T * rows T < (fuel : Int)) (dest : Int × Int) (path : List Dir)
    (h : bfs D go orig found fuel = .ok (.ok (dest, path))) :
    ∃ dest' path', bfs D' go' orig found fuel = .ok (.ok (dest', path')) ∧ path'.length ≤ path.length := by
  have h' := h
  rw [hbfs.eq hT hgo.staysIn ho] at h
  have hcells := hT.cells_eq
  rcases Bf.searchPath_spec hT D found hgo ho fuel (by omega) with
    ⟨-, h2⟩ | ⟨dest0, n, h1, h2, h3, ⟨h4, path0, h5, h6, h7⟩ | ⟨-, h7⟩⟩
  · rw [h2] at h; cases h
  · rw [h7] at h
    injection h with h
    injection h with h
    injection h with e1 e2
    subst e1 e2
    rw [hbfs.eq hT hgo'.staysIn ho]
    have hpath := hext.path hD h5
    obtain ⟨m, hm⟩ := reachable_iff_isDist.1 (⟨path0, hpath⟩ : Reachable go' D' orig dest0)
    have hmle := hm.2 _ hpath
    have hm0 : m ≠ 0 := by
      intro hm0
      subst hm0
      rw [isDist_zero] at hm
      subst hm
      have := isDist_unique h2 (isDist_zero.2 rfl)
      omega
    obtain ⟨m, rfl⟩ : ∃ k, m = k + 1 := ⟨m - 1, by omega⟩
    rcases Bf.searchPath_spec hT D' found hgo' ho fuel (by omega) with
      ⟨g1, g2⟩ | ⟨dest1, k, g1, g2, g3, ⟨g4, path1, g5, g6, g7⟩ | ⟨g4, g7⟩⟩
    · have := g1 m dest0 hm
      rw [h1] at this
      cases this
    · refine ⟨dest1, path1, g7, ?_⟩
      have : k ≤ m := by
        by_contra hlt
        have := g3 m dest0 (by omega) hm
        rw [h1] at this
        cases this
      omega
    · exfalso
      have : k ≤ m := by
        by_contra hlt
        have := g3 m dest0 (by omega) hm
        rw [h1] at this
        cases this
      omega
  · rw [h7] at h; cases h

/-- C87. The same for the uniform-cost search with unit costs. -/
theorem C87_ucs_unit_monotone [Target] (T : PosTy) (hT : T.Searchable) (ucs) (hucs : Ucs.IsSearch T ucs) (D D' : Bool) (hD : D = true → D' = true)
    (go go' : Int × Int → Dir → Option (Int × Int)) (hgo : Adjacent T go) (hgo' : Adjacent T go') (hext : Extends go' go) (orig dest : Int × Int)
    (ho : InGrid T orig) (hd : InGrid T dest) (fuel : Nat) (hfuel : Ucs.steps T < (fuel : Int)) (path : List Dir)
    (h : ucs D (unitCost go) orig dest fuel = .ok (.ok path)) :
    ∃ path', ucs D' (unitCost go') orig dest fuel = .ok (.ok path') ∧ path'.length ≤ path.length := by
  have h1 := C61_valid_path T hT ucs hucs D _ (unitCost_adjacent hgo) orig dest ho hd fuel path h
  rw [dropCost_unitCost] at h1
  obtain ⟨n, hn⟩ := reachable_iff_isDist.1 ⟨path, h1⟩
  obtain ⟨h2, h3⟩ := C62_unit_exact T hT ucs hucs D go hgo orig dest ho hd fuel hfuel n hn
  have hle : (n : Int) ≤ cols T * cols T := by
    by_contra hlt
    rw [h3 (by omega)] at h
    cases h
  have hpath := hext.path hD h1
  obtain ⟨m, hm⟩ := reachable_iff_isDist.1 (⟨path, hpath⟩ : Reachable go' D' orig dest)
  obtain ⟨path0, h4, h5⟩ := h2 hle
  rw [h4] at h
  injection h with h
  injection h with h
  subst h
  have hmle := hm.2 _ hpath
  obtain ⟨path1, g1, g2⟩ := (C62_unit_exact T hT ucs hucs D' go' hgo' orig dest ho hd fuel hfuel m hm).1 (by omega)
  exact ⟨path1, g1, by omega⟩

example : Extends (aroundWalls (PosTy.pos 2 2) []) (aroundWalls (PosTy.pos 2 2) [(1, 1)]) := by
  intro p d q h
  unfold aroundWalls at h ⊢
  split at h
  · rename_i h'
    rw [if_pos ⟨h'.1, by simp⟩]
    exact h
  · cases h

/-! ## C85 -/

/-- Every movement from a position that can be reached from `a` can be undone. -/
def Spec.Undoable (go : Int × Int → Dir → Option (Int × Int)) (D : Bool) (a : Int × Int) : Prop :=
  ∀ p d q, Reachable go D a p → Allowed D d → go p d = some q → go q (opposite d) = some p

/-- The way back. -/
theorem Spec.Undoable.back {go : GoFn} {D : Bool} {a b : P2} (h : Undoable go D a) {ds : List Dir} (hds : IsPath go D a ds b) :
    IsPath go D b ((ds.map opposite).reverse) a := by
  induction ds using List.reverseRecOn generalizing b with
  | nil =>
    have := hds.2
    injection this with e
    subst e
    exact isPath_nil
  | append_singleton ds d ih =>
    obtain ⟨r, h1, h2, h3⟩ := isPath_concat hds
    have h4 := h r d b ⟨ds, h1⟩ h2 h3
    simp only [List.map_append, List.map_cons, List.map_nil, List.reverse_append, List.reverse_cons, List.reverse_nil, List.nil_append]
    exact isPath_append (isPath_single (allowed_opposite.2 h2) h4) (ih h1)

theorem Spec.Undoable.dist {go : GoFn} {D : Bool} {a b : P2} (ha : Undoable go D a) (hb : Undoable go D b) {n : Nat} (h : IsDist go D a b n) :
    IsDist go D b a n := by
  obtain ⟨⟨ds, h1, h2⟩, h3⟩ := h
  refine ⟨⟨_, ha.back h1, by simpa using h2⟩, fun ds' hds' => ?_⟩
  have := h3 _ (hb.back hds')
  simpa using this

/-- C85. If movements can be undone, the breadth-first searches from `a` to `b` and from `b` to `a` give paths of the same length, or the same error. -/
theorem C85_bfs_reverse [Target] (T : PosTy) (hT : T.Searchable) (bfs) (hbfs : Bf.IsSearch T bfs) (D : Bool) (go : Int × Int → Dir → Option (Int × Int))
    (hgo : Adjacent T go) (a b : Int × Int) (hA : InGrid T a) (hB : InGrid T b) (ha : Undoable go D a) (hb : Undoable go D b) (fuel : Nat)
    (hfuel : cols T * rows T < (fuel : Int)) :
    (∀ n : Nat, (∃ path, bfs D go a (fun p => p == b) fuel = .ok (.ok (b, path)) ∧ path.length = n) ↔
      ∃ path, bfs D go b (fun p => p == a) fuel = .ok (.ok (a, path)) ∧ path.length = n) ∧
    ∀ e, bfs D go a (fun p => p == b) fuel = .ok (.error e) ↔ bfs D go b (fun p => p == a) fuel = .ok (.error e) := by
  by_cases hne : b = a
  · subst hne; exact ⟨fun n => Iff.rfl, fun e => Iff.rfl⟩
  rcases Bf.to_cases hT hbfs (D := D) hgo hA hne hfuel with ⟨h1, h2⟩ | ⟨n, h1, h2, path, h3, h4⟩ | ⟨n, h1, h2, h3⟩ <;>
    rcases Bf.to_cases hT hbfs (D := D) hgo hB (Ne.symm hne) hfuel with ⟨g1, g2⟩ | ⟨m, g1, g2, path', g3, g4⟩ | ⟨m, g1, g2, g3⟩
  · rw [h2, g2]
    refine ⟨fun n => ⟨?_, ?_⟩, fun e => Iff.rfl⟩ <;> rintro ⟨path, h, -⟩ <;> cases h
  · exact absurd (reachable_iff_isDist.2 ⟨_, hb.dist ha g1⟩) h1
  · exact absurd (reachable_iff_isDist.2 ⟨_, hb.dist ha g1⟩) h1
  · exact absurd (reachable_iff_isDist.2 ⟨_, ha.dist hb h1⟩) g1
  · have e := isDist_unique g1 (ha.dist hb h1)
    subst e
    rw [h3, g3]
    refine ⟨fun k => ⟨?_, ?_⟩, fun e => ⟨(fun h => by cases h), (fun h => by cases h)⟩⟩
    · rintro ⟨p, h, h'⟩
      injection h with h
      injection h with h
      injection h with _ h
      subst h
      exact ⟨path', rfl, by omega⟩
    · rintro ⟨p, h, h'⟩
      injection h with h
      injection h with h
      injection h with _ h
      subst h
      exact ⟨path, rfl, by omega⟩
  · have e := isDist_unique g1 (ha.dist hb h1)
    omega
  · exact absurd (reachable_iff_isDist.2 ⟨_, ha.dist hb h1⟩) g1
  · have e := isDist_unique g1 (ha.dist hb h1)
    omega
  · rw [h3, g3]
    refine ⟨fun n => ⟨?_, ?_⟩, fun e => Iff.rfl⟩ <;> rintro ⟨path, h, -⟩ <;> cases h

/-- The outcomes of a uniform-cost search with unit costs. -/
theorem Ucs.unit_cases [Target] {T : PosTy} (hT : T.Searchable) {ucs} (hucs : Ucs.IsSearch T ucs) {D : Bool} {go : GoFn} (hgo : Adjacent T go) {orig dest : P2}
    (ho : InGrid T orig) (hd : InGrid T dest) {fuel : Nat} (hfuel : Ucs.steps T < (fuel : Int)) :
    (¬ Reachable go D orig dest ∧ ucs D (unitCost go) orig dest fuel = .ok (.error .destinationUnreachable)) ∨
    (∃ n, IsDist go D orig dest n ∧ (n : Int) ≤ cols T * cols T ∧ ∃ path, ucs D (unitCost go) orig dest fuel = .ok (.ok path) ∧ path.length = n) ∨
    (∃ n, IsDist go D orig dest n ∧ cols T * cols T < (n : Int) ∧ ucs D (unitCost go) orig dest fuel = .ok (.error .loop)) := by
  by_cases hr : Reachable go D orig dest
  · obtain ⟨n, hn⟩ := reachable_iff_isDist.1 hr
    obtain ⟨h3, h4⟩ := C62_unit_exact T hT ucs hucs D go hgo orig dest ho hd fuel hfuel n hn
    by_cases hle : (n : Int) ≤ cols T * cols T
    · exact .inr (.inl ⟨n, hn, hle, h3 hle⟩)
    · exact .inr (.inr ⟨n, hn, by omega, h4 (by omega)⟩)
  · refine .inl ⟨hr, ?_⟩
    obtain ⟨h1, -⟩ := C62_unreachable_partial T hT ucs hucs D _ (unitCost_adjacent hgo) (unitCost_usize go) orig dest ho hd
      (unitCost_below (D := D) hT hgo ho) fuel hfuel
    rw [dropCost_unitCost] at h1
    exact h1.2 hr

/-- C85. The same for the uniform-cost search with unit costs. -/
theorem C85_ucs_unit_reverse [Target] (T : PosTy) (hT : T.Searchable) (ucs) (hucs : Ucs.IsSearch T ucs) (D : Bool) (go : Int × Int → Dir → Option (Int × Int))
    (hgo : Adjacent T go) (a b : Int × Int) (hA : InGrid T a) (hB : InGrid T b) (ha : Undoable go D a) (hb : Undoable go D b) (fuel : Nat)
    (hfuel : Ucs.steps T < (fuel : Int)) :
    (∀ n : Nat, (∃ path, ucs D (unitCost go) a b fuel = .ok (.ok path) ∧ path.length = n) ↔
      ∃ path, ucs D (unitCost go) b a fuel = .ok (.ok path) ∧ path.length = n) ∧
    ∀ e, ucs D (unitCost go) a b fuel = .ok (.error e) ↔ ucs D (unitCost go) b a fuel = .ok (.error e) := by
  rcases Ucs.unit_cases hT hucs (D := D) hgo hA hB hfuel with ⟨h1, h2⟩ | ⟨n, h1, h2, path, h3, h4⟩ | ⟨n, h1, h2, h3⟩ <;>
    rcases Ucs.unit_cases hT hucs (D := D) hgo hB hA hfuel with ⟨g1, g2⟩ | ⟨m, g1, g2, path', g3, g4⟩ | ⟨m, g1, g2, g3⟩
  · rw [h2, g2]
    refine ⟨fun n => ⟨?_, ?_⟩, fun e => Iff.rfl⟩ <;> rintro ⟨path, h, -⟩ <;> cases h
  · exact absurd (reachable_iff_isDist.2 ⟨_, hb.dist ha g1⟩) h1
  · exact absurd (reachable_iff_isDist.2 ⟨_, hb.dist ha g1⟩) h1
  · exact absurd (reachable_iff_isDist.2 ⟨_, ha.dist hb h1⟩) g1
  · have e := isDist_unique g1 (ha.dist hb h1)
    subst e
    rw [h3, g3]
    refine ⟨fun k => ⟨?_, ?_⟩, fun e => ⟨(fun h => by cases h), (fun h => by cases h)⟩⟩
    · rintro ⟨p, h, h'⟩
      injection h with h
      injection h with h
      subst h
      exact ⟨path', rfl, by omega⟩
    · rintro ⟨p, h, h'⟩
      injection h with h
      injection h with h
      subst h
      exact ⟨path, rfl, by omega⟩
  · have e := isDist_unique g1 (ha.dist hb h1)
    omega
  · exact absurd (reachable_iff_isDist.2 ⟨_, ha.dist hb h1⟩) g1
  · have e := isDist_unique g1 (ha.dist hb h1)
    omega
  · rw [h3, g3]
    refine ⟨fun n => ⟨?_, ?_⟩, fun e => Iff.rfl⟩ <;> rintro ⟨path, h, -⟩ <;> cases h

/-- Movement around walls can be undone, from every position that is not a wall. -/
theorem aroundWalls_undoable (T : PosTy) (walls : List (Int × Int)) (D : Bool) (a : Int × Int) (hA : InGrid T a) (hw : a ∉ walls) :
    Undoable (aroundWalls T walls) D a := by
  intro p d q hp _ h
  have hp' : InGrid T p ∧ p ∉ walls := by
    refine hp.induct (P := fun p => InGrid T p ∧ p ∉ walls) ⟨hA, hw⟩ ?_
    rintro u r - - ⟨d, -, h⟩
    unfold aroundWalls at h
    split at h
    · injection h with h
      subst h
      assumption
    · cases h
  have hq := (aroundWalls_adjacent T walls p d q hp'.1 h).2
  have e : neighbour q (opposite d) = p := by
    rw [hq]
    have := neighbour_opposite' p (opposite d)
    rw [opposite_opposite] at this
    exact this
  unfold aroundWalls
  rw [e, if_pos hp']

example : Undoable (aroundWalls (PosTy.pos 2 2) [(1, 1)]) true (0, 0) := aroundWalls_undoable _ _ _ _ (by decide) (by decide)

end Sqrid
