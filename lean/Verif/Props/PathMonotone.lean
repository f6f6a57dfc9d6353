import Verif.Props.PathSource
import Verif.Spec.Descent
/-!
# How the way that a returned path has come grows from step to step: C136
-/

namespace Sqrid

-- Statements that do not mention a target are about a debug build for a 64-bit machine.
attribute [local instance] debug64

open Spec

/-- The last step of a cheapest way. -/
theorem isMinCost_pred {go : WGo} {D : Bool} {p q : P2} {n : Int} (h : IsMinCost go D p q n) (hne : q ≠ p) :
    ∃ r d w m, Allowed D d ∧ go r d = some (q, w) ∧ IsMinCost go D p r m ∧ n = m + w := by
  obtain ⟨⟨ds, hds⟩, hmin⟩ := h
  rcases List.eq_nil_or_concat ds with rfl | ⟨es, d, rfl⟩
  · obtain ⟨⟨-, h1⟩, -⟩ := hds
    simp only [follow, Option.some.injEq] at h1
    exact absurd h1.symm hne
  · rw [List.concat_eq_append] at hds
    obtain ⟨r, m, w, h1, h2, h3, h4⟩ := isCostPath_concat hds
    refine ⟨r, d, w, m, h2, h3, ⟨⟨es, h1⟩, fun ds' m' h5 => ?_⟩, h4⟩
    have := hmin _ _ (isCostPath_snoc h5 h2 h3)
    omega

/-- C136. Along a path that the uniform-cost search returns, in both modes, the positions never become cheaper to reach from the origin; and if every step costs
something, each is dearer than the one before. -/
theorem C136_ucs [Target] (T : PosTy) (hT : T.Searchable) (ucs) (hucs : Ucs.IsSearch T ucs) (D : Bool)
    (go : Int × Int → Dir → Option ((Int × Int) × Int)) (hgo : Adjacent T (dropCost go)) (hc : UsizeCosts go) (orig dest : Int × Int)
    (hov : Target.checks = true ∨ NoOverflow go D orig) (ho : InGrid T orig) (hd : InGrid T dest) (fuel : Nat)
    (as : List Dir) (d : Dir) (bs : List Dir) (h : ucs D go orig dest fuel = .ok (.ok (as ++ d :: bs))) :
    ∃ q r w j k, follow (dropCost go) orig as = some q ∧ go q d = some (r, w) ∧ IsMinCost go D orig q j ∧ IsMinCost go D orig r k ∧
      j ≤ k ∧ ((∀ p e p' v, go p e = some (p', v) → 0 < v) → j < k) := by
  have hw := hc.nonNeg
  obtain ⟨q, r, w, j, n, a1, a2, a3, a4, a5⟩ := C131_ucs T hT ucs hucs D go hgo hc orig dest hov ho hd fuel as d bs h
  obtain ⟨q', r', w', j', n', b1, b2, b3, b4, b5, -⟩ := C117_ucs_steps T hT ucs hucs D go hgo hc orig dest hov ho hd fuel as d bs h
  rw [a1] at b1
  injection b1 with b1
  subst b1
  rw [a2] at b2
  injection b2 with b2
  injection b2 with b2 b2'
  subst b2
  subst b2'
  have e1 := isMinCost_unique a3 b3
  have e2 := isMinCost_unique a4 b4
  subst e1
  subst e2
  have hstep : dropCost go q d = some r := by simp [dropCost, a2]
  have hp := C61_valid_path T hT ucs hucs D go hgo orig dest ho hd fuel _ h
  have hd' : Allowed D d := hp.1 d (by simp)
  have hr : Reachable (dropCost go) D orig r := by
    obtain ⟨⟨ds, hds⟩, -⟩ := a3
    exact ⟨_, isPath_append hds.1 (isPath_single hd' hstep)⟩
  obtain ⟨k, hk⟩ := isMinCost_exists hw hr
  refine ⟨q, r, w, j, k, a1, a2, a3, hk, ?_⟩
  have hne : r ≠ orig := by
    rintro rfl
    have hfol : follow (dropCost go) r (as ++ [d]) = some r := by
      rw [follow_append, a1]
      simp [follow, hstep]
    have := C91_ucs_simple T hT ucs hucs D go hgo r dest ho hd fuel _ h (as.length + 1) 0 (by simp) (by simp)
      (by
        rw [show as ++ d :: bs = (as ++ [d]) ++ bs by simp, List.take_left' (by simp), hfol]
        rfl)
    omega
  obtain ⟨p, e, v, m, c1, c2, c3, c4⟩ := isMinCost_pred hk hne
  have hv := hw _ _ _ _ c2
  have hw0 := hw _ _ _ _ a2
  by_cases hlt : k < n
  · have := (a5 p e v m c1 c2 c3 (by omega)).1
    exact ⟨by omega, fun hpos => by have := hpos _ _ _ _ c2; omega⟩
  · exact ⟨by omega, fun hpos => by have := hpos _ _ _ _ a2; omega⟩

/-- Steps along the axes change the color of a chessboard. -/
theorem parity_path {T : PosTy} {go : GoFn} {p : P2} (hgo : Adjacent T go) (hp : InGrid T p) {ds : List Dir} : ∀ {q : P2}, IsPath go false p ds q →
    (q.1 + q.2) % 2 = (p.1 + p.2 + ds.length) % 2 := by
  induction ds using List.reverseRecOn with
  | nil =>
    intro q h
    have := h.2
    injection this with e
    subst e
    simp
  | append_singleton ds d ih =>
    intro q h
    obtain ⟨r, h1, h2, h3⟩ := isPath_concat h
    have hr := isPath_inGrid hgo.staysIn hp h1
    obtain ⟨-, e⟩ := hgo r d q hr h3
    have := ih h1
    have hs : (q.1 + q.2) % 2 = (r.1 + r.2 + 1) % 2 := by
      rw [e]
      rcases h2 with h2 | h2
      · cases h2
      · cases d <;> simp [unit] at h2 <;> simp only [neighbour, unit] <;> omega
    simp only [List.length_append, List.length_cons, List.length_nil]
    push_cast
    omega

/-- C136. Each step of a path that A* returns without diagonals leads to a position whose distance from the origin is larger by one, or smaller by one; and
in the second case it leads away from the destination. -/
theorem C136_astar [Target] (T : PosTy) (hT : T.Searchable) (astar) (hastar : Astar.IsSearch T astar)
    (go : Int × Int → Dir → Option (Int × Int)) (hgo : Adjacent T go) (orig dest : Int × Int) (ho : InGrid T orig) (hd : InGrid T dest) (fuel : Nat)
    (as : List Dir) (d : Dir) (bs : List Dir) (h : astar false go orig dest fuel = .ok (.ok (as ++ d :: bs))) :
    ∃ q r j k, follow go orig as = some q ∧ go q d = some r ∧ IsDist go false orig q j ∧ IsDist go false orig r k ∧
      (k = j + 1 ∨ (j = k + 1 ∧ l1 r dest = l1 q dest + 1)) := by
  obtain ⟨q, r, j, n, a1, a2, a3, a4, a5⟩ := C131_astar T hT astar hastar go hgo orig dest ho hd fuel as d bs h
  obtain ⟨q', r', j', n', b1, b2, b3, b4, b5, -⟩ := C117_astar_steps T hT astar hastar go hgo orig dest ho hd fuel as d bs h
  rw [a1] at b1
  injection b1 with b1
  subst b1
  rw [a2] at b2
  injection b2 with b2
  subst b2
  have e1 := isDist_unique a3 b3
  have e2 := isDist_unique a4 b4
  subst e1
  subst e2
  have hp := C55_valid_path T hT astar hastar false go hgo orig dest ho hd fuel _ h
  have hd' : Allowed false d := hp.1 d (by simp)
  obtain ⟨ds, hds, hlen⟩ := a3.1
  have hq := isPath_inGrid hgo.staysIn ho hds
  have hr := isPath_append hds (isPath_single hd' a2)
  obtain ⟨k, hk⟩ := reachable_iff_isDist.1 ⟨_, hr⟩
  refine ⟨q, r, j, k, a1, a2, a3, hk, ?_⟩
  have hne : r ≠ orig := by
    rintro rfl
    have hfol : follow go r (as ++ [d]) = some r := by
      rw [follow_append, a1]
      simp [follow, a2]
    have := C91_astar_simple T hT astar hastar false go hgo r dest ho hd fuel _ h (as.length + 1) 0 (by simp) (by simp)
      (by
        rw [show as ++ d :: bs = (as ++ [d]) ++ bs by simp, List.take_left' (by simp), hfol]
        rfl)
    omega
  have hle : k ≤ j + 1 := isDist_le_edge a3 ⟨d, hd', a2⟩ hk
  by_cases hjk : k = j + 1
  · exact .inl hjk
  right
  obtain ⟨es, hes, hes'⟩ := hk.1
  have p1 := parity_path hgo ho hr
  have p2 := parity_path hgo ho hes
  simp only [List.length_append, List.length_cons, List.length_nil] at p1
  push_cast at p1
  cases k with
  | zero => exact absurd (isDist_zero.1 hk) hne
  | succ k =>
    obtain ⟨p, hpk, e, he, hpe⟩ := isDist_pred hk
    have hpin := isDist_inGrid hgo.staysIn ho hpk
    have c1 := (a5 p e k he hpe hpk (by push_cast; omega)).1
    have c2 := (hgo p e r hpin hpe).2
    have c3 := (hgo q d r hq a2).2
    have c4 := l1_step (p := p) (dest := dest) he
    have c5 := l1_step (p := q) (dest := dest) hd'
    have c6 : l1 r dest ≤ l1 q dest + 1 := by
      rw [c3]
      rcases hd' with hd' | hd'
      · cases hd'
      · cases d <;> simp [unit] at hd' <;> simp only [l1, neighbour, unit] <;> omega
    rw [← c2] at c4
    rw [← c3] at c5
    omega

theorem descents_telescope (m : Nat) : ∀ (k : Nat → Nat), (∀ i < m, k (i + 1) = k i + 1 ∨ k i = k (i + 1) + 1) →
    m + k 0 = k m + 2 * descents ((List.range (m + 1)).map k) := by
  induction m with
  | zero => intro k _; simp [descents]
  | succ m ih =>
    intro k h
    have h1 := ih (fun i => k (i + 1)) (fun i hi => h (i + 1) (by omega))
    have h0 := h 0 (by omega)
    have e : (List.range (m + 1 + 1)).map k = k 0 :: (List.range (m + 1)).map (fun i => k (i + 1)) := by
      rw [List.range_succ_eq_map]
      simp [Function.comp_def]
    have e' : (List.range (m + 1)).map (fun i => k (i + 1)) = k 1 :: (List.range m).map (fun i => k (i + 2)) := by
      rw [List.range_succ_eq_map]
      simp [Function.comp_def]
    rw [e, e', descents, ← e']
    simp only [Nat.zero_add] at h1 h0
    split <;> omega

/-- C136. A path that A* returns without diagonals is longer than the shortest by two steps for each of its steps that leads back to a position nearer to the
origin. -/
theorem C136_astar_length [Target] (T : PosTy) (hT : T.Searchable) (astar) (hastar : Astar.IsSearch T astar)
    (go : Int × Int → Dir → Option (Int × Int)) (hgo : Adjacent T go) (orig dest : Int × Int) (ho : InGrid T orig) (hd : InGrid T dest) (fuel : Nat)
    (path : List Dir) (h : astar false go orig dest fuel = .ok (.ok path)) (n : Nat) (hn : IsDist go false orig dest n) :
    ∃ k : Nat → Nat, (∀ i ≤ path.length, ∃ q, follow go orig (path.take i) = some q ∧ IsDist go false orig q (k i)) ∧
      path.length = n + 2 * descents ((List.range (path.length + 1)).map k) := by
  have hp := C55_valid_path T hT astar hastar false go hgo orig dest ho hd fuel _ h
  have hpre : ∀ i, ∃ k q, follow go orig (path.take i) = some q ∧ IsDist go false orig q k := by
    intro i
    have h1 := hp.2
    rw [← List.take_append_drop i path, follow_append] at h1
    cases hf : follow go orig (path.take i) with
    | none => rw [hf] at h1; cases h1
    | some q =>
      obtain ⟨k, hk⟩ := reachable_iff_isDist.1 (⟨path.take i, fun d hd => hp.1 d (List.mem_of_mem_take hd), hf⟩ : Reachable go false orig q)
      exact ⟨k, q, rfl, hk⟩
  choose k hk using hpre
  refine ⟨k, fun i _ => hk i, ?_⟩
  have hstep : ∀ i < path.length, k (i + 1) = k i + 1 ∨ k i = k (i + 1) + 1 := by
    intro i hi
    have hsplit : path = path.take i ++ path[i] :: path.drop (i + 1) := by simp
    obtain ⟨q, r, j, m, a1, a2, a3, a4, a5⟩ := C136_astar T hT astar hastar go hgo orig dest ho hd fuel (path.take i) path[i] (path.drop (i + 1))
      (by rw [← hsplit]; exact h)
    obtain ⟨q', b1, b2⟩ := hk i
    obtain ⟨r', c1, c2⟩ := hk (i + 1)
    rw [a1] at b1
    injection b1 with b1
    subst b1
    rw [List.take_succ_eq_append_getElem hi, follow_append, a1] at c1
    simp only [Option.bind_some, follow, a2, Option.some.injEq] at c1
    subst c1
    have e1 := isDist_unique a3 b2
    have e2 := isDist_unique a4 c2
    omega
  have h0 : k 0 = 0 := by
    obtain ⟨q, b1, b2⟩ := hk 0
    simp only [List.take_zero, follow, Option.some.injEq] at b1
    subst b1
    exact isDist_unique b2 (isDist_zero.2 rfl)
  have hl : k path.length = n := by
    obtain ⟨q, b1, b2⟩ := hk path.length
    rw [List.take_length, hp.2] at b1
    injection b1 with b1
    subst b1
    exact isDist_unique b2 hn
  have := descents_telescope path.length k hstep
  omega

/-- C136. Along a path that A* returns without diagonals, the distance from the origin and the Manhattan distance to the destination, added up, never decrease: each step
leaves the sum as it is or raises it by two. -/
theorem C136_astar_sum [Target] (T : PosTy) (hT : T.Searchable) (astar) (hastar : Astar.IsSearch T astar)
    (go : Int × Int → Dir → Option (Int × Int)) (hgo : Adjacent T go) (orig dest : Int × Int) (ho : InGrid T orig) (hd : InGrid T dest) (fuel : Nat)
    (as : List Dir) (d : Dir) (bs : List Dir) (h : astar false go orig dest fuel = .ok (.ok (as ++ d :: bs))) :
    ∃ q r j k, follow go orig as = some q ∧ go q d = some r ∧ IsDist go false orig q j ∧ IsDist go false orig r k ∧
      ((k : Int) + l1 r dest = j + l1 q dest ∨ (k : Int) + l1 r dest = j + l1 q dest + 2) := by
  obtain ⟨q, r, j, k, a1, a2, a3, a4, a5⟩ := C136_astar T hT astar hastar go hgo orig dest ho hd fuel as d bs h
  refine ⟨q, r, j, k, a1, a2, a3, a4, ?_⟩
  have hd' : Allowed false d := (C55_valid_path T hT astar hastar false go hgo orig dest ho hd fuel _ h).1 d (by simp)
  have c1 := (hgo q d r (isDist_inGrid hgo.staysIn ho a3) a2).2
  have c2 : l1 r dest = l1 q dest + 1 ∨ l1 r dest = l1 q dest - 1 := by
    rw [c1]
    rcases hd' with hd' | hd'
    · cases hd'
    · cases d <;> simp [unit] at hd' <;> simp only [l1, neighbour, unit] <;> omega
  omega

theorem ascents_telescope (m : Nat) : ∀ (g : Nat → Nat), (∀ i < m, g (i + 1) = g i ∨ g (i + 1) = g i + 2) →
    g m = g 0 + 2 * ascents ((List.range (m + 1)).map g) := by
  induction m with
  | zero => intro k _; simp [ascents]
  | succ m ih =>
    intro k h
    have h1 := ih (fun i => k (i + 1)) (fun i hi => h (i + 1) (by omega))
    have h0 := h 0 (by omega)
    have e : (List.range (m + 1 + 1)).map k = k 0 :: (List.range (m + 1)).map (fun i => k (i + 1)) := by
      rw [List.range_succ_eq_map]
      simp [Function.comp_def]
    have e' : (List.range (m + 1)).map (fun i => k (i + 1)) = k 1 :: (List.range m).map (fun i => k (i + 2)) := by
      rw [List.range_succ_eq_map]
      simp [Function.comp_def]
    rw [e, e', ascents, ← e']
    simp only [Nat.zero_add] at h1 h0
    split <;> omega

/-- C136. And the number of steps that raise the sum is the same for all such paths: half of what the shortest path is longer than the Manhattan distance. -/
theorem C136_astar_rises [Target] (T : PosTy) (hT : T.Searchable) (astar) (hastar : Astar.IsSearch T astar)
    (go : Int × Int → Dir → Option (Int × Int)) (hgo : Adjacent T go) (orig dest : Int × Int) (ho : InGrid T orig) (hd : InGrid T dest) (fuel : Nat)
    (path : List Dir) (h : astar false go orig dest fuel = .ok (.ok path)) (n : Nat) (hn : IsDist go false orig dest n) :
    ∃ g : Nat → Nat, (∀ i ≤ path.length, ∃ q k, follow go orig (path.take i) = some q ∧ IsDist go false orig q k ∧ (g i : Int) = k + l1 q dest) ∧
      (n : Int) = l1 orig dest + 2 * ascents ((List.range (path.length + 1)).map g) := by
  obtain ⟨k, hk, -⟩ := C136_astar_length T hT astar hastar go hgo orig dest ho hd fuel path h n hn
  have hp := C55_valid_path T hT astar hastar false go hgo orig dest ho hd fuel _ h
  have hg : ∀ i, ∃ g : Nat, i ≤ path.length → ∃ q, follow go orig (path.take i) = some q ∧ IsDist go false orig q (k i) ∧ (g : Int) = k i + l1 q dest := by
    intro i
    by_cases hi : i ≤ path.length
    · obtain ⟨q, h1, h2⟩ := hk i hi
      have h0 : 0 ≤ l1 q dest := by unfold l1; omega
      exact ⟨k i + (l1 q dest).toNat, fun _ => ⟨q, h1, h2, by omega⟩⟩
    · exact ⟨0, fun h => absurd h hi⟩
  choose g hg using hg
  refine ⟨g, fun i hi => ?_, ?_⟩
  · obtain ⟨q, h1, h2, h3⟩ := hg i hi
    exact ⟨q, _, h1, h2, h3⟩
  have hstep : ∀ i < path.length, g (i + 1) = g i ∨ g (i + 1) = g i + 2 := by
    intro i hi
    have hsplit : path = path.take i ++ path[i] :: path.drop (i + 1) := by simp
    obtain ⟨q, r, j, m, a1, a2, a3, a4, a5⟩ := C136_astar_sum T hT astar hastar go hgo orig dest ho hd fuel (path.take i) path[i] (path.drop (i + 1))
      (by rw [← hsplit]; exact h)
    obtain ⟨q', b1, b2, b3⟩ := hg i (by omega)
    obtain ⟨r', c1, c2, c3⟩ := hg (i + 1) (by omega)
    rw [a1] at b1
    injection b1 with b1
    subst b1
    rw [List.take_succ_eq_append_getElem hi, follow_append, a1] at c1
    simp only [Option.bind_some, follow, a2, Option.some.injEq] at c1
    subst c1
    have e1 := isDist_unique a3 b2
    have e2 := isDist_unique a4 c2
    subst e1 e2
    omega
  have h0 : (g 0 : Int) = l1 orig dest := by
    obtain ⟨q, b1, b2, b3⟩ := hg 0 (by omega)
    simp only [List.take_zero, follow, Option.some.injEq] at b1
    subst b1
    have := isDist_unique b2 (isDist_zero.2 rfl)
    omega
  have hl : g path.length = n := by
    obtain ⟨q, b1, b2, b3⟩ := hg path.length (Nat.le_refl _)
    rw [List.take_length, hp.2] at b1
    injection b1 with b1
    subst b1
    have e := isDist_unique b2 hn
    have z : l1 dest dest = 0 := by simp [l1]
    omega
  have := ascents_telescope path.length g hstep
  omega

-- the path of `C58_refuted_straight`, two steps longer than the shortest: the step from (2, 2) to (2, 1) leads back, from distance 4 to distance 3
example : Astar.pathHash (PosTy.pos 4 3) false (aroundWalls (PosTy.pos 4 3) [(2, 3), (1, 0), (1, 2), (3, 1)]) (4, 0) (1, 3) 1000 =
      .ok (.ok ([.S, .S, .W, .W] ++ .N :: [.W, .W, .S, .S, .E])) ∧
    follow (aroundWalls (PosTy.pos 4 3) [(2, 3), (1, 0), (1, 2), (3, 1)]) (4, 0) [.S, .S, .W, .W] = some (2, 2) ∧
    follow (aroundWalls (PosTy.pos 4 3) [(2, 3), (1, 0), (1, 2), (3, 1)]) (4, 0) [.W, .W, .S] = some (2, 1) ∧
    l1 (2, 1) (1, 3) = l1 (2, 2) (1, 3) + 1 ∧ descents [0, 1, 2, 3, 4, 3, 4, 5, 6, 7, 8] = 1 := by decide +kernel
-- the sum of the two distances rises once, from (1, 1) to (0, 1); the shortest path, of 8 steps, is two steps longer than the Manhattan distance
example : follow (aroundWalls (PosTy.pos 4 3) [(2, 3), (1, 0), (1, 2), (3, 1)]) (4, 0) [.S, .S, .W, .W, .N, .W, .W] = some (0, 1) ∧
    (4 : Int) + l1 (1, 1) (1, 3) = 6 ∧ (5 : Int) + l1 (0, 1) (1, 3) = 8 ∧ l1 (4, 0) (1, 3) = 6 ∧ ascents [6, 6, 6, 6, 6, 6, 6, 8, 8, 8, 8] = 1 := by decide +kernel
example : Adjacent (PosTy.pos 4 3) (aroundWalls (PosTy.pos 4 3) [(2, 3), (1, 0), (1, 2), (3, 1)]) := aroundWalls_adjacent _ _
example : (PosTy.pos 4 3).Searchable := PosTy.pos_searchable (by decide) (by decide) (.inl rfl)
-- the road of C117: its positions can be reached for 0, 4, 6 and 106
example : Ucs.pathHash (PosTy.pos 3 1) false (stepCosts (PosTy.pos 3 1) [(3, 1)] roadCost) (0, 0) (3, 0) 200 = .ok (.ok ([.E] ++ .E :: [.E])) ∧
    pathCost (stepCosts (PosTy.pos 3 1) [(3, 1)] roadCost) (0, 0) [.S, .E, .N] = some 4 ∧
    pathCost (stepCosts (PosTy.pos 3 1) [(3, 1)] roadCost) (0, 0) [.S, .E, .E, .N] = some 6 ∧
    pathCost (stepCosts (PosTy.pos 3 1) [(3, 1)] roadCost) (0, 0) [.S, .E, .E, .N, .E] = some 106 := by decide +kernel
example : Adjacent (PosTy.pos 3 1) (dropCost (stepCosts (PosTy.pos 3 1) [(3, 1)] roadCost)) := stepCosts_adjacent _ _ _

end Sqrid
