import Verif.Proofs.AstarSearch
import Verif.Props.Bf
/-!
# Properties of the A* search: C55 – C60

`fuel` bounds the number of calls to `next` in the model; every bound above `Astar.steps T` is enough (C56). `StaysIn T go` only says that `go` returns
positions of the grid type, which Rust's types guarantee.
-/

namespace Sqrid

-- Statements that do not mention a target are about a debug build for a 64-bit machine.
attribute [local instance] debug64

open Spec

namespace Astar

/-- The ways to make the search: `astar_path_grid` (also `astar_path`), `astar_path_hash` and `astar_path_btree`. -/
def IsSearch [Target] (T : PosTy)
    (astar : Bool → (Int × Int → Dir → Option (Int × Int)) → Int × Int → Int × Int → Nat → Out (Res (List Dir))) : Prop :=
  (∃ SIZE : Nat, cols T * rows T ≤ (SIZE : Int) ∧ astar = pathGrid T SIZE) ∨ astar = pathHash T ∨ astar = pathBtree T

/-- A number of calls to `next` after which every search has ended. -/
def steps (T : PosTy) : Int := 2 * ((cols T * rows T) * (cols T * rows T)) + 8 * (cols T * rows T) + 1

theorem IsSearch.eq [Target] {T : PosTy} (hT : T.Searchable) {astar} (h : IsSearch T astar) {D : Bool} {go : GoFn} (hgo : StaysIn T go) {orig dest : P2}
    (ho : InGrid T orig) (hd : InGrid T dest) (fuel : Nat) :
    astar D go orig dest fuel = searchPath T (MapImpl.ideal none) (MapImpl.ideal 0) D go orig dest fuel := by
  rcases h with ⟨n, hn, rfl⟩ | rfl | rfl
  · have := hT.cells_eq
    exact searchPath_ideal hT.wf (MapImpl.grid_sim hT.toIsGrid (by omega) 0) (MapImpl.grid_sim hT.toIsGrid (by omega) none) hgo D ho hd fuel
  · exact searchPath_ideal hT.wf (MapImpl.hash_sim T 0) (MapImpl.hash_sim T none) hgo D ho hd fuel
  · exact searchPath_ideal hT.wf (MapImpl.btree_sim T 0) (MapImpl.btree_sim T none) hgo D ho hd fuel

theorem steps_nat [Target] {T : PosTy} (hT : T.IsGrid) {fuel : Nat} (h : steps T < (fuel : Int)) :
    2 * ((T.nx * T.ny) * (T.nx * T.ny)) + 1 < fuel ∧ 8 * (T.nx * T.ny) + 1 < fuel := by
  have hc := hT.cells_eq
  unfold steps at h
  rw [← hc] at h
  generalize T.nx * T.ny = N at h ⊢
  have h' : 2 * (N * N) + 8 * N + 1 < fuel := by exact_mod_cast h
  generalize N * N = M at h' ⊢
  omega

/-- A search that ends within a number of steps ends in the same way within any larger number of them. -/
theorem IsSearch.more [Target] {T : PosTy} {astar} (h : IsSearch T astar) {D : Bool} {go : GoFn} {orig dest : P2} {fuel : Nat}
    {r : Res (List Dir)} (N : Int) (hr : astar D go orig dest fuel = .ok r) : ∃ fuel' : Nat, N < (fuel' : Int) ∧ astar D go orig dest fuel' = .ok r := by
  refine ⟨fuel + N.toNat + 1, by omega, ?_⟩
  rcases h with ⟨n, hn, rfl⟩ | rfl | rfl <;> exact (searchPath_below T _ _ D go orig dest (by omega)).ok hr

end Astar

/-! ## C55 -/

/-- C55. Following the path leads to the destination. -/
theorem C55_valid_path [Target] (T : PosTy) (hT : T.Searchable) (astar) (hastar : Astar.IsSearch T astar) (D : Bool)
    (go : Int × Int → Dir → Option (Int × Int)) (hgo : Adjacent T go) (orig dest : Int × Int) (ho : InGrid T orig) (hd : InGrid T dest) (fuel : Nat) (path : List Dir) (h : astar D go orig dest fuel = .ok (.ok path)) : IsPath go D orig path dest := by
  obtain ⟨fuel, hfuel, h⟩ := hastar.more (Astar.steps T) h
  rw [hastar.eq hT hgo.staysIn ho hd] at h
  rcases Astar.searchPath_spec hT D hgo ho hd fuel (Astar.steps_nat hT.toIsGrid hfuel).1 with ⟨-, h2⟩ | ⟨path', h1, -, h2⟩ | ⟨-, h2⟩
  · rw [h2] at h; cases h
  · rw [h2] at h
    injection h with h
    injection h with h
    exact h ▸ h1
  · rw [h2] at h; cases h

example : Astar.IsSearch (PosTy.pos 3 3) (Astar.pathGrid (PosTy.pos 3 3) 16) := .inl ⟨16, by decide, rfl⟩
example : Astar.pathBtree (PosTy.pos 2 1) false (aroundWalls (PosTy.pos 2 1) [(1, 0)]) (0, 0) (2, 0) 200 =
    .ok (.ok [.S, .E, .E, .N]) := by decide +kernel
example : Astar.steps (PosTy.pos 2 1) < ((200 : Nat) : Int) := by decide

/-! ## C56 -/

/-- C56. For every movement function the search answers after at most `Astar.steps T` calls to `next`, without panic or overflow. -/
theorem C56_terminates [Target] (T : PosTy) (hT : T.Searchable) (astar) (hastar : Astar.IsSearch T astar) (D : Bool)
    (go : Int × Int → Dir → Option (Int × Int)) (hgo : StaysIn T go) (orig dest : Int × Int) (ho : InGrid T orig) (hd : InGrid T dest) (fuel : Nat)
    (hfuel : Astar.steps T < (fuel : Int)) : ∃ r, astar D go orig dest fuel = .ok r := by
  rw [hastar.eq hT hgo ho hd]
  obtain ⟨r, h1, -⟩ := Astar.searchPath_general hT D hgo ho hd fuel (Astar.steps_nat hT.toIsGrid hfuel).1
  rw [Astar.searchPath_of_mapmov h1]
  cases r with
  | error e => exact ⟨_, rfl⟩
  | ok f =>
    simp only
    rcases camefromIntoPath_spec hT (MapImpl.ideal none) f f ho hd (fun p hp => rfl) with
      ⟨-, a⟩ | ⟨-, ⟨path', -, -, a⟩ | ⟨m, -, -, a⟩ | ⟨-, -, a⟩⟩ <;> exact ⟨_, a⟩

-- a movement function that is not between neighbours
example : StaysIn (PosTy.pos 2 2) (fun p _ => some (2 - p.1, 2 - p.2)) := by
  intro p d q hp h
  injection h with h
  subst h
  have h1 : (PosTy.pos 2 2).X.MIN = 0 ∧ (PosTy.pos 2 2).X.MAX = 2 ∧ (PosTy.pos 2 2).Y.MIN = 0 ∧ (PosTy.pos 2 2).Y.MAX = 2 := by decide
  simp only [InGrid] at hp ⊢
  omega
example : Astar.pathHash (PosTy.pos 2 2) true (fun p _ => some (2 - p.1, 2 - p.2)) (0, 0) (2, 2) 900 = .ok (.error .invalidMovement) := by
  decide +kernel

/-! ## C57 -/

/-- C57, the full claim. -/
def C57_claim [Target] (T : PosTy) (D : Bool) : Prop :=
  ∀ astar, Astar.IsSearch T astar → ∀ (go : Int × Int → Dir → Option (Int × Int)), Adjacent T go → ∀ orig dest, InGrid T orig → InGrid T dest →
    ∀ fuel : Nat, Astar.steps T < (fuel : Int) →
    (Reachable go D orig dest → ∃ path, astar D go orig dest fuel = .ok (.ok path)) ∧
    (¬ Reachable go D orig dest → astar D go orig dest fuel = .ok (.error .destinationUnreachable))

/-- C57, for every grid and both modes: `DestinationUnreachable` exactly if the destination cannot be reached; if it can, a path or `Loop`. What is missing: that
it is never `Loop`, which is false with diagonals (`C57_refuted_diagonals`) and on tall grids (`C57_refuted_tall`). -/
theorem C57_unreachable_partial [Target] (T : PosTy) (hT : T.Searchable) (astar) (hastar : Astar.IsSearch T astar) (D : Bool)
    (go : Int × Int → Dir → Option (Int × Int)) (hgo : Adjacent T go) (orig dest : Int × Int) (ho : InGrid T orig) (hd : InGrid T dest) (fuel : Nat)
    (hfuel : Astar.steps T < (fuel : Int)) :
    (astar D go orig dest fuel = .ok (.error .destinationUnreachable) ↔ ¬ Reachable go D orig dest) ∧
    (Reachable go D orig dest ↔ (∃ path, astar D go orig dest fuel = .ok (.ok path)) ∨ astar D go orig dest fuel = .ok (.error .loop)) := by
  rw [hastar.eq hT hgo.staysIn ho hd]
  rcases Astar.searchPath_spec hT D hgo ho hd fuel (Astar.steps_nat hT.toIsGrid hfuel).1 with ⟨h1, h2⟩ | ⟨path', h1, -, h2⟩ | ⟨h1, h2⟩
  · rw [h2]
    refine ⟨⟨fun _ => h1, fun _ => rfl⟩, fun h => absurd h h1, ?_⟩
    rintro (⟨path, h⟩ | h) <;> cases h
  · rw [h2]
    refine ⟨⟨(fun h => by cases h), fun h => absurd ⟨path', h1⟩ h⟩, fun _ => .inl ⟨path', rfl⟩, fun _ => ⟨path', h1⟩⟩
  · rw [h2]
    refine ⟨⟨(fun h => by cases h), fun h => absurd h1 h⟩, fun _ => .inr rfl, fun _ => h1⟩

/-- C57, without diagonals, on grids that are not taller than wide: the full claim. -/
theorem C57_wide_straight_partial [Target] (T : PosTy) (hT : T.Searchable) (hwide : rows T ≤ cols T) : C57_claim T false := by
  intro astar hastar go hgo orig dest ho hd fuel hfuel
  rw [hastar.eq hT hgo.staysIn ho hd]
  have hle : T.nx * T.ny ≤ T.nx * T.nx := by
    refine Nat.mul_le_mul_left _ ?_
    have h1 := hT.nx_eq
    have h2 := hT.ny_eq
    have h3 := hT.x0
    have h4 := hT.y0
    simp only [rows, cols] at hwide
    omega
  rcases Astar.searchPath_straight hT hgo ho hd fuel (Astar.steps_nat hT.toIsGrid hfuel).2 with ⟨h1, h2⟩ | ⟨path, h1, h2, -, h3⟩
  · exact ⟨fun h => absurd h h1, fun _ => h2⟩
  · refine ⟨fun _ => ⟨path, ?_⟩, fun h => absurd ⟨path, h1⟩ h⟩
    rw [h3, if_pos (by omega)]

/-- C57 is false on a grid of one column: `Loop` although the destination is two steps away. -/
theorem C57_refuted_tall [Target] : ¬ C57_claim (PosTy.pos 0 2) false := by
  intro h
  obtain ⟨h1, -⟩ := h (Astar.pathHash (PosTy.pos 0 2)) (.inr (.inl rfl)) (aroundWalls (PosTy.pos 0 2) []) (aroundWalls_adjacent _ _)
    (0, 0) (0, 2) (by decide_target) (by decide_target) 100 (by decide_target)
  obtain ⟨path, h2⟩ := h1 ⟨[.S, .S], by intro d hd; revert d; simp [Allowed, unit], by decide_target⟩
  have e : Astar.pathHash (PosTy.pos 0 2) false (aroundWalls (PosTy.pos 0 2) []) (0, 0) (0, 2) 100 = .ok (.error .loop) := by decide_target
  rw [e] at h2
  cases h2

/-- The walls of a 6 × 6 grid on which the search with diagonals records directions that go around in a circle. -/
def loopWalls : List (Int × Int) :=
  [(4, 4), (2, 4), (1, 2), (5, 5), (3, 4), (1, 5), (4, 1), (5, 4), (4, 2), (2, 3), (4, 5), (5, 0), (0, 5), (3, 2), (1, 3)]

/-- C57 is false with diagonals, also on square grids: `Loop` although there is a path. -/
theorem C57_refuted_diagonals [Target] : ¬ C57_claim (PosTy.pos 5 5) true := by
  intro h
  obtain ⟨h1, -⟩ := h (Astar.pathHash (PosTy.pos 5 5)) (.inr (.inl rfl)) (aroundWalls (PosTy.pos 5 5) loopWalls) (aroundWalls_adjacent _ _)
    (5, 1) (2, 5) (by decide_target) (by decide_target) 9000 (by decide_target)
  obtain ⟨path, h2⟩ := h1 ⟨[.NW, .SW, .SW, .NW, .SW, .S, .SE, .SE], by intro d hd; exact .inl rfl, by decide_target⟩
  have e : Astar.pathHash (PosTy.pos 5 5) true (aroundWalls (PosTy.pos 5 5) loopWalls) (5, 1) (2, 5) 9000 = .ok (.error .loop) := by decide_target
  rw [e] at h2
  cases h2

/-! ## C58 -/

/-- C58, the full claim. -/
def C58_claim [Target] (T : PosTy) (D : Bool) : Prop :=
  ∀ astar, Astar.IsSearch T astar → ∀ (go : Int × Int → Dir → Option (Int × Int)), Adjacent T go → ∀ orig dest, InGrid T orig → InGrid T dest →
    ∀ fuel : Nat, Astar.steps T < (fuel : Int) → ∀ path, astar D go orig dest fuel = .ok (.ok path) →
    ∀ ds, IsPath go D orig ds dest → path.length ≤ ds.length

/-- C58, without diagonals, when some path is as long as the Manhattan distance (no detour is needed). What is missing: destinations that need a detour and
diagonals, for which the claim is false (`C58_refuted_straight`, `C58_refuted_diagonals`). -/
theorem C58_no_detour_partial [Target] (T : PosTy) (hT : T.Searchable) (astar) (hastar : Astar.IsSearch T astar)
    (go : Int × Int → Dir → Option (Int × Int)) (hgo : Adjacent T go) (orig dest : Int × Int) (ho : InGrid T orig) (hd : InGrid T dest) (fuel : Nat) (straight : List Dir) (hs : IsPath go false orig straight dest)
    (hl : (straight.length : Int) = l1 orig dest) (path : List Dir) (h : astar false go orig dest fuel = .ok (.ok path)) :
    ∀ ds, IsPath go false orig ds dest → path.length ≤ ds.length := by
  obtain ⟨fuel, hfuel, h⟩ := hastar.more (Astar.steps T) h
  have hdist : IsDist go false orig dest straight.length :=
    ⟨⟨straight, hs, rfl⟩, fun ds hds => by have := l1_le_path hgo ho hds; omega⟩
  rw [hastar.eq hT hgo.staysIn ho hd] at h
  rcases Astar.searchPath_straight hT hgo ho hd fuel (Astar.steps_nat hT.toIsGrid hfuel).2 with ⟨h1, h2⟩ | ⟨path', h1, h2, h3, h4⟩
  · rw [h2] at h; cases h
  · rw [h4] at h
    split at h
    · injection h with h
      injection h with h
      subst h
      have := h3 _ hdist hl
      exact fun ds hds => by have := hdist.2 ds hds; omega
    · cases h

/-- C58 is false without diagonals: the search returns ten steps, and eight are enough. -/
theorem C58_refuted_straight [Target] : ¬ C58_claim (PosTy.pos 4 3) false := by
  intro h
  have h1 := h (Astar.pathHash (PosTy.pos 4 3)) (.inr (.inl rfl)) (aroundWalls (PosTy.pos 4 3) [(2, 3), (1, 0), (1, 2), (3, 1)])
    (aroundWalls_adjacent _ _) (4, 0) (1, 3) (by decide_target) (by decide_target) 1000 (by decide_target) [.S, .S, .W, .W, .N, .W, .W, .S, .S, .E] (by decide_target)
    [.W, .W, .S, .W, .W, .S, .S, .E] ⟨by intro d hd; revert d; simp [Allowed, unit], by decide_target⟩
  exact absurd h1 (by decide_target)

/-- C58 is false with diagonals: the search returns four steps, and three are enough. -/
theorem C58_refuted_diagonals [Target] : ¬ C58_claim (PosTy.pos 3 2) true := by
  intro h
  have h1 := h (Astar.pathHash (PosTy.pos 3 2)) (.inr (.inl rfl)) (aroundWalls (PosTy.pos 3 2) [(0, 1), (3, 2), (2, 1)])
    (aroundWalls_adjacent _ _) (3, 0) (0, 2) (by decide_target) (by decide_target) 1000 (by decide_target) [.S, .SW, .W, .W] (by decide_target)
    [.W, .SW, .SW] ⟨by intro d hd; exact .inl rfl, by decide_target⟩
  exact absurd h1 (by decide_target)

-- a case of `C58_no_detour_partial`, with a wall to go around
example : IsPath (aroundWalls (PosTy.pos 2 2) [(1, 1)]) false (0, 0) [.S, .S, .E, .E] (2, 2) ∧ (([Dir.S, .S, .E, .E].length : Nat) : Int) = l1 (0, 0) (2, 2) ∧
    Astar.pathHash (PosTy.pos 2 2) false (aroundWalls (PosTy.pos 2 2) [(1, 1)]) (0, 0) (2, 2) 900 = .ok (.ok [.E, .E, .S, .S]) :=
  ⟨⟨by intro d hd; revert d; simp [Allowed, unit], by decide⟩, by decide, by decide +kernel⟩

/-! ## C59 -/

/-- C59. The variants return the same on the same arguments. -/
theorem C59_agree [Target] (T : PosTy) (hT : T.Searchable) (astar astar') (hastar : Astar.IsSearch T astar) (hastar' : Astar.IsSearch T astar') (D : Bool)
    (go : Int × Int → Dir → Option (Int × Int)) (hgo : StaysIn T go) (orig dest : Int × Int) (ho : InGrid T orig) (hd : InGrid T dest) (fuel : Nat) :
    astar D go orig dest fuel = astar' D go orig dest fuel := by
  rw [hastar.eq hT hgo ho hd, hastar'.eq hT hgo ho hd]

example : Astar.pathGrid (PosTy.pos 2 1) 6 true (aroundWalls (PosTy.pos 2 1) [(1, 0)]) (0, 0) (2, 0) 200 = .ok (.ok [.SE, .NE]) := by decide +kernel

/-! ## C60 -/

/-- The same with any map of positions, in every position type where the distances fit. -/
theorem Astar.true_distance [Target] {T : PosTy} {C : MapImpl Int} {R : C.σ → (P2 → Int) → Prop} (hR : C.Sim T 0 R) {go : GoFn} (hgo : Adjacent T go)
    {orig dest : P2} (ho : InGrid T orig) {L : List P2} (hL : ∀ q, Reachable go false orig q → q ∈ L)
    (hfit : AstarFits T go false orig dest L.length) (n : Nat) :
    ∃ items st, (do let it ← AstarIter.new C orig; yields (AstarIter.next T C false go dest) n it) = .ok (items, st) ∧
      ∀ m ∈ items, ∃ k : Nat, IsDist go false orig m.1 k ∧ C.get st.cost m.1 = .ok (k : Int) := by
  obtain ⟨ys, s', h1, h2, -⟩ := yields_init (L := L) (INF := usizeMax) (emb := BSt.astar) (next := AstarIter.next T (MapImpl.ideal 0) false go dest)
    usizeMax_pos (unitCost_nonneg go) (astar_consistent hgo ho dest) (reach_of_cost hL) (fun s hs => AstarIter.next_none hs) (by
      intro s e rest hp hlt hm
      obtain ⟨k, hk, hk'⟩ := isMinCost_unit.1 hm
      have h1 := isDist_lt_list hL hk'
      have hr : Reachable go false orig e.2.1 := reachable_iff_isDist.2 ⟨k, hk'⟩
      refine AstarIter.next_eq false hp ⟨by omega, ?_, fun d q hd hg => ?_⟩
      · have h4 := (hfit _ hr).2
        have hl : 0 ≤ l1 e.2.1 dest := by simp only [l1]; omega
        omega
      · obtain ⟨ds, hds⟩ := hr
        have h4 := hfit q ⟨_, isPath_append hds (isPath_single hd hg)⟩
        exact ⟨h4.1, by omega⟩) n
  have hrel : Out.Rel (fun a b => a.1 = b.1 ∧ AstarIter.Rel T R a.2 b.2) (do let it ← AstarIter.new C orig; yields (AstarIter.next T C false go dest) n it)
      (.ok (ys, s'.astar)) := by
    rw [← h1, show yields (AstarIter.next T (MapImpl.ideal 0) false go dest) n (BSt.init usizeMax orig).astar =
      (AstarIter.new (MapImpl.ideal 0) orig >>= fun it => yields (AstarIter.next T (MapImpl.ideal 0) false go dest) n it) from rfl]
    refine (AstarIter.rel_new hR ho).bind fun a b hab => ?_
    exact yields_rel (Q := AstarIter.Rel T R) (fun s t h => (AstarIter.rel_next hR hgo.staysIn false dest h).mono fun a b h => ⟨h.1.1, h.2⟩) n a b hab
  revert hrel
  generalize (do let it ← AstarIter.new C orig; yields (AstarIter.next T C false go dest) n it) = x
  intro hrel
  cases x with
  | ok x =>
    obtain ⟨items, st⟩ := x
    obtain ⟨e1, e2⟩ := hrel
    simp only at e1 e2
    subst e1
    refine ⟨items, st, rfl, fun m hm => ?_⟩
    have hmin := h2 m.1 (List.mem_map.2 ⟨m, hm, rfl⟩)
    obtain ⟨k, hk, hk'⟩ := isMinCost_unit.1 hmin
    refine ⟨k, hk', ?_⟩
    rw [hR.get e2.1 (isDist_inGrid hgo.staysIn ho hk'), ← hk]
    rfl
  | panic => exact hrel.elim
  | ub => exact hrel.elim
  | timeout => exact hrel.elim

/-- C60. Without diagonals, once the iterator has yielded a position the cost it has recorded for it is its distance from the origin; this holds after any
number `n` of items, thus also at the moment a position is first yielded, and for the destination as for the others. -/
theorem C60_true_distance [Target] (T : PosTy) (hT : T.Searchable) (C : MapImpl Int) (hC : C.Is T 0) (go : Int × Int → Dir → Option (Int × Int))
    (hgo : Adjacent T go) (orig dest : Int × Int) (ho : InGrid T orig) (hd : InGrid T dest) (n : Nat) :
    ∃ items st, (do let it ← AstarIter.new C orig; yields (AstarIter.next T C false go dest) n it) = .ok (items, st) ∧
      ∀ m ∈ items, ∃ k : Nat, IsDist go false orig m.1 k ∧ C.get st.cost m.1 = .ok (k : Int) := by
  obtain ⟨R, hR⟩ := MapImpl.sim_of_is hT.toIsGrid hC
  exact Astar.true_distance hR hgo ho (covers hgo.staysIn ho) (hT.astarFits hgo.staysIn ho hd) n

example : (MapImpl.hash (0 : Int)).Is (PosTy.pos 2 1) 0 := .inr (.inl rfl)
example : ∃ st, (do let it ← AstarIter.new (.hash 0) (0, 0)
                    yields (AstarIter.next (PosTy.pos 2 1) (.hash 0) false (aroundWalls (PosTy.pos 2 1) [(1, 0)]) (2, 0)) 9 it) =
    .ok ([((0, 0), .N), ((0, 1), .N), ((1, 1), .W), ((2, 1), .W), ((2, 0), .S)], st) := ⟨_, rfl⟩

end Sqrid
