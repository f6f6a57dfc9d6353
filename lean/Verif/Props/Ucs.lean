import Verif.Proofs.UcsSearch
import Verif.Props.Astar
/-!
# Properties of the uniform-cost search: C61 – C67

`fuel` bounds the number of calls to `next` in the model; every bound above `Ucs.steps T` is enough (C62, C66). `StaysIn T (dropCost go)` and
`UsizeCosts go` only say that `go` returns positions of the grid type and `usize`s, which Rust's types guarantee.
-/

namespace Sqrid

-- Statements that do not mention a target are about a debug build for a 64-bit machine.
attribute [local instance] debug64

open Spec

namespace Ucs

/-- The ways to make the search: `ucs_path_grid` (also `ucs_path`), `ucs_path_hash` and `ucs_path_btree`. -/
def IsSearch [Target] (T : PosTy)
    (ucs : Bool → (Int × Int → Dir → Option ((Int × Int) × Int)) → Int × Int → Int × Int → Nat → Out (Res (List Dir))) : Prop :=
  (∃ SIZE : Nat, cols T * rows T ≤ (SIZE : Int) ∧ ucs = pathGrid T SIZE) ∨ ucs = pathHash T ∨ ucs = pathBtree T

/-- A number of calls to `next` after which every search has ended. -/
def steps (T : PosTy) : Int := 8 * (cols T * rows T) + 1

theorem IsSearch.eq [Target] {T : PosTy} (hT : T.Searchable) {ucs} (h : IsSearch T ucs) {D : Bool} {go : WGo} (hgo : StaysIn T (dropCost go)) {orig dest : P2}
    (ho : InGrid T orig) (hd : InGrid T dest) (fuel : Nat) :
    ucs D go orig dest fuel = searchPath T (MapImpl.ideal none) (MapImpl.ideal 0) D go orig dest fuel := by
  rcases h with ⟨n, hn, rfl⟩ | rfl | rfl
  · have := hT.cells_eq
    exact searchPath_ideal hT.wf (MapImpl.grid_sim hT.toIsGrid (by omega) 0) (MapImpl.grid_sim hT.toIsGrid (by omega) none) hgo D ho hd fuel
  · exact searchPath_ideal hT.wf (MapImpl.hash_sim T 0) (MapImpl.hash_sim T none) hgo D ho hd fuel
  · exact searchPath_ideal hT.wf (MapImpl.btree_sim T 0) (MapImpl.btree_sim T none) hgo D ho hd fuel

theorem steps_nat [Target] {T : PosTy} (hT : T.IsGrid) {fuel : Nat} (h : steps T < (fuel : Int)) : 8 * (T.nx * T.ny) + 1 < fuel := by
  have hc := hT.cells_eq
  unfold steps at h
  rw [← hc] at h
  exact_mod_cast h

/-- A search that ends within a number of steps ends in the same way within any larger number of them. -/
theorem IsSearch.more [Target] {T : PosTy} {ucs} (h : IsSearch T ucs) {D : Bool} {go : WGo} {orig dest : P2} {fuel : Nat}
    {r : Res (List Dir)} (N : Int) (hr : ucs D go orig dest fuel = .ok r) : ∃ fuel' : Nat, N < (fuel' : Int) ∧ ucs D go orig dest fuel' = .ok r := by
  refine ⟨fuel + N.toNat + 1, by omega, ?_⟩
  rcases h with ⟨n, hn, rfl⟩ | rfl | rfl <;> exact (searchPath_below T _ _ D go orig dest (by omega)).ok hr

end Ucs

theorem dropCost_stepCosts (T : PosTy) (walls : List (Int × Int)) (cost : Int × Int → Dir → Int) :
    dropCost (stepCosts T walls cost) = aroundWalls T walls := by
  funext p d
  simp only [dropCost, stepCosts]
  cases aroundWalls T walls p d <;> rfl

theorem stepCosts_adjacent (T : PosTy) (walls : List (Int × Int)) (cost : Int × Int → Dir → Int) : Adjacent T (dropCost (stepCosts T walls cost)) := by
  rw [dropCost_stepCosts]
  exact aroundWalls_adjacent _ _

theorem stepCosts_usize [Target] (T : PosTy) (walls : List (Int × Int)) {cost : Int × Int → Dir → Int} (h : ∀ p d, 0 ≤ cost p d ∧ cost p d ≤ limit) :
    UsizeCosts (stepCosts T walls cost) := by
  intro p d q w hg
  simp only [stepCosts] at hg
  cases ha : aroundWalls T walls p d with
  | none => rw [ha] at hg; cases hg
  | some r =>
    rw [ha] at hg
    injection hg with hg
    injection hg with _ hg
    rw [← hg]
    exact h p d

/-- Steps to the second column cost 5, the others cost 1. -/
def swamp (p : Int × Int) (d : Dir) : Int := if (neighbour p d).1 = 1 then 5 else 1

theorem swamp_bounds (p : Int × Int) (d : Dir) : 0 ≤ swamp p d ∧ swamp p d ≤ 5 := by
  unfold swamp
  split <;> omega

theorem swamp_usize [Target] (T : PosTy) (walls : List (Int × Int)) : UsizeCosts (stepCosts T walls swamp) :=
  stepCosts_usize T walls fun p d => ⟨(swamp_bounds p d).1, by have := (swamp_bounds p d).2; have := limit_pos; omega⟩

/-! ## C61 -/

/-- C61. Following the path leads to the destination; also when some sums are out of range, whether that panics or wraps around. -/
theorem C61_valid_path [Target] (T : PosTy) (hT : T.Searchable) (ucs) (hucs : Ucs.IsSearch T ucs) (D : Bool)
    (go : Int × Int → Dir → Option ((Int × Int) × Int)) (hgo : Adjacent T (dropCost go)) (orig dest : Int × Int)
    (ho : InGrid T orig) (hd : InGrid T dest) (fuel : Nat) (path : List Dir)
    (h : ucs D go orig dest fuel = .ok (.ok path)) : IsPath (dropCost go) D orig path dest := by
  rw [hucs.eq hT hgo.staysIn ho hd] at h
  exact Ucs.searchPath_valid hT.wf hgo ho hd fuel h

example : Ucs.IsSearch (PosTy.pos 3 3) (Ucs.pathGrid (PosTy.pos 3 3) 16) := .inl ⟨16, by decide, rfl⟩
example : Adjacent (PosTy.pos 2 2) (dropCost (stepCosts (PosTy.pos 2 2) [(1, 0)] swamp)) := stepCosts_adjacent _ _ _
example : UsizeCosts (stepCosts (PosTy.pos 2 2) [(1, 0)] swamp) := swamp_usize _ _
example : Ucs.pathBtree (PosTy.pos 2 2) false (stepCosts (PosTy.pos 2 2) [(1, 0)] swamp) (0, 0) (2, 0) 74 = .ok (.ok [.S, .E, .E, .N]) := by decide +kernel
example : Ucs.steps (PosTy.pos 2 2) < ((75 : Nat) : Int) := by decide

/-! ## C62 -/

/-- C62, the full claim. -/
def C62_claim [Target] (T : PosTy) : Prop :=
  ∀ ucs, Ucs.IsSearch T ucs → ∀ (D : Bool) (go : Int × Int → Dir → Option ((Int × Int) × Int)), Adjacent T (dropCost go) → UsizeCosts go →
    ∀ orig dest, InGrid T orig → InGrid T dest → BelowLimit go D orig → ∀ fuel : Nat, Ucs.steps T < (fuel : Int) →
    (Reachable (dropCost go) D orig dest → ∃ path, ucs D go orig dest fuel = .ok (.ok path)) ∧
    (¬ Reachable (dropCost go) D orig dest → ucs D go orig dest fuel = .ok (.error .destinationUnreachable))

/-- C62, for every grid: `DestinationUnreachable` exactly if the destination cannot be reached; if it can, a path or `Loop`. What is missing: that it is never
`Loop`, which is false on tall grids (`C62_refuted_tall`). -/
theorem C62_unreachable_partial [Target] (T : PosTy) (hT : T.Searchable) (ucs) (hucs : Ucs.IsSearch T ucs) (D : Bool)
    (go : Int × Int → Dir → Option ((Int × Int) × Int)) (hgo : Adjacent T (dropCost go)) (hc : UsizeCosts go) (orig dest : Int × Int)
    (ho : InGrid T orig) (hd : InGrid T dest) (hb : BelowLimit go D orig) (fuel : Nat) (hfuel : Ucs.steps T < (fuel : Int)) :
    (ucs D go orig dest fuel = .ok (.error .destinationUnreachable) ↔ ¬ Reachable (dropCost go) D orig dest) ∧
    (Reachable (dropCost go) D orig dest ↔ (∃ path, ucs D go orig dest fuel = .ok (.ok path)) ∨ ucs D go orig dest fuel = .ok (.error .loop)) := by
  have hfuel' := Ucs.steps_nat hT.toIsGrid hfuel
  rw [hucs.eq hT hgo.staysIn ho hd]
  obtain ⟨r, hr⟩ := Ucs.searchPath_total (dest := dest) hT hgo.staysIn hc.nonNeg hb.noOverflow ho hd fuel hfuel'
  rcases Ucs.searchPath_spec (D := D) hT hgo hc.nonNeg (.inr hb.noOverflow) ho hd fuel hfuel' with h2 | ⟨h1, h2⟩ | ⟨-, path', h1, -, -, h2⟩
  · rw [h2] at hr; cases hr
  · rw [h2]
    have hnr : ¬ Reachable (dropCost go) D orig dest := by
      intro hre
      obtain ⟨n, hn⟩ := isMinCost_exists hc.nonNeg hre
      have := h1 n hn
      have := hb.lt hc.nonNeg hn
      omega
    refine ⟨⟨fun _ => hnr, fun _ => rfl⟩, fun h => absurd h hnr, ?_⟩
    rintro (⟨path, h⟩ | h) <;> cases h
  · rw [h2]
    split
    · exact ⟨⟨(fun h => by cases h), fun h => absurd ⟨path', h1⟩ h⟩, fun _ => .inl ⟨path', rfl⟩, fun _ => ⟨path', h1⟩⟩
    · exact ⟨⟨(fun h => by cases h), fun h => absurd ⟨path', h1⟩ h⟩, fun _ => .inr rfl, fun _ => ⟨path', h1⟩⟩

/-- C62, on grids that are not taller than wide: the full claim. -/
theorem C62_wide_partial [Target] (T : PosTy) (hT : T.Searchable) (hwide : rows T ≤ cols T) : C62_claim T := by
  intro ucs hucs D go hgo hc orig dest ho hd hb fuel hfuel
  obtain ⟨h1, h2⟩ := C62_unreachable_partial T hT ucs hucs D go hgo hc orig dest ho hd hb fuel hfuel
  refine ⟨fun hr => ?_, h1.2⟩
  rcases h2.1 hr with h | h
  · exact h
  · exfalso
    have hle : T.nx * T.ny ≤ T.nx * T.nx := by
      refine Nat.mul_le_mul_left _ ?_
      have h1 := hT.nx_eq
      have h2 := hT.ny_eq
      have h3 := hT.x0
      have h4 := hT.y0
      simp only [rows, cols] at hwide
      omega
    rw [hucs.eq hT hgo.staysIn ho hd] at h
    rcases Ucs.searchPath_spec (D := D) hT hgo hc.nonNeg (.inr hb.noOverflow) ho hd fuel (Ucs.steps_nat hT.toIsGrid hfuel) with h2 | ⟨-, h2⟩ | ⟨-, path', -, h1, -, h2⟩
    · rw [h2] at h; cases h
    · rw [h2] at h; cases h
    · rw [h2, if_pos (by omega)] at h; cases h

theorem stepCosts_below [Target] {T : PosTy} (hT : T.Searchable) (walls : List (Int × Int)) {cost : Int × Int → Dir → Int} {B : Int} (D : Bool) {orig : Int × Int}
    (ho : InGrid T orig) (h0 : 0 ≤ B) (hB : ∀ p d, cost p d ≤ B) (hlim : B * (cols T * rows T) < limit) : BelowLimit (stepCosts T walls cost) D orig := by
  refine belowLimit_of_small (T := T) (stepCosts_adjacent T walls cost).staysIn ho h0 (fun p d q w hg => ?_) (by rw [hT.cells_eq]; exact hlim)
  simp only [stepCosts] at hg
  cases ha : aroundWalls T walls p d with
  | none => rw [ha] at hg; cases hg
  | some r =>
    rw [ha] at hg
    injection hg with hg
    injection hg with _ hg
    rw [← hg]
    exact hB p d

/-- C62 is false on a grid of one column: `Loop` although the destination is two steps away. -/
theorem C62_refuted_tall [Target] : ¬ C62_claim (PosTy.pos 0 2) := by
  intro h
  obtain ⟨h1, -⟩ := h (Ucs.pathHash (PosTy.pos 0 2)) (.inr (.inl rfl)) false (stepCosts (PosTy.pos 0 2) [] fun _ _ => 1) (stepCosts_adjacent _ _ _)
    (stepCosts_usize _ _ fun _ _ => by decide_target) (0, 0) (0, 2) (by decide_target) (by decide_target)
    (stepCosts_below (PosTy.pos_searchable (by decide_target) (by decide_target) (by fits_small)) [] false (by decide_target) (B := 1) (by decide_target) (fun _ _ => by decide_target) (by decide_target)) 100 (by decide_target)
  obtain ⟨path, h2⟩ := h1 ⟨[.S, .S], by intro d hd; revert d; simp [Allowed, unit], by decide_target⟩
  have e : Ucs.pathHash (PosTy.pos 0 2) false (stepCosts (PosTy.pos 0 2) [] fun _ _ => 1) (0, 0) (0, 2) 100 = .ok (.error .loop) := by decide_target
  rw [e] at h2
  cases h2

example : BelowLimit (stepCosts (PosTy.pos 2 2) [(1, 0)] swamp) true (0, 0) :=
  stepCosts_below (PosTy.pos_searchable (by decide) (by decide) (.inl rfl)) _ _ (by decide) (B := 5) (by decide) (fun p d => (swamp_bounds p d).2) (by decide)
example : Ucs.pathHash (PosTy.pos 2 2) false (stepCosts (PosTy.pos 2 2) [(1, 0), (1, 1), (1, 2)] swamp) (0, 0) (2, 0) 74 =
    .ok (.error .destinationUnreachable) := by decide +kernel

/-! ## C63 -/

/-- C63, the full claim. -/
def C63_claim [Target] (T : PosTy) (D : Bool) : Prop :=
  ∀ ucs, Ucs.IsSearch T ucs → ∀ (go : Int × Int → Dir → Option ((Int × Int) × Int)), Adjacent T (dropCost go) → UsizeCosts go →
    ∀ orig dest, InGrid T orig → InGrid T dest → ∀ fuel : Nat, Ucs.steps T < (fuel : Int) → ∀ path, ucs D go orig dest fuel = .ok (.ok path) →
    ∃ n, IsCostPath go D orig path dest n ∧ ∀ ds m, IsCostPath go D orig ds dest m → n ≤ m

/-- C63, when the cost of a step depends only on the position it leads to (such as the unit cost). What is missing: other costs, for which the claim is false
(`C63_refuted_straight`, `C63_refuted_diagonals`). -/
theorem C63_enter_cost_partial [Target] (T : PosTy) (hT : T.Searchable) (ucs) (hucs : Ucs.IsSearch T ucs) (D : Bool)
    (go : Int × Int → Dir → Option ((Int × Int) × Int)) (hgo : Adjacent T (dropCost go)) (hc : UsizeCosts go) (henter : EnterCost go)
    (orig dest : Int × Int) (hov : Target.checks = true ∨ NoOverflow go D orig) (ho : InGrid T orig) (hd : InGrid T dest) (fuel : Nat) (path : List Dir)
    (h : ucs D go orig dest fuel = .ok (.ok path)) : ∃ n, IsCostPath go D orig path dest n ∧ ∀ ds m, IsCostPath go D orig ds dest m → n ≤ m := by
  obtain ⟨fuel, hfuel, h⟩ := hucs.more (Ucs.steps T) h
  rw [hucs.eq hT hgo.staysIn ho hd] at h
  rcases Ucs.searchPath_spec (D := D) hT hgo hc.nonNeg hov ho hd fuel (Ucs.steps_nat hT.toIsGrid hfuel) with h2 | ⟨-, h2⟩ | ⟨⟨n, hn, -⟩, path', -, -, h1, h2⟩
  · rw [h2] at h; cases h
  · rw [h2] at h; cases h
  · rw [h2] at h
    split at h
    · injection h with h
      injection h with h
      subst h
      exact ⟨n, h1 henter n hn, hn.2⟩
    · cases h

/-- Costs for `C63_refuted_straight`. -/
def badCosts : Int × Int → Dir → Int
  | (0, 0), .E => 2 | (0, 0), .S => 2
  | (1, 0), .E => 5 | (1, 0), .S => 5 | (1, 0), .W => 3
  | (0, 1), .N => 5 | (0, 1), .E => 3
  | (1, 1), .N => 3 | (1, 1), .E => 5 | (1, 1), .W => 0
  | (2, 0), .S => 4 | (2, 0), .W => 5
  | (2, 1), .N => 0 | (2, 1), .W => 3
  | _, _ => 1

/-- Costs for `C63_refuted_diagonals`. -/
def badCostsDiag : Int × Int → Dir → Int
  | (0, 0), .E => 1 | (0, 0), .SE => 0 | (0, 0), .S => 4
  | (1, 1), .N => 0 | (1, 1), .W => 5 | (1, 1), .NW => 0
  | (1, 0), .S => 5 | (1, 0), .SW => 3 | (1, 0), .W => 5
  | (0, 1), .N => 1 | (0, 1), .NE => 1 | (0, 1), .E => 4
  | _, _ => 1

theorem badCosts_bounds [Target] (p : Int × Int) (d : Dir) : 0 ≤ badCosts p d ∧ badCosts p d ≤ limit := by
  unfold badCosts
  have := limit_pos
  split <;> omega

theorem badCostsDiag_bounds [Target] (p : Int × Int) (d : Dir) : 0 ≤ badCostsDiag p d ∧ badCostsDiag p d ≤ limit := by
  unfold badCostsDiag
  have := limit_pos
  split <;> omega

/-- C63 is false without diagonals: the search returns a path of cost 12, and 10 is enough. -/
theorem C63_refuted_straight [Target] : ¬ C63_claim (PosTy.pos 2 1) false := by
  intro h
  obtain ⟨n, h1, h2⟩ := h (Ucs.pathHash (PosTy.pos 2 1)) (.inr (.inl rfl)) (stepCosts (PosTy.pos 2 1) [] badCosts) (stepCosts_adjacent _ _ _)
    (stepCosts_usize _ _ badCosts_bounds) (0, 0) (2, 1) (by decide_target) (by decide_target) 100 (by decide_target) [.E, .S, .E] (by decide_target)
  have h3 := h2 [.S, .E, .E] 10 ⟨⟨by intro d hd; revert d; simp [Allowed, unit], by decide_target⟩, by decide_target⟩
  have h4 : pathCost (stepCosts (PosTy.pos 2 1) [] badCosts) (0, 0) [.E, .S, .E] = some 12 := by decide_target
  have h5 := h1.2
  rw [h4] at h5
  injection h5 with h5
  omega

/-- C63 is false with diagonals: the search returns a path of cost 4, and 3 is enough. -/
theorem C63_refuted_diagonals [Target] : ¬ C63_claim (PosTy.pos 1 1) true := by
  intro h
  obtain ⟨n, h1, h2⟩ := h (Ucs.pathHash (PosTy.pos 1 1)) (.inr (.inl rfl)) (stepCosts (PosTy.pos 1 1) [] badCostsDiag) (stepCosts_adjacent _ _ _)
    (stepCosts_usize _ _ badCostsDiag_bounds) (0, 0) (0, 1) (by decide_target) (by decide_target) 100 (by decide_target) [.E, .SW] (by decide_target)
  have h3 := h2 [.SE, .N, .SW] 3 ⟨⟨by intro d hd; exact .inl rfl, by decide_target⟩, by decide_target⟩
  have h4 : pathCost (stepCosts (PosTy.pos 1 1) [] badCostsDiag) (0, 0) [.E, .SW] = some 4 := by decide_target
  have h5 := h1.2
  rw [h4] at h5
  injection h5 with h5
  omega

example : EnterCost (stepCosts (PosTy.pos 2 2) [(1, 0)] swamp) := by
  intro u u' d d' q w w' h h'
  have key : ∀ u d w, stepCosts (PosTy.pos 2 2) [(1, 0)] swamp u d = some (q, w) → w = if q.1 = 1 then 5 else 1 := by
    intro u d w h
    unfold stepCosts aroundWalls at h
    split at h
    · injection h with h
      injection h with h1 h2
      rw [← h2, ← h1]
      rfl
    · cases h
  rw [key u d w h, key u' d' w' h']

/-! ## C64 -/

/-- C64. After any number `n` of items: the cost recorded for each yielded position is the least cost of reaching it, and positions are first yielded in order of
least cost. -/
theorem C64_cost_order [Target] (T : PosTy) (hT : T.Searchable) (C : MapImpl Int) (hC : C.Is T 0) (D : Bool) (go : Int × Int → Dir → Option ((Int × Int) × Int))
    (hgo : StaysIn T (dropCost go)) (hc : UsizeCosts go) (orig : Int × Int) (ho : InGrid T orig) (hno : NoOverflow go D orig) (n : Nat) :
    ∃ items st, (do let it ← UcsIter.new C orig; yields (UcsIter.next C D go) n it) = .ok (items, st) ∧
      (∀ m ∈ items, ∃ k, IsMinCost go D orig m.1 k ∧ C.get st.cost m.1 = .ok k) ∧
      (∀ before m after, items = before ++ m :: after → m.1 ∉ before.map Prod.fst → ∀ u ∈ before, ∀ a b, IsMinCost go D orig u.1 a →
        IsMinCost go D orig m.1 b → a ≤ b) := by
  obtain ⟨R, hR⟩ := MapImpl.sim_of_is hT.toIsGrid hC
  have hw := hc.nonNeg
  have hG := cost_inGrid (D := D) hgo ho
  obtain ⟨ys, s', h1, h2, h3, -⟩ := yields_init (L := allPositions T true) (INF := usizeMax) (emb := BSt.ucs) (next := UcsIter.next (MapImpl.ideal 0) D go)
    usizeMax_pos hw (consistent_zero (D := D) (orig := orig) hw) (fun ds q n h => PosTy.mem_allPositions.2 (hG ds q n h)) (fun s hs => UcsIter.next_none hs)
    (fun s e rest hp hlt hm => UcsIter.next_eq hw D hp (hno.room (isMinCost_nonneg hw hm) hlt hm)) n
  have hrel : Out.Rel (fun a b => a.1 = b.1 ∧ UcsIter.Rel T R a.2 b.2) (do let it ← UcsIter.new C orig; yields (UcsIter.next C D go) n it)
      (.ok (ys, s'.ucs)) := by
    rw [← h1, show yields (UcsIter.next (MapImpl.ideal 0) D go) n (BSt.init usizeMax orig).ucs =
      (UcsIter.new (MapImpl.ideal 0) orig >>= fun it => yields (UcsIter.next (MapImpl.ideal 0) D go) n it) from rfl]
    refine (UcsIter.rel_new hR ho).bind fun a b hab => ?_
    exact yields_rel (Q := UcsIter.Rel T R) (fun s t h => (UcsIter.rel_next hR hgo D h).mono fun a b h => ⟨h.1.1, h.2⟩) n a b hab
  revert hrel
  generalize (do let it ← UcsIter.new C orig; yields (UcsIter.next C D go) n it) = x
  intro hrel
  cases x with
  | ok x =>
    obtain ⟨items, st⟩ := x
    obtain ⟨e1, e2⟩ := hrel
    simp only at e1 e2
    subst e1
    refine ⟨items, st, rfl, fun m hm => ?_, fun before m after he hne u hu a b ha hb => ?_⟩
    · have hmin := h2 m.1 (List.mem_map.2 ⟨m, hm, rfl⟩)
      refine ⟨_, hmin, ?_⟩
      obtain ⟨⟨ds, hds⟩, -⟩ := hmin
      rw [hR.get e2.1 (hG _ _ _ hds)]
      rfl
    · have := h3 before m after he (fun h => h.elim) hne u.1 (.inr (List.mem_map.2 ⟨u, hu, rfl⟩)) a b ha hb
      simp only at this
      omega
  | panic => exact hrel.elim
  | ub => exact hrel.elim
  | timeout => exact hrel.elim

example : NoOverflow (stepCosts (PosTy.pos 2 2) [(1, 0)] swamp) true (0, 0) :=
  (stepCosts_below (PosTy.pos_searchable (by decide) (by decide) (.inl rfl)) _ _ (by decide) (B := 5) (by decide) (fun p d => (swamp_bounds p d).2) (by decide)).noOverflow
example : ∃ st, (do let it ← UcsIter.new (.hash 0) (0, 0)
                    yields (UcsIter.next (.hash 0) false (stepCosts (PosTy.pos 2 1) [(1, 0)] swamp)) 9 it) =
    .ok ([((0, 0), .N), ((0, 1), .N), ((1, 1), .W), ((2, 1), .W), ((2, 0), .S)], st) := ⟨_, rfl⟩

/-! ## C65 -/

/-- C65. The variants return the same on the same arguments. -/
theorem C65_agree [Target] (T : PosTy) (hT : T.Searchable) (ucs ucs') (hucs : Ucs.IsSearch T ucs) (hucs' : Ucs.IsSearch T ucs') (D : Bool)
    (go : Int × Int → Dir → Option ((Int × Int) × Int)) (hgo : StaysIn T (dropCost go)) (orig dest : Int × Int) (ho : InGrid T orig)
    (hd : InGrid T dest) (fuel : Nat) : ucs D go orig dest fuel = ucs' D go orig dest fuel := by
  rw [hucs.eq hT hgo ho hd, hucs'.eq hT hgo ho hd]

example : Ucs.pathGrid (PosTy.pos 2 1) 6 true (stepCosts (PosTy.pos 2 1) [(1, 0)] swamp) (0, 0) (2, 0) 200 = .ok (.ok [.SE, .NE]) := by decide +kernel

/-! ## C66 -/

/-- C66. For every movement function without overflow the search answers after at most `Ucs.steps T` calls to `next`, without panic. -/
theorem C66_no_panic [Target] (T : PosTy) (hT : T.Searchable) (ucs) (hucs : Ucs.IsSearch T ucs) (D : Bool)
    (go : Int × Int → Dir → Option ((Int × Int) × Int)) (hgo : StaysIn T (dropCost go)) (hc : UsizeCosts go) (orig dest : Int × Int) (ho : InGrid T orig)
    (hd : InGrid T dest) (hno : NoOverflow go D orig) (fuel : Nat) (hfuel : Ucs.steps T < (fuel : Int)) : ∃ r, ucs D go orig dest fuel = .ok r := by
  rw [hucs.eq hT hgo ho hd]
  exact Ucs.searchPath_total hT hgo hc.nonNeg hno ho hd fuel (Ucs.steps_nat hT.toIsGrid hfuel)

/-- C66. It is enough that the steps cost at most `B` and that `B` times the number of positions is below the limit. -/
theorem C66_small_steps [Target] (T : PosTy) (hT : T.Searchable) (ucs) (hucs : Ucs.IsSearch T ucs) (D : Bool)
    (go : Int × Int → Dir → Option ((Int × Int) × Int)) (hgo : StaysIn T (dropCost go)) (B : Int) (h0 : 0 ≤ B)
    (hB : ∀ p d q w, go p d = some (q, w) → 0 ≤ w ∧ w ≤ B) (hlim : B * (cols T * rows T) < limit) (orig dest : Int × Int) (ho : InGrid T orig)
    (hd : InGrid T dest) (fuel : Nat) (hfuel : Ucs.steps T < (fuel : Int)) : ∃ r, ucs D go orig dest fuel = .ok r := by
  rw [hucs.eq hT hgo ho hd]
  exact Ucs.searchPath_total hT hgo (fun p d q w h => (hB p d q w h).1)
    (belowLimit_of_small hgo ho h0 (fun p d q w h => (hB p d q w h).2) (by rw [hT.cells_eq]; exact hlim)).noOverflow ho hd fuel (Ucs.steps_nat hT.toIsGrid hfuel)

-- the condition is needed
example : Ucs.pathHash (PosTy.pos 2 1) false (stepCosts (PosTy.pos 2 1) [] fun _ _ => 9300000000000000000) (0, 0) (2, 0) 200 = .panic := by decide +kernel

/-! ## C67 -/

theorem unitCost_adjacent {T : PosTy} {go : GoFn} (h : Adjacent T go) : Adjacent T (dropCost (unitCost go)) := by rwa [dropCost_unitCost]

theorem unitCost_usize [Target] (go : GoFn) : UsizeCosts (unitCost go) := by
  intro p d q w h
  rw [unitCost_some] at h
  have := limit_pos
  omega

theorem unitCost_enter (go : GoFn) : EnterCost (unitCost go) := by
  intro u u' d d' q w w' h h'
  rw [unitCost_some] at h h'
  omega

theorem unitCost_below [Target] {T : PosTy} (hT : T.Searchable) {go : GoFn} {D : Bool} {orig : P2} (hgo : Adjacent T go) (ho : InGrid T orig) :
    BelowLimit (unitCost go) D orig := by
  refine belowLimit_of_small (T := T) (B := 1) (unitCost_adjacent hgo).staysIn ho (by decide) (fun p d q w h => ?_) ?_
  · rw [unitCost_some] at h
    omega
  · have h4 := hT.square
    have h6 := hT.room
    have hx := hT.xmax0
    have hy := hT.ymax0
    have h5 : ((T.nx * T.ny : Nat) : Int) = (T.X.MAX + 1) * (T.Y.MAX + 1) := by push_cast; rw [hT.nx_eq, hT.ny_eq]
    rw [h5, Int.one_mul]
    have := limit_pos
    by_cases h0 : T.X.MAX + T.Y.MAX = 0
    · have e1 : T.X.MAX = 0 := by omega
      have e2 : T.Y.MAX = 0 := by omega
      rw [e1, e2]
      omega
    · omega

/-- C67. With unit costs: if the destination is reachable the breadth-first and the uniform-cost search return paths of the same, least, length, and A* also
finds it (a path without diagonals; with diagonals a path or, by C57, `Loop`). If not, all three return `DestinationUnreachable`. -/
theorem C67_agree [Target] (T : PosTy) (hT : T.Searchable) (hwide : rows T ≤ cols T) (bfs) (hbfs : Bf.IsSearch T bfs) (astar) (hastar : Astar.IsSearch T astar)
    (ucs) (hucs : Ucs.IsSearch T ucs) (D : Bool) (go : Int × Int → Dir → Option (Int × Int)) (hgo : Adjacent T go) (orig dest : Int × Int)
    (ho : InGrid T orig) (hd : InGrid T dest) (hne : dest ≠ orig) (fuel : Nat) (hf1 : cols T * rows T < (fuel : Int))
    (hf2 : Astar.steps T < (fuel : Int)) (hf3 : Ucs.steps T < (fuel : Int)) :
    (Reachable go D orig dest ∧
      (∃ path path', bfs D go orig (fun p => p == dest) fuel = .ok (.ok (dest, path)) ∧ ucs D (unitCost go) orig dest fuel = .ok (.ok path') ∧
        path.length = path'.length ∧ IsDist go D orig dest path.length) ∧
      ((∃ path, astar D go orig dest fuel = .ok (.ok path)) ∨ (D = true ∧ astar D go orig dest fuel = .ok (.error .loop)))) ∨
    (¬ Reachable go D orig dest ∧ bfs D go orig (fun p => p == dest) fuel = .ok (.error .destinationUnreachable) ∧
      ucs D (unitCost go) orig dest fuel = .ok (.error .destinationUnreachable) ∧ astar D go orig dest fuel = .ok (.error .destinationUnreachable)) := by
  have hgo' := unitCost_adjacent hgo
  obtain ⟨b1, b2⟩ := C53_wide_partial T hT hwide bfs hbfs D go hgo orig ho (fun p => p == dest) (by simpa using fun h => hne h.symm) fuel hf1
  obtain ⟨u1, u2⟩ := C62_wide_partial T hT hwide ucs hucs D (unitCost go) hgo' (unitCost_usize go) orig dest ho hd (unitCost_below hT hgo ho) fuel hf3
  rw [dropCost_unitCost] at u1 u2
  obtain ⟨a1, a2⟩ := C57_unreachable_partial T hT astar hastar D go hgo orig dest ho hd fuel hf2
  have hex : (∃ q, (q == dest) = true ∧ Reachable go D orig q) ↔ Reachable go D orig dest := by
    constructor
    · rintro ⟨q, hq, h⟩
      rw [beq_iff_eq] at hq
      exact hq ▸ h
    · exact fun h => ⟨dest, by simp, h⟩
  by_cases hr : Reachable go D orig dest
  · refine .inl ⟨hr, ?_, ?_⟩
    · obtain ⟨dest', path, hb⟩ := b1 (hex.2 hr)
      obtain ⟨path', hu⟩ := u1 hr
      have hdest := (C51_valid_path T hT bfs hbfs D go hgo orig ho _ fuel dest' path hb).1
      rw [beq_iff_eq] at hdest
      subst hdest
      have hdist := (C52_shortest T hT bfs hbfs D go hgo orig ho _ fuel dest' path hb).1
      obtain ⟨n, h1, h2⟩ := C63_enter_cost_partial T hT ucs hucs D (unitCost go) hgo' (unitCost_usize go) (unitCost_enter go) orig dest'
        (.inr (unitCost_below hT hgo ho).noOverflow) ho hd fuel path' hu
      refine ⟨path, path', hb, hu, ?_, hdist⟩
      obtain ⟨k, h3, h4⟩ := isMinCost_unit.1 ⟨⟨path', h1⟩, h2⟩
      have h5 := (isCostPath_unit.1 h1).2
      have h6 := isDist_unique hdist h4
      omega
    · rcases a2.1 hr with h | h
      · exact .inl h
      · cases D with
        | true => exact .inr ⟨rfl, h⟩
        | false => exact .inl ((C57_wide_straight_partial T hT hwide astar hastar go hgo orig dest ho hd fuel hf2).1 hr)
  · exact .inr ⟨hr, b2 (fun h => hr (hex.1 h)), u2 hr, a1.2 hr⟩

example : Ucs.pathHash (PosTy.pos 2 1) false (unitCost (aroundWalls (PosTy.pos 2 1) [(1, 0)])) (0, 0) (2, 0) 200 = .ok (.ok [.S, .E, .E, .N]) ∧
    Bf.pathHash (PosTy.pos 2 1) false (aroundWalls (PosTy.pos 2 1) [(1, 0)]) (0, 0) (fun p => p == (2, 0)) 200 = .ok (.ok ((2, 0), [.S, .E, .E, .N])) ∧
    Astar.pathHash (PosTy.pos 2 1) false (aroundWalls (PosTy.pos 2 1) [(1, 0)]) (0, 0) (2, 0) 200 = .ok (.ok [.S, .E, .E, .N]) := by decide +kernel

end Sqrid
