import Verif.Props.Replan
import Verif.Props.Astar
/-! C146, C147 and C148 for A*: what holds of the paths of the breadth-first and uniform-cost searches does not hold of those of A*. -/

namespace Sqrid
open Spec

/-- `decide_target` without the attempt to do it for all targets at once. -/
local macro "decide_each" : tactic => `(tactic| (rename Target => t; obtain ⟨c, w⟩ := t; cases c <;> cases w <;> decide +kernel))

/-- A run of one variant that ends within 1000 steps is that of all variants. -/
theorem Astar.IsSearch.of_hash [Target] {T : PosTy} (hT : T.Searchable) {astar} (hastar : Astar.IsSearch T astar) {D : Bool} {go : GoFn} (hgo : Adjacent T go) {orig dest : P2}
    (ho : InGrid T orig) (hd : InGrid T dest) {r : Res (List Dir)} (h : Astar.pathHash T D go orig dest 1000 = .ok r) {fuel : Nat} (hfuel : 1000 ≤ fuel) :
    astar D go orig dest fuel = .ok r := by
  rw [C59_agree T hT astar _ hastar (.inr (.inl rfl)) D go hgo.staysIn orig dest ho hd]
  exact (Astar.searchPath_below T _ _ D go orig dest hfuel).ok h

/-- C146, for A*: the rest of a returned path is what the search returns from there. -/
def C146_astar_rest_claim [Target] (T : PosTy) (D : Bool) : Prop :=
  ∀ astar, Astar.IsSearch T astar → ∀ (go : Int × Int → Dir → Option (Int × Int)), Adjacent T go → ∀ orig dest, InGrid T orig → InGrid T dest →
    ∀ fuel : Nat, Astar.steps T < (fuel : Int) → ∀ as bs, astar D go orig dest fuel = .ok (.ok (as ++ bs)) → ∀ q, follow go orig as = some q →
    astar D go q dest fuel = .ok (.ok bs)

/-- C146 does not hold for A* without diagonals: one step along the path it returns a different path. -/
theorem C146_astar_rest_fails [Target] : ¬ C146_astar_rest_claim (PosTy.pos 7 2) false := by
  intro h
  have h1 := h (Astar.pathHash (PosTy.pos 7 2)) (.inr (.inl rfl)) (aroundWalls (PosTy.pos 7 2) [(1, 1), (2, 2), (3, 0), (5, 1), (6, 1)])
    (aroundWalls_adjacent _ _) (7, 0) (0, 2) (by decide_target) (by decide_target) 1500 (by decide_target)
    [.S] [.S, .W, .W, .W, .N, .W, .W, .N, .W, .W, .S, .S] (by decide_each) (7, 1) (by decide_target)
  exact absurd h1 (by decide_each)

/-- C146 does not hold for A* with diagonals: two steps shorter, one step along the path. -/
theorem C146_astar_rest_fails_diagonals [Target] : ¬ C146_astar_rest_claim (PosTy.pos 5 3) true := by
  intro h
  have h1 := h (Astar.pathHash (PosTy.pos 5 3)) (.inr (.inl rfl)) (aroundWalls (PosTy.pos 5 3) [(1, 1), (1, 2), (2, 1), (2, 2), (4, 0), (4, 2), (5, 0)])
    (aroundWalls_adjacent _ _) (5, 3) (0, 1) (by decide_target) (by decide_target) 1500 (by decide_target)
    [.N] [.NW, .SW, .SW, .W, .NW, .N] (by decide_each) (5, 2) (by decide_target)
  exact absurd h1 (by decide_each)

/-- C146, for A*: the start of a returned path is what the search returns to there. -/
def C146_astar_start_claim [Target] (T : PosTy) (D : Bool) : Prop :=
  ∀ astar, Astar.IsSearch T astar → ∀ (go : Int × Int → Dir → Option (Int × Int)), Adjacent T go → ∀ orig dest, InGrid T orig → InGrid T dest →
    ∀ fuel : Nat, Astar.steps T < (fuel : Int) → ∀ as bs, astar D go orig dest fuel = .ok (.ok (as ++ bs)) → ∀ q, follow go orig as = some q →
    astar D go orig q fuel = .ok (.ok as)

/-- C146 does not hold for A* without diagonals: to a position on the path it goes in another way. -/
theorem C146_astar_start_fails [Target] : ¬ C146_astar_start_claim (PosTy.pos 3 1) false := by
  intro h
  have h1 := h (Astar.pathHash (PosTy.pos 3 1)) (.inr (.inl rfl)) (aroundWalls (PosTy.pos 3 1) [(1, 0)])
    (aroundWalls_adjacent _ _) (3, 0) (0, 0) (by decide_target) (by decide_target) 1500 (by decide_target)
    [.W, .S] [.W, .W, .N] (by decide_each) (2, 1) (by decide_target)
  exact absurd h1 (by decide_each)

/-- C146 does not hold for A* with diagonals: the same. -/
theorem C146_astar_start_fails_diagonals [Target] : ¬ C146_astar_start_claim (PosTy.pos 3 1) true := by
  intro h
  have h1 := h (Astar.pathHash (PosTy.pos 3 1)) (.inr (.inl rfl)) (aroundWalls (PosTy.pos 3 1) [(1, 0)])
    (aroundWalls_adjacent _ _) (3, 0) (0, 0) (by decide_target) (by decide_target) 1500 (by decide_target)
    [.W, .SW] [.NW] (by decide_each) (1, 1) (by decide_target)
  exact absurd h1 (by decide_each)

/-- C147, for A*: closing steps that are not on the returned path does not change it. -/
def C147_astar_claim [Target] (T : PosTy) (D : Bool) : Prop :=
  ∀ astar, Astar.IsSearch T astar → ∀ (go go' : Int × Int → Dir → Option (Int × Int)), Adjacent T go → Adjacent T go' → Closes go go' →
    ∀ orig dest, InGrid T orig → InGrid T dest → ∀ fuel : Nat, Astar.steps T < (fuel : Int) →
    ∀ path, astar D go orig dest fuel = .ok (.ok path) → follow go' orig path = some dest → astar D go' orig dest fuel = .ok (.ok path)

/-- C147 does not hold for A* without diagonals: with the position (4, 0) closed, which is not on the path, it returns a different path. -/
theorem C147_astar_fails [Target] : ¬ C147_astar_claim (PosTy.pos 7 2) false := by
  intro h
  have h1 := h (Astar.pathHash (PosTy.pos 7 2)) (.inr (.inl rfl)) (aroundWalls (PosTy.pos 7 2) [(1, 1), (2, 2), (3, 0), (5, 1), (6, 1)])
    (aroundWalls (PosTy.pos 7 2) [(4, 0), (1, 1), (2, 2), (3, 0), (5, 1), (6, 1)]) (aroundWalls_adjacent _ _) (aroundWalls_adjacent _ _) (aroundWalls_closes _ _ _)
    (7, 0) (0, 2) (by decide_target) (by decide_target) 1500 (by decide_target)
    [.S, .S, .W, .W, .W, .N, .W, .W, .N, .W, .W, .S, .S] (by decide_each) (by decide_target)
  exact absurd h1 (by decide_each)

/-- C147 does not hold for A* with diagonals: with the position (3, 1) closed, which is not on the path of six steps, it returns a path of five. -/
theorem C147_astar_fails_diagonals [Target] : ¬ C147_astar_claim (PosTy.pos 4 3) true := by
  intro h
  have h1 := h (Astar.pathHash (PosTy.pos 4 3)) (.inr (.inl rfl)) (aroundWalls (PosTy.pos 4 3) [(0, 1), (1, 2), (1, 3), (3, 2), (4, 0)])
    (aroundWalls (PosTy.pos 4 3) [(3, 1), (0, 1), (1, 2), (1, 3), (3, 2), (4, 0)]) (aroundWalls_adjacent _ _) (aroundWalls_adjacent _ _) (aroundWalls_closes _ _ _)
    (4, 1) (0, 3) (by decide_target) (by decide_target) 1500 (by decide_target)
    [.S, .SW, .NW, .NW, .SW, .S] (by decide_each) (by decide_target)
  exact absurd h1 (by decide_each)

/-- C148, for A*: somebody who calls it before each step arrives in as many steps as the first returned path has. -/
def C148_astar_claim [Target] (T : PosTy) (D : Bool) : Prop :=
  ∀ astar, Astar.IsSearch T astar → ∀ (go : Int × Int → Dir → Option (Int × Int)), Adjacent T go → ∀ orig dest, InGrid T orig → InGrid T dest →
    ∀ fuel : Nat, Astar.steps T < (fuel : Int) → ∀ path, astar D go orig dest fuel = .ok (.ok path) →
    replan (fun p => astar D go p dest fuel) go orig path.length = some dest

/-- C148 does not hold for A* without diagonals: the first path has fourteen steps, and after fourteen steps they are not there yet. -/
theorem C148_astar_fails [Target] : ¬ C148_astar_claim (PosTy.pos 7 4) false := by
  intro h
  have h1 := h (Astar.pathHash (PosTy.pos 7 4)) (.inr (.inl rfl))
    (aroundWalls (PosTy.pos 7 4) [(0, 0), (4, 0), (6, 1), (4, 2), (1, 3), (4, 3), (2, 4)])
    (aroundWalls_adjacent _ _) (7, 0) (1, 4) (by decide_target) (by decide_target) 4000 (by decide_target)
    [.S, .S, .W, .W, .N, .W, .W, .S, .W, .W, .W, .S, .S, .E] (by decide_each)
  exact absurd h1 (by decide_each)

/-- The walls of `C148_astar_never_arrives`, in a grid of 8 by 5. -/
def swing : Int × Int → Dir → Option (Int × Int) := aroundWalls (PosTy.pos 7 4) [(1, 1), (1, 2), (2, 0), (2, 1), (3, 2), (5, 1), (5, 2), (5, 3), (6, 1)]

theorem swing_south [Target] : Astar.pathHash (PosTy.pos 7 4) true swing (6, 2) (1, 0) 1000 = .ok (.ok [.S, .SW, .NW, .W, .NW, .SW, .NW, .N, .NE]) := by
  unfold swing; decide_each

theorem swing_north [Target] : Astar.pathHash (PosTy.pos 7 4) true swing (6, 3) (1, 0) 1000 = .ok (.ok [.N, .NE, .NW, .W, .W, .SW, .SW, .SW, .NW, .N, .NE]) := by
  unfold swing; decide_each

/-- C148. With diagonals, somebody who calls A* before each step may go back and forth for ever, although A* does find a path each time: they are at (6, 2) after any even
number of steps, and at (6, 3) after any odd one, and never arrive at (1, 0). -/
theorem C148_astar_never_arrives [Target] (astar) (hastar : Astar.IsSearch (PosTy.pos 7 4) astar) (fuel : Nat) (hfuel : Astar.steps (PosTy.pos 7 4) < (fuel : Int)) :
    IsPath swing true (6, 2) [.S, .SW, .NW, .W, .NW, .SW, .NW, .N, .NE] (1, 0) ∧
    ∀ n, replan (fun p => astar true swing p (1, 0) fuel) swing (6, 2) n = some (if n % 2 = 0 then (6, 2) else (6, 3)) := by
  have hT : (PosTy.pos 7 4).Searchable := PosTy.pos_searchable (by decide) (by decide) (.inr (by decide))
  have hg : Adjacent (PosTy.pos 7 4) swing := aroundWalls_adjacent _ _
  have hf : 1000 ≤ fuel := by
    have : Astar.steps (PosTy.pos 7 4) = 3521 := by decide_target
    omega
  have h1 := hastar.of_hash hT hg (by decide_target) (by decide_target) swing_south hf
  have h2 := hastar.of_hash hT hg (by decide_target) (by decide_target) swing_north hf
  refine ⟨⟨fun d _ => .inl rfl, by decide⟩, fun n => ?_⟩
  induction n with
  | zero => rfl
  | succ n ih =>
    rw [replan, ih]
    rcases Nat.mod_two_eq_zero_or_one n with hn | hn
    · rw [if_pos hn, if_neg (by omega)]
      simp only [h1]
      decide
    · rw [if_neg (by omega), if_pos (by omega)]
      simp only [h2]
      decide

end Sqrid
