import Verif.Props.Replan
import Verif.Props.Ucs
/-! C148 for the uniform-cost search with costs that depend on both ends of a step: calculating the path anew before each step may lead nowhere. -/

namespace Sqrid
open Spec

/-- `decide_target` without the attempt to do it for all targets at once. -/
local macro "decide_each" : tactic => `(tactic| (rename Target => t; obtain ⟨c, w⟩ := t; cases c <;> cases w <;> decide +kernel))

/-- A run of one variant that ends within 100 steps is that of all variants. -/
theorem Ucs.IsSearch.of_hash [Target] {T : PosTy} (hT : T.Searchable) {ucs} (hucs : Ucs.IsSearch T ucs) {D : Bool} {go : WGo} (hgo : Adjacent T (dropCost go)) {orig dest : P2}
    (ho : InGrid T orig) (hd : InGrid T dest) {r : Res (List Dir)} (h : Ucs.pathHash T D go orig dest 100 = .ok r) {fuel : Nat} (hfuel : 100 ≤ fuel) :
    ucs D go orig dest fuel = .ok r := by
  rw [C65_agree T hT ucs _ hucs (.inr (.inl rfl)) D go hgo.staysIn orig dest ho hd]
  exact (Ucs.searchPath_below T _ _ D go orig dest hfuel).ok h

theorem hills_adjacent (T : PosTy) (lines : List (List Int)) : Adjacent T (dropCost (hills T lines)) := stepCosts_adjacent _ _ _

/-- The landscape of `C148_ucs_never_arrives`, in a grid of 5 by 3. -/
def ridge : List (List Int) := [[1, 1, 0, 2, 1], [0, 1, 5, 0, 4], [1, 3, 4, 2, 5]]

theorem ridge_south [Target] : Ucs.pathHash (PosTy.pos 4 2) false (hills (PosTy.pos 4 2) ridge) (4, 1) (0, 1) 100 = .ok (.ok [.S, .W, .W, .W, .N, .W]) := by decide_each

theorem ridge_north [Target] : Ucs.pathHash (PosTy.pos 4 2) false (hills (PosTy.pos 4 2) ridge) (4, 2) (0, 1) 100 = .ok (.ok [.N, .W, .W, .W, .W]) := by decide_each

/-- C148. With costs that depend on both ends of a step, somebody who calls the uniform-cost search before each step may go back and forth for ever, although it finds a path
each time. In this landscape they are at (4, 1) after any even number of steps, and at (4, 2) after any odd one, and never arrive at (0, 1). -/
theorem C148_ucs_never_arrives [Target] (ucs) (hucs : Ucs.IsSearch (PosTy.pos 4 2) ucs) (fuel : Nat) (hfuel : Ucs.steps (PosTy.pos 4 2) < (fuel : Int)) :
    IsCostPath (hills (PosTy.pos 4 2) ridge) false (4, 1) [.S, .W, .W, .W, .N, .W] (0, 1) 16 ∧
    ∀ n, replan (fun p => ucs false (hills (PosTy.pos 4 2) ridge) p (0, 1) fuel) (dropCost (hills (PosTy.pos 4 2) ridge)) (4, 1) n =
      some (if n % 2 = 0 then (4, 1) else (4, 2)) := by
  have hT : (PosTy.pos 4 2).Searchable := PosTy.pos_searchable (by decide) (by decide) (.inr (by decide))
  have hg := hills_adjacent (PosTy.pos 4 2) ridge
  have hf : 100 ≤ fuel := by
    have : Ucs.steps (PosTy.pos 4 2) = 121 := by decide_target
    omega
  have h1 := hucs.of_hash hT hg (by decide_target) (by decide_target) ridge_south hf
  have h2 := hucs.of_hash hT hg (by decide_target) (by decide_target) ridge_north hf
  refine ⟨⟨⟨by unfold Allowed; decide, by decide⟩, by decide⟩, fun n => ?_⟩
  induction n with
  | zero => rfl
  | succ n ih =>
    rw [replan, ih]
    rcases Nat.mod_two_eq_zero_or_one n with hn | hn
    · rw [if_pos hn, if_neg (by omega)]
      simp only [h1]
      decide
    · rw [if_neg (by omega), if_pos (by omega)]
      simp only [h2]
      decide

/-- The hash collections meet the hypotheses, with 200 steps allowed. -/
example [Target] : replan (fun p => Ucs.pathHash (PosTy.pos 4 2) false (hills (PosTy.pos 4 2) ridge) p (0, 1) 200) (dropCost (hills (PosTy.pos 4 2) ridge)) (4, 1) 1001 = some (4, 2) :=
  (C148_ucs_never_arrives _ (.inr (.inl rfl)) 200 (by decide_target)).2 1001

/-- The landscape of `C148_ucs_never_arrives_diagonals`, in a grid of 6 by 3. -/
def ridge' : List (List Int) := [[3, 7, 1, 0, 2, 0], [5, 4, 4, 6, 4, 2], [7, 6, 7, 1, 1, 8]]

theorem ridge'_north [Target] : Ucs.pathHash (PosTy.pos 5 2) true (hills (PosTy.pos 5 2) ridge') (5, 1) (0, 2) 100 = .ok (.ok [.NW, .W, .W, .SW, .SW]) := by decide_each

theorem ridge'_south [Target] : Ucs.pathHash (PosTy.pos 5 2) true (hills (PosTy.pos 5 2) ridge') (4, 0) (0, 2) 100 = .ok (.ok [.SE, .SW, .W, .W, .W, .W]) := by decide_each

/-- C148. The same with diagonals, in another landscape: they go back and forth between (5, 1) and (4, 0), and never arrive at (0, 2). -/
theorem C148_ucs_never_arrives_diagonals [Target] (ucs) (hucs : Ucs.IsSearch (PosTy.pos 5 2) ucs) (fuel : Nat) (hfuel : Ucs.steps (PosTy.pos 5 2) < (fuel : Int)) :
    IsCostPath (hills (PosTy.pos 5 2) ridge') true (5, 1) [.NW, .W, .W, .SW, .SW] (0, 2) 14 ∧
    ∀ n, replan (fun p => ucs true (hills (PosTy.pos 5 2) ridge') p (0, 2) fuel) (dropCost (hills (PosTy.pos 5 2) ridge')) (5, 1) n =
      some (if n % 2 = 0 then (5, 1) else (4, 0)) := by
  have hT : (PosTy.pos 5 2).Searchable := PosTy.pos_searchable (by decide) (by decide) (.inr (by decide))
  have hg := hills_adjacent (PosTy.pos 5 2) ridge'
  have hf : 100 ≤ fuel := by
    have : Ucs.steps (PosTy.pos 5 2) = 145 := by decide_target
    omega
  have h1 := hucs.of_hash hT hg (by decide_target) (by decide_target) ridge'_north hf
  have h2 := hucs.of_hash hT hg (by decide_target) (by decide_target) ridge'_south hf
  refine ⟨⟨⟨fun d _ => .inl rfl, by decide⟩, by decide⟩, fun n => ?_⟩
  induction n with
  | zero => rfl
  | succ n ih =>
    rw [replan, ih]
    rcases Nat.mod_two_eq_zero_or_one n with hn | hn
    · rw [if_pos hn, if_neg (by omega)]
      simp only [h1]
      decide
    · rw [if_neg (by omega), if_pos (by omega)]
      simp only [h2]
      decide

/-- The hash collections meet the hypotheses, with 200 steps allowed. -/
example [Target] : replan (fun p => Ucs.pathHash (PosTy.pos 5 2) true (hills (PosTy.pos 5 2) ridge') p (0, 2) 200) (dropCost (hills (PosTy.pos 5 2) ridge')) (5, 1) 1001 = some (4, 0) :=
  (C148_ucs_never_arrives_diagonals _ (.inr (.inl rfl)) 200 (by decide_target)).2 1001

end Sqrid
