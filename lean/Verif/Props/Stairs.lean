import Verif.Props.Greedy
/-!
# A family of grids on which A* with diagonals takes nearly twice as many steps as needed: C139

The origin is in a corner. A staircase leads from the cell to the south of it straight to the destination, diagonally. The other way goes along the edge of the grid, and
then down. The Manhattan distance does not foresee that the steps on the staircase count twice.

```text
...##        n = 5: `.` can be entered, `#` cannot. The origin is in the north west, the destination in the south east.
.###.
#.##.
##.#.
###..
####.
```
-/

namespace Sqrid

-- Statements that do not mention a target are about a debug build for a 64-bit machine.
attribute [local instance] debug64

open Spec

/-- The positions that are not walls. -/
def StairsOpen (n : Int) (q : Int × Int) : Prop :=
  (q.2 = 0 ∧ 0 ≤ q.1 ∧ q.1 ≤ n - 2) ∨ (q.1 = n - 1 ∧ 1 ≤ q.2 ∧ q.2 ≤ n) ∨ (q.2 = q.1 + 1 ∧ 0 ≤ q.1 ∧ q.1 ≤ n - 2)

instance (n : Int) (q : Int × Int) : Decidable (StairsOpen n q) := by unfold StairsOpen; infer_instance

/-- The grid. -/
def stairsTy (n : Int) : PosTy := PosTy.pos n n

/-- The walls. -/
def stairsWalls (n : Int) : List (Int × Int) := (allPositions (stairsTy n) true).filter fun q => ¬ StairsOpen n q

/-- The path that A* returns. -/
def stairsPath (n : Nat) : List Dir := List.replicate (n - 2) .E ++ .SE :: List.replicate (n - 1) .S

/-- A shortest path. -/
def stairsShort (n : Nat) : List Dir := .S :: List.replicate (n - 1) .SE

theorem stairs_inGrid (n : Int) (q : P2) : InGrid (stairsTy n) q ↔ 0 ≤ q.1 ∧ q.1 ≤ n ∧ 0 ≤ q.2 ∧ q.2 ≤ n := and_assoc

/-- The movement function: around the walls. -/
abbrev stairsGo (n : Int) : GoFn := aroundWalls (stairsTy n) (stairsWalls n)

theorem stairsGo_some {n : Int} (hn : 2 ≤ n) {p q : P2} {d : Dir} : stairsGo n p d = some q ↔ q = neighbour p d ∧ StairsOpen n q := by
  have hw : ∀ q : P2, q ∉ stairsWalls n ↔ (InGrid (stairsTy n) q → StairsOpen n q) := by
    intro q
    simp only [stairsWalls, List.mem_filter, PosTy.mem_allPositions, decide_not, Bool.not_eq_true', decide_eq_false_iff_not, not_and, not_not]
    exact Iff.rfl
  unfold stairsGo aroundWalls
  split
  · rename_i h
    rw [hw] at h
    constructor
    · intro e
      injection e with e
      subst e
      exact ⟨rfl, h.2 h.1⟩
    · rintro ⟨rfl, -⟩
      rfl
  · rename_i h
    constructor
    · intro e; cases e
    · rintro ⟨rfl, h1⟩
      refine absurd ⟨(stairs_inGrid _ _).2 ?_, (hw _).2 fun _ => h1⟩ h
      unfold StairsOpen at h1
      omega

/-- The position on the path after a number of steps. -/
def stairsAt (n : Nat) (i : Nat) : P2 := if i ≤ n - 2 then (i, 0) else (n - 1, i - (n - 2))

theorem stairs_next {n : Nat} (hn : 2 ≤ n) {i : Nat} (hi : i < 2 * n - 2) :
    ∃ d, (stairsPath n)[i]? = some d ∧ stairsGo n (stairsAt n i) d = some (stairsAt n (i + 1)) ∧ (d = if i < n - 2 then Dir.E else if i = n - 2 then .SE else .S) := by
  refine ⟨_, ?_, ?_, rfl⟩
  · unfold stairsPath
    split
    · rw [List.getElem?_append_left (by simp; omega), List.getElem?_replicate, if_pos (by omega)]
    · rw [List.getElem?_append_right (by simp; omega)]
      split
      · subst i
        simp
      · rw [List.length_replicate, show i - (n - 2) = (i - (n - 1)) + 1 by omega, List.getElem?_cons_succ,
          List.getElem?_replicate, if_pos (by omega)]
  · refine (stairsGo_some (by omega)).2 ?_
    unfold stairsAt
    split_ifs <;> first | (exfalso; omega) | skip
    all_goals
      refine ⟨Prod.ext ?_ ?_, ?_⟩ <;> simp only [neighbour, unit, StairsOpen, true_and] <;> omega

theorem stairs_follow {n : Nat} (hn : 2 ≤ n) : ∀ i, i ≤ 2 * n - 2 → follow (stairsGo n) (0, 0) ((stairsPath n).take i) = some (stairsAt n i) := by
  intro i
  induction i with
  | zero => intro _; simp [follow, stairsAt]
  | succ i ih =>
    intro hi
    obtain ⟨d, h1, h2, -⟩ := stairs_next hn (i := i) (by omega)
    rw [List.take_add_one, h1, follow_append, ih (by omega)]
    simp [follow, h2]

theorem stairs_length {n : Nat} (hn : 2 ≤ n) : (stairsPath n).length = 2 * n - 2 := by
  simp [stairsPath]; omega

theorem stairs_short {n : Nat} (hn : 2 ≤ n) : IsPath (stairsGo n) true (0, 0) (stairsShort n) (n - 1, n) := by
  refine ⟨fun d _ => .inl rfl, ?_⟩
  have key : ∀ k : Nat, k ≤ n - 1 → follow (stairsGo n) (0, 0) (.S :: List.replicate k .SE) = some ((k : Int), (k : Int) + 1) := by
    intro k
    induction k with
    | zero =>
      intro _
      have : stairsGo n (0, 0) .S = some (0, 1) := (stairsGo_some (by omega)).2 ⟨rfl, by simp only [StairsOpen]; omega⟩
      simp [follow, this]
    | succ k ih =>
      intro hk
      rw [List.replicate_succ', ← List.cons_append, follow_append, ih (by omega)]
      have : stairsGo n ((k : Int), (k : Int) + 1) .SE = some ((k : Int) + 1, (k : Int) + 1 + 1) := (stairsGo_some (by omega)).2
        ⟨by simp [neighbour, unit], by simp only [StairsOpen, true_and]; omega⟩
      simp [follow, this]
  rw [stairsShort, key (n - 1) (Nat.le_refl _), Option.some.injEq, Prod.mk.injEq]
  omega

/-- C139, C58. With diagonals, A* can return a path with nearly twice as many steps as needed, also around walls: with the staircase it returns a path of `2 * n - 2`
steps, where the shortest one has `n` steps. -/
theorem C139_astar_stairs [Target] (n : Nat) (hn : 2 ≤ n) (hT : (stairsTy n).Searchable) (astar) (hastar : Astar.IsSearch (stairsTy n) astar) (fuel : Nat)
    (hfuel : 2 * n - 2 < fuel) :
    astar true (aroundWalls (stairsTy n) (stairsWalls n)) (0, 0) (n - 1, n) fuel = .ok (.ok (stairsPath n)) ∧ (stairsPath n).length = 2 * n - 2 ∧
    IsDist (aroundWalls (stairsTy n) (stairsWalls n)) true (0, 0) (n - 1, n) n := by
  have hgo : Adjacent (stairsTy n) (stairsGo n) := aroundWalls_adjacent _ _
  have hlen := stairs_length hn
  have ho : InGrid (stairsTy n) (0, 0) := (stairs_inGrid _ _).2 (by simp only; omega)
  have hd : InGrid (stairsTy n) ((n : Int) - 1, (n : Int)) := (stairs_inGrid _ _).2 (by simp only; omega)
  refine ⟨?_, hlen, ⟨_, stairs_short hn, by simp [stairsShort]; omega⟩, fun ds hds => ?_⟩
  · refine (C139_astar (stairsTy n) hT astar hastar true (stairsGo n) hgo (0, 0) (n - 1, n) ho hd (stairsPath n) ⟨fun d _ => .inl rfl, ?_⟩ ?_ ?_ fuel (by omega)).1 ?_
    · have := stairs_follow hn (2 * n - 2) (Nat.le_refl _)
      rw [← hlen, List.take_length] at this
      rw [this, hlen]
      unfold stairsAt
      rw [Option.some.injEq]
      split_ifs <;> refine Prod.ext ?_ ?_ <;> simp only <;> omega
    · intro i j hi hj he
      rw [stairs_follow hn i (by omega), stairs_follow hn j (by omega)] at he
      injection he with he
      unfold stairsAt at he
      split_ifs at he <;> simp only [Prod.mk.injEq] at he <;> omega
    · intro i j p q d r hji hi hp hq _ hnext hr hback
      rw [stairs_follow hn i (by omega)] at hp
      rw [stairs_follow hn j (by omega)] at hq
      injection hp with hp
      injection hq with hq
      subst hp hq
      obtain ⟨hr1, hr2⟩ := (stairsGo_some (by omega)).1 hr
      obtain ⟨d0, h1, -, h2⟩ := stairs_next hn (i := j) (by omega)
      rw [h1] at hnext
      have hd0 : d ≠ d0 := fun h => hnext (by rw [h])
      have hb : j ≠ 0 → r ≠ stairsAt n (j - 1) := fun hj e => hback (j - 1) (by omega) (by rw [stairs_follow hn _ (by omega), e])
      subst hr1
      have hb' : j ≠ 0 → (neighbour (stairsAt n j) d).1 ≠ (stairsAt n (j - 1)).1 ∨ (neighbour (stairsAt n j) d).2 ≠ (stairsAt n (j - 1)).2 := by
        intro hj
        by_contra hno
        exact hb hj (Prod.ext (by omega) (by omega))
      subst h2
      clear hnext h1 hb hback hr hfuel hastar hT ho hd hgo
      unfold stairsAt at *
      unfold StairsOpen at hr2
      simp only [l1]
      split_ifs at * <;> first | (exfalso; omega) | skip
      all_goals
        cases d <;> simp only [neighbour, unit, ne_eq, not_true_eq_false] at * <;> omega
    · have : cols (stairsTy n) = n + 1 := rfl
      rw [this, hlen]
      have : (n : Int) * n + 2 * n ≤ (n + 1) * (n + 1) := by ring_nf; omega
      have : 0 ≤ (n : Int) * n := Int.mul_nonneg (by omega) (by omega)
      omega
  · have := linf_le_path hgo ho hds
    unfold linf at this
    simp only at this
    omega

example : (stairsTy 2000).Searchable := PosTy.pos_searchable (by decide) (by decide) (.inl rfl)
example : Astar.pathHash (stairsTy 5) true (aroundWalls (stairsTy 5) (stairsWalls 5)) (0, 0) (4, 5) 9 = .ok (.ok [.E, .E, .E, .SE, .S, .S, .S, .S]) := by decide +kernel

end Sqrid
