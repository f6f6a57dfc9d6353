import Verif.Props.Detour
import Verif.Spec.Cheaper
/-!
# C127: cheaper steps and more steps
-/

namespace Sqrid

open Spec

attribute [local instance] debug64

/-- The same path, with costs that are not higher. -/
theorem Spec.NotDearer.path {go go' : WGo} (h : NotDearer go' go) {D D' : Bool} (hD : D = true → D' = true) {ds : List Dir} {p q : P2} {n : Int}
    (hp : IsCostPath go D p ds q n) : ∃ n', IsCostPath go' D' p ds q n' ∧ n' ≤ n := by
  obtain ⟨⟨h1, h2⟩, h3⟩ := hp
  have h1' : ∀ d ∈ ds, Allowed D' d := fun d hd => by
    rcases h1 d hd with h | h
    · exact .inl (hD h)
    · exact .inr h
  suffices hs : ∃ n', follow (dropCost go') p ds = some q ∧ pathCost go' p ds = some n' ∧ n' ≤ n by
    obtain ⟨n', a, b, c⟩ := hs
    exact ⟨n', ⟨⟨h1', a⟩, b⟩, c⟩
  clear h1 h1'
  induction ds generalizing p n with
  | nil =>
    simp only [pathCost, Option.some.injEq] at h3
    subst h3
    exact ⟨0, h2, rfl, le_refl _⟩
  | cons d ds ih =>
    cases hg : go p d with
    | none => rw [pathCost, hg] at h3; cases h3
    | some qw =>
      obtain ⟨r, w⟩ := qw
      obtain ⟨w', hg', hw⟩ := h p d r w hg
      have e : dropCost go p d = some r := by rw [dropCost, hg]; rfl
      have e' : dropCost go' p d = some r := by rw [dropCost, hg']; rfl
      simp only [follow, e] at h2
      simp only [pathCost, hg] at h3
      obtain ⟨c, hc, rfl⟩ := Option.map_eq_some_iff.1 h3
      obtain ⟨n', k1, k2, k3⟩ := ih hc h2
      refine ⟨w' + n', ?_, ?_, by omega⟩
      · simp only [follow, e']; exact k1
      · simp only [pathCost, hg', k2]; rfl

/-- C127. When steps get cheaper or are added, or diagonals are allowed, and the cost of a step depends (after the change) only on the position it leads
to, then `ucs_path` still finds a path if it did before, unless it reports `Loop`, and the path does not cost more than the one before. -/
theorem C127_ucs_enter [Target] (T : PosTy) (hT : T.Searchable) (ucs) (hucs : Ucs.IsSearch T ucs) (D D' : Bool) (hD : D = true → D' = true)
    (go go' : Int × Int → Dir → Option ((Int × Int) × Int)) (hgo : Adjacent T (dropCost go)) (hgo' : Adjacent T (dropCost go')) (hcost' : UsizeCosts go')
    (henter : EnterCost go') (hcheap : NotDearer go' go) (orig dest : Int × Int) (ho : InGrid T orig) (hd : InGrid T dest) (hbelow : BelowLimit go' D' orig)
    (fuel fuel' : Nat) (hfuel : Ucs.steps T < (fuel' : Int)) (path : List Dir) (h : ucs D go orig dest fuel = .ok (.ok path)) :
    (∃ path' n n', ucs D' go' orig dest fuel' = .ok (.ok path') ∧ IsCostPath go D orig path dest n ∧ IsCostPath go' D' orig path' dest n' ∧ n' ≤ n) ∨
    ucs D' go' orig dest fuel' = .ok (.error .loop) := by
  have hp := C61_valid_path T hT ucs hucs D _ hgo orig dest ho hd fuel path h
  obtain ⟨n, hn⟩ := isPath_cost hp
  obtain ⟨m, hm, hmn⟩ := hcheap.path hD hn
  rcases (C62_unreachable_partial T hT ucs hucs D' go' hgo' hcost' orig dest ho hd hbelow fuel' hfuel).2.1 ⟨_, hm.1⟩ with ⟨path', h'⟩ | h'
  · obtain ⟨n', k1, k2⟩ := C63_enter_cost_partial T hT ucs hucs D' go' hgo' hcost' henter orig dest (.inr hbelow.noOverflow) ho hd fuel' path' h'
    exact .inl ⟨path', n, n', h', hn, k1, (k2 _ _ hm).trans hmn⟩
  · exact .inr h'

/-- `badCosts` with one step made dearer. -/
def dearCosts : Int × Int → Dir → Int
  | (1, 0), .S => 50
  | p, d => badCosts p d

/-- C127. With other costs a cheaper step can make the path found dearer: one step costs 5 instead of 50, and `ucs_path` finds a path of cost 12 instead
of one of cost 10. -/
theorem C127_ucs_dearer [Target] :
    NotDearer (stepCosts (PosTy.pos 2 1) [] badCosts) (stepCosts (PosTy.pos 2 1) [] dearCosts) ∧
    Ucs.pathHash (PosTy.pos 2 1) false (stepCosts (PosTy.pos 2 1) [] dearCosts) (0, 0) (2, 1) 100 = .ok (.ok [.S, .E, .E]) ∧
    pathCost (stepCosts (PosTy.pos 2 1) [] dearCosts) (0, 0) [.S, .E, .E] = some 10 ∧
    Ucs.pathHash (PosTy.pos 2 1) false (stepCosts (PosTy.pos 2 1) [] badCosts) (0, 0) (2, 1) 100 = .ok (.ok [.E, .S, .E]) ∧
    pathCost (stepCosts (PosTy.pos 2 1) [] badCosts) (0, 0) [.E, .S, .E] = some 12 := by
  refine ⟨?_, by decide_target⟩
  intro p d q w h
  obtain ⟨r, hr, h1⟩ := Option.map_eq_some_iff.1 h
  injection h1 with h1 h2
  subst h1 h2
  refine ⟨badCosts p d, by rw [stepCosts, hr]; rfl, ?_⟩
  unfold dearCosts
  split
  · decide
  · exact le_refl _

/-- C127. With A* more movements can make the path longer: without the wall at (4, 1) `astar_path` finds ten steps instead of eight. -/
theorem C127_astar_longer [Target] :
    Extends (aroundWalls (PosTy.pos 4 3) [(2, 3), (1, 0), (1, 2), (3, 1)]) (aroundWalls (PosTy.pos 4 3) [(4, 1), (2, 3), (1, 0), (1, 2), (3, 1)]) ∧
    Astar.pathHash (PosTy.pos 4 3) false (aroundWalls (PosTy.pos 4 3) [(4, 1), (2, 3), (1, 0), (1, 2), (3, 1)]) (4, 0) (1, 3) 200 =
      .ok (.ok [.W, .W, .S, .W, .W, .S, .S, .E]) ∧
    Astar.pathHash (PosTy.pos 4 3) false (aroundWalls (PosTy.pos 4 3) [(2, 3), (1, 0), (1, 2), (3, 1)]) (4, 0) (1, 3) 200 =
      .ok (.ok [.S, .S, .W, .W, .N, .W, .W, .S, .S, .E]) := by
  refine ⟨?_, by decide_target⟩
  intro p d q h
  unfold aroundWalls at h ⊢
  split at h
  · rename_i hc
    rw [if_pos ⟨hc.1, fun hm => hc.2 (List.mem_cons_of_mem _ hm)⟩]
    exact h
  · cases h

-- a case of `C127_ucs_enter`: the swamp is drained, and the way through it is found
example : NotDearer (unitCost (aroundWalls (PosTy.pos 2 2) [(1, 1)])) (stepCosts (PosTy.pos 2 2) [(1, 1)] swamp) ∧
    Ucs.pathHash (PosTy.pos 2 2) false (stepCosts (PosTy.pos 2 2) [(1, 1)] swamp) (0, 0) (2, 0) 900 = .ok (.ok [.E, .E]) ∧
    pathCost (stepCosts (PosTy.pos 2 2) [(1, 1)] swamp) (0, 0) [.E, .E] = some 6 ∧
    Ucs.pathHash (PosTy.pos 2 2) false (unitCost (aroundWalls (PosTy.pos 2 2) [(1, 1)])) (0, 0) (2, 0) 900 = .ok (.ok [.E, .E]) := by
  refine ⟨?_, by decide +kernel⟩
  intro p d q w h
  obtain ⟨r, hr, h1⟩ := Option.map_eq_some_iff.1 h
  injection h1 with h1 h2
  subst h1 h2
  refine ⟨1, by rw [unitCost, hr]; rfl, ?_⟩
  unfold swamp
  split <;> omega

end Sqrid
