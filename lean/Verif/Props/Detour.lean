import Verif.Props.SearchLaws
/-!
# C124: going by way of another position
-/

namespace Sqrid

open Spec

attribute [local instance] debug64

/-! ## C124 -/

/-- C124, `bfs_path`. If there is a path from `a` to `b` and one from `b` to `c`, then going by way of `b` is a way from `a` to `c`, and the search from `a` to `c` finds
one that is not longer, or one that is longer than the limit of the paths that are returned. -/
theorem C124_bfs [Target] (T : PosTy) (hT : T.Searchable) (bfs) (hbfs : Bf.IsSearch T bfs) (D : Bool) (go : Int × Int → Dir → Option (Int × Int))
    (hgo : Adjacent T go) (a b c : Int × Int) (ha : InGrid T a) (hb : InGrid T b) (hne : c ≠ a) (fuel fuel₁ fuel₂ : Nat) (hfuel : cols T * rows T < (fuel : Int))
    (path₁ path₂ : List Dir) (h₁ : bfs D go a (fun p => p == b) fuel₁ = .ok (.ok (b, path₁)))
    (h₂ : bfs D go b (fun p => p == c) fuel₂ = .ok (.ok (c, path₂))) :
    IsPath go D a (path₁ ++ path₂) c ∧
    ((∃ path, bfs D go a (fun p => p == c) fuel = .ok (.ok (c, path)) ∧ path.length ≤ path₁.length + path₂.length) ∨
      bfs D go a (fun p => p == c) fuel = .ok (.error .loop) ∧ cols T * cols T < path₁.length + path₂.length) := by
  have p1 := (C51_valid_path T hT bfs hbfs D go hgo a ha _ fuel₁ b path₁ h₁).2
  have p2 := (C51_valid_path T hT bfs hbfs D go hgo b hb _ fuel₂ c path₂ h₂).2
  have p := isPath_append p1 p2
  refine ⟨p, ?_⟩
  rcases Bf.to_cases hT hbfs (D := D) hgo ha hne hfuel with ⟨h1, -⟩ | ⟨n, h1, -, path, h3, h4⟩ | ⟨n, h1, h2, h3⟩
  · exact absurd ⟨_, p⟩ h1
  · have := h1.2 _ p
    rw [List.length_append] at this
    exact .inl ⟨path, h3, by omega⟩
  · have := h1.2 _ p
    rw [List.length_append] at this
    exact .inr ⟨h3, by omega⟩

/-- C124, `ucs_path` with unit costs. -/
theorem C124_ucs_unit [Target] (T : PosTy) (hT : T.Searchable) (ucs) (hucs : Ucs.IsSearch T ucs) (D : Bool) (go : Int × Int → Dir → Option (Int × Int))
    (hgo : Adjacent T go) (a b c : Int × Int) (ha : InGrid T a) (hb : InGrid T b) (hc : InGrid T c) (fuel fuel₁ fuel₂ : Nat) (hfuel : Ucs.steps T < (fuel : Int))
    (path₁ path₂ : List Dir) (h₁ : ucs D (unitCost go) a b fuel₁ = .ok (.ok path₁)) (h₂ : ucs D (unitCost go) b c fuel₂ = .ok (.ok path₂)) :
    IsPath go D a (path₁ ++ path₂) c ∧
    ((∃ path, ucs D (unitCost go) a c fuel = .ok (.ok path) ∧ path.length ≤ path₁.length + path₂.length) ∨
      ucs D (unitCost go) a c fuel = .ok (.error .loop) ∧ cols T * cols T < path₁.length + path₂.length) := by
  have p1 := C61_valid_path T hT ucs hucs D _ (unitCost_adjacent hgo) a b ha hb fuel₁ path₁ h₁
  have p2 := C61_valid_path T hT ucs hucs D _ (unitCost_adjacent hgo) b c hb hc fuel₂ path₂ h₂
  rw [dropCost_unitCost] at p1 p2
  have p := isPath_append p1 p2
  refine ⟨p, ?_⟩
  rcases Ucs.unit_cases hT hucs (D := D) hgo ha hc hfuel with ⟨h1, -⟩ | ⟨n, h1, -, path, h3, h4⟩ | ⟨n, h1, h2, h3⟩
  · exact absurd ⟨_, p⟩ h1
  · have := h1.2 _ p
    rw [List.length_append] at this
    exact .inl ⟨path, h3, by omega⟩
  · have := h1.2 _ p
    rw [List.length_append] at this
    exact .inr ⟨h3, by omega⟩

/-- C124, `ucs_path` with any costs that fit: it does not report that `c` cannot be reached. -/
theorem C124_ucs [Target] (T : PosTy) (hT : T.Searchable) (ucs) (hucs : Ucs.IsSearch T ucs) (D : Bool)
    (go : Int × Int → Dir → Option ((Int × Int) × Int)) (hgo : Adjacent T (dropCost go)) (hcost : UsizeCosts go) (a b c : Int × Int) (ha : InGrid T a)
    (hb : InGrid T b) (hc : InGrid T c) (hbelow : BelowLimit go D a) (fuel fuel₁ fuel₂ : Nat) (hfuel : Ucs.steps T < (fuel : Int))
    (path₁ path₂ : List Dir) (h₁ : ucs D go a b fuel₁ = .ok (.ok path₁)) (h₂ : ucs D go b c fuel₂ = .ok (.ok path₂)) :
    IsPath (dropCost go) D a (path₁ ++ path₂) c ∧
    ((∃ path, ucs D go a c fuel = .ok (.ok path)) ∨ ucs D go a c fuel = .ok (.error .loop)) := by
  have p := isPath_append (C61_valid_path T hT ucs hucs D _ hgo a b ha hb fuel₁ path₁ h₁) (C61_valid_path T hT ucs hucs D _ hgo b c hb hc fuel₂ path₂ h₂)
  exact ⟨p, (C62_unreachable_partial T hT ucs hucs D go hgo hcost a c ha hc hbelow fuel hfuel).2.1 ⟨_, p⟩⟩

theorem isCostPath_append {go : WGo} {D : Bool} {p q r : P2} {as bs : List Dir} {m n : Int} (h : IsCostPath go D p as q m) (h' : IsCostPath go D q bs r n) :
    IsCostPath go D p (as ++ bs) r (m + n) := by
  refine ⟨isPath_append h.1 h'.1, ?_⟩
  obtain ⟨⟨-, h1⟩, h2⟩ := h
  induction as generalizing p m with
  | nil =>
    simp only [follow, Option.some.injEq] at h1
    simp only [pathCost, Option.some.injEq] at h2
    subst h1 h2
    rw [Int.zero_add]
    exact h'.2
  | cons d as ih =>
    unfold follow dropCost at h1
    unfold pathCost at h2
    rw [List.cons_append]
    unfold pathCost
    cases hg : go p d with
    | none => rw [hg] at h1; cases h1
    | some x =>
      obtain ⟨x, w⟩ := x
      simp only [hg, Option.map_some] at h1 h2 ⊢
      obtain ⟨k, hk, rfl⟩ := Option.map_eq_some_iff.1 h2
      rw [ih hk h1, Option.map_some, Int.add_assoc]

/-- C124, `ucs_path` if the cost of a step depends only on where it leads: the path does not cost more than going by way of `b`. -/
theorem C124_ucs_enter [Target] (T : PosTy) (hT : T.Searchable) (ucs) (hucs : Ucs.IsSearch T ucs) (D : Bool)
    (go : Int × Int → Dir → Option ((Int × Int) × Int)) (hgo : Adjacent T (dropCost go)) (hcost : UsizeCosts go) (henter : EnterCost go) (a b c : Int × Int)
    (ha : InGrid T a) (hb : InGrid T b) (hc : InGrid T c) (hbelow : BelowLimit go D a) (fuel fuel₁ fuel₂ : Nat)
    (path path₁ path₂ : List Dir) (h : ucs D go a c fuel = .ok (.ok path)) (h₁ : ucs D go a b fuel₁ = .ok (.ok path₁))
    (h₂ : ucs D go b c fuel₂ = .ok (.ok path₂)) :
    ∃ n n₁ n₂, IsCostPath go D a path c n ∧ IsCostPath go D a path₁ b n₁ ∧ IsCostPath go D b path₂ c n₂ ∧ n ≤ n₁ + n₂ := by
  obtain ⟨n, h1, h2⟩ := C63_enter_cost_partial T hT ucs hucs D go hgo hcost henter a c (.inr hbelow.noOverflow) ha hc fuel path h
  obtain ⟨n₁, c1⟩ := isPath_cost (C61_valid_path T hT ucs hucs D _ hgo a b ha hb fuel₁ path₁ h₁)
  obtain ⟨n₂, c2⟩ := isPath_cost (C61_valid_path T hT ucs hucs D _ hgo b c hb hc fuel₂ path₂ h₂)
  exact ⟨n, n₁, n₂, h1, c1, c2, h2 _ _ (isCostPath_append c1 c2)⟩

/-- C124, `astar_path`: it does not report that `c` cannot be reached. -/
theorem C124_astar [Target] (T : PosTy) (hT : T.Searchable) (astar) (hastar : Astar.IsSearch T astar) (D : Bool)
    (go : Int × Int → Dir → Option (Int × Int)) (hgo : Adjacent T go) (a b c : Int × Int) (ha : InGrid T a) (hb : InGrid T b) (hc : InGrid T c)
    (fuel fuel₁ fuel₂ : Nat) (hfuel : Astar.steps T < (fuel : Int)) (path₁ path₂ : List Dir) (h₁ : astar D go a b fuel₁ = .ok (.ok path₁))
    (h₂ : astar D go b c fuel₂ = .ok (.ok path₂)) :
    IsPath go D a (path₁ ++ path₂) c ∧
    ((∃ path, astar D go a c fuel = .ok (.ok path)) ∨ astar D go a c fuel = .ok (.error .loop)) := by
  have p := isPath_append (C55_valid_path T hT astar hastar D go hgo a b ha hb fuel₁ path₁ h₁) (C55_valid_path T hT astar hastar D go hgo b c hb hc fuel₂ path₂ h₂)
  exact ⟨p, (C57_unreachable_partial T hT astar hastar D go hgo a c ha hc fuel hfuel).2.1 ⟨_, p⟩⟩

-- by way of (2, 0), and straight
example : Bf.pathHash (PosTy.pos 2 2) false (aroundWalls (PosTy.pos 2 2) [(1, 1)]) (0, 0) (fun p => p == (2, 0)) 10 = .ok (.ok ((2, 0), [.E, .E])) ∧
    Bf.pathHash (PosTy.pos 2 2) false (aroundWalls (PosTy.pos 2 2) [(1, 1)]) (2, 0) (fun p => p == (0, 2)) 10 = .ok (.ok ((0, 2), [.S, .S, .W, .W])) ∧
    Bf.pathHash (PosTy.pos 2 2) false (aroundWalls (PosTy.pos 2 2) [(1, 1)]) (0, 0) (fun p => p == (0, 2)) 10 = .ok (.ok ((0, 2), [.S, .S])) := by
  decide +kernel

-- the same with costs that depend on where a step leads (see the example of C63)
example : Ucs.pathHash (PosTy.pos 2 2) false (stepCosts (PosTy.pos 2 2) [(1, 0)] swamp) (0, 0) (0, 2) 99 = .ok (.ok [.S, .S]) ∧
    Ucs.pathHash (PosTy.pos 2 2) false (stepCosts (PosTy.pos 2 2) [(1, 0)] swamp) (0, 2) (2, 0) 99 = .ok (.ok [.E, .E, .N, .N]) ∧
    Ucs.pathHash (PosTy.pos 2 2) false (stepCosts (PosTy.pos 2 2) [(1, 0)] swamp) (0, 0) (2, 0) 99 = .ok (.ok [.S, .E, .E, .N]) := by
  decide +kernel

/-- C124. Both parts can be found while the whole is too long for the limit. -/
theorem C124_loop_occurs [Target] :
    Bf.pathHash (PosTy.pos 1 5) false (aroundWalls (PosTy.pos 1 5) []) (0, 0) (fun p => p == (0, 3)) 13 = .ok (.ok ((0, 3), [.S, .S, .S])) ∧
    Bf.pathHash (PosTy.pos 1 5) false (aroundWalls (PosTy.pos 1 5) []) (0, 3) (fun p => p == (0, 5)) 13 = .ok (.ok ((0, 5), [.S, .S])) ∧
    Bf.pathHash (PosTy.pos 1 5) false (aroundWalls (PosTy.pos 1 5) []) (0, 0) (fun p => p == (0, 5)) 13 = .ok (.error .loop) := by
  decide_target


/-- C124. The path of A* can be longer than going by way of another position, by paths of A*. -/
theorem C124_astar_longer [Target] :
    Astar.pathHash (PosTy.pos 4 3) false (aroundWalls (PosTy.pos 4 3) [(2, 3), (1, 0), (1, 2), (3, 1)]) (4, 0) (2, 0) 200 = .ok (.ok [.W, .W]) ∧
    Astar.pathHash (PosTy.pos 4 3) false (aroundWalls (PosTy.pos 4 3) [(2, 3), (1, 0), (1, 2), (3, 1)]) (2, 0) (1, 3) 200 =
      .ok (.ok [.S, .W, .W, .S, .S, .E]) ∧
    Astar.pathHash (PosTy.pos 4 3) false (aroundWalls (PosTy.pos 4 3) [(2, 3), (1, 0), (1, 2), (3, 1)]) (4, 0) (1, 3) 200 =
      .ok (.ok [.S, .S, .W, .W, .N, .W, .W, .S, .S, .E]) := by
  decide_target

end Sqrid
