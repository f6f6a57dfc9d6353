import Verif.Spec.Cuts
import Verif.Props.Bisect
import Verif.Props.Seats
/-!
# The positions that all ways lead through: C163
-/

namespace Sqrid

-- Statements that do not mention a target are about a debug build for a 64-bit machine.
attribute [local instance] debug64

open Spec

theorem mem_entered {T : PosTy} {walls : List P2} {ds : List Dir} {p q w : P2} (h : follow (aroundWalls T walls) p ds = some q) :
    w ∈ entered p ds ↔ ∃ d as bs, ds = d :: as ++ bs ∧ follow (aroundWalls T walls) p (d :: as) = some w := by
  induction ds generalizing p with
  | nil =>
    simp [entered]
  | cons d ds ih =>
    unfold follow at h
    cases hg : aroundWalls T walls p d with
    | none => rw [hg] at h; cases h
    | some r =>
      rw [hg] at h
      obtain ⟨rfl, -, -⟩ := aroundWalls_eq_some.1 hg
      rw [entered, List.mem_cons, ih h]
      constructor
      · rintro (rfl | ⟨d', as, bs, h1, h2⟩)
        · exact ⟨d, [], ds, rfl, by simp only [follow, hg]⟩
        · exact ⟨d, d' :: as, bs, by rw [h1]; rfl, by rw [follow, hg]; exact h2⟩
      · rintro ⟨d', as, bs, h1, h2⟩
        rw [List.cons_append] at h1
        injection h1 with h1 h3
        subst h1
        rw [follow, hg] at h2
        cases as with
        | nil =>
          have h2 : follow (aroundWalls T walls) (neighbour p d) [] = some w := h2
          unfold follow at h2
          injection h2 with h2
          exact .inl h2.symm
        | cons a as => exact .inr ⟨a, as, bs, h3, h2⟩

/-- One more wall cuts off the destination exactly if all ways lead through it. -/
theorem cut_iff {T : PosTy} {D : Bool} {walls : List P2} {orig dest w : P2} :
    ¬ Reachable (aroundWalls T (walls ++ [w])) D orig dest ↔ ∀ ds, IsPath (aroundWalls T walls) D orig ds dest → w ∈ entered orig ds := by
  constructor
  · intro h ds hds
    by_contra hw
    exact h ⟨ds, isPath_wall hds hw⟩
  · rintro h ⟨ds, hds⟩
    have h1 := isPath_fewer (walls' := walls) (fun p hp => List.mem_append_left _ hp) hds
    have h2 := h ds h1
    obtain ⟨d, as, bs, h3, h4⟩ := (mem_entered hds.2).1 h2
    -- The last step into the wall is not possible.
    obtain ⟨as', e, h5⟩ : ∃ as' e, d :: as = as' ++ [e] := by
      rcases List.eq_nil_or_concat (d :: as) with h | ⟨a', e, h⟩
      · cases h
      · exact ⟨a', e, by simpa using h⟩
    rw [h5, follow_append] at h4
    cases h6 : follow (aroundWalls T (walls ++ [w])) orig as' with
    | none => rw [h6] at h4; cases h4
    | some r =>
      rw [h6, Option.bind_some, follow] at h4
      cases hg : aroundWalls T (walls ++ [w]) r e with
      | none => rw [hg] at h4; cases h4
      | some r' =>
        rw [hg] at h4
        have h4 : follow (aroundWalls T (walls ++ [w])) r' [] = some w := h4
        unfold follow at h4
        injection h4 with h4
        subst h4
        exact (aroundWalls_eq_some.1 hg).2.2 (by simp)

theorem cuts_spec {α : Type} (search : P2 → Out (Res α)) (P : P2 → Prop) (ps : List P2)
    (hs : ∀ w, (search w = .ok (.error .destinationUnreachable) ↔ P w) ∧ ∃ r, search w = .ok r) :
    ∃ l, cuts search ps = .ok l ∧ ∀ w, w ∈ l ↔ w ∈ ps ∧ P w := by
  induction ps with
  | nil => exact ⟨[], rfl, by simp⟩
  | cons p ps ih =>
    obtain ⟨l, h1, h2⟩ := ih
    obtain ⟨h3, r, h4⟩ := hs p
    have h5 : unreachable r = true ↔ P p := by
      rw [← h3, h4]
      unfold unreachable
      split
      · simp
      · rename_i hr
        refine ⟨fun h => (by cases h), fun h => ?_⟩
        injection h with h
        exact absurd h hr
    refine ⟨if unreachable r then p :: l else l, by rw [cuts, h4, Out.ok_bind, h1, Out.ok_bind], fun w => ?_⟩
    by_cases hp : P p
    · rw [if_pos (h5.2 hp), List.mem_cons, h2, List.mem_cons]
      constructor
      · rintro (rfl | ⟨h6, h7⟩)
        · exact ⟨.inl rfl, hp⟩
        · exact ⟨.inr h6, h7⟩
      · rintro ⟨rfl | h6, h7⟩
        · exact .inl rfl
        · exact .inr ⟨h6, h7⟩
    · rw [if_neg fun h => hp (h5.1 h), h2, List.mem_cons]
      constructor
      · exact fun h => ⟨.inr h.1, h.2⟩
      · rintro ⟨rfl | h6, h7⟩
        · exact absurd h7 hp
        · exact ⟨h6, h7⟩

/-- C163. Breadth-first searches for another path, with each of the positions on the path as a wall in turn, find exactly the positions that all ways lead through. -/
theorem C163_bfs [Target] (T : PosTy) (hT : T.Searchable) (bfs) (hbfs : Bf.IsSearch T bfs) (D : Bool) (walls : List (Int × Int)) (orig dest : Int × Int) (ho : InGrid T orig)
    (hne : dest ≠ orig) (fuel : Nat) (hfuel : cols T * rows T < (fuel : Int)) (path : List Dir) (hpath : IsPath (aroundWalls T walls) D orig path dest) :
    ∃ l, cuts (fun w => bfs D (aroundWalls T (walls ++ [w])) orig (fun p => p == dest) fuel) (entered orig path) = .ok l ∧
      ∀ w, w ∈ l ↔ ∀ ds, IsPath (aroundWalls T walls) D orig ds dest → w ∈ entered orig ds := by
  obtain ⟨l, h1, h2⟩ := cuts_spec _ (fun w => ¬ Reachable (aroundWalls T (walls ++ [w])) D orig dest) (entered orig path)
    fun w => bfs_unreachable T hT bfs hbfs D (aroundWalls T (walls ++ [w])) (aroundWalls_adjacent _ _) orig dest ho hne fuel hfuel
  refine ⟨l, h1, fun w => ?_⟩
  rw [h2, cut_iff]
  exact ⟨fun h => h.2, fun h => ⟨h path hpath, h⟩⟩

/-- C163. The same with A*. -/
theorem C163_astar [Target] (T : PosTy) (hT : T.Searchable) (astar) (hastar : Astar.IsSearch T astar) (D : Bool) (walls : List (Int × Int)) (orig dest : Int × Int)
    (ho : InGrid T orig) (hd : InGrid T dest) (fuel : Nat) (hfuel : Astar.steps T < (fuel : Int)) (path : List Dir) (hpath : IsPath (aroundWalls T walls) D orig path dest) :
    ∃ l, cuts (fun w => astar D (aroundWalls T (walls ++ [w])) orig dest fuel) (entered orig path) = .ok l ∧
      ∀ w, w ∈ l ↔ ∀ ds, IsPath (aroundWalls T walls) D orig ds dest → w ∈ entered orig ds := by
  obtain ⟨l, h1, h2⟩ := cuts_spec _ (fun w => ¬ Reachable (aroundWalls T (walls ++ [w])) D orig dest) (entered orig path)
    fun w => astar_unreachable T hT astar hastar D (aroundWalls T (walls ++ [w])) (aroundWalls_adjacent _ _) orig dest ho hd fuel hfuel
  refine ⟨l, h1, fun w => ?_⟩
  rw [h2, cut_iff]
  exact ⟨fun h => h.2, fun h => ⟨h path hpath, h⟩⟩

-- The only gap in a wall, the positions before and after it that cannot be gone around, and the destination.
example : cuts (fun w => Bf.pathHash (PosTy.pos 2 2) false (aroundWalls (PosTy.pos 2 2) ([(1, 0), (1, 1)] ++ [w])) (0, 0) (fun p => p == (2, 2)) 10) (entered (0, 0) [.S, .S, .E, .E]) =
    .ok [(0, 1), (0, 2), (1, 2), (2, 2)] := by decide +kernel
example : cuts (fun w => Astar.pathHash (PosTy.pos 2 2) true (aroundWalls (PosTy.pos 2 2) ([(1, 0), (1, 1)] ++ [w])) (0, 0) (2, 2) 1000) (entered (0, 0) [.S, .SE, .E]) =
    .ok [(0, 1), (1, 2), (2, 2)] := by decide +kernel

end Sqrid
