import Verif.Proofs.Greedy
import Verif.Props.Avoid
/-!
# Ways that a search takes without looking further: C139

If each position on a way ranks before all that the positions before it have put in the queue, then the search takes the positions on the way out of the queue one after
the other, and returns the way. It does not matter what the grid looks like elsewhere.
-/

namespace Sqrid

-- Statements that do not mention a target are about a debug build for a 64-bit machine.
attribute [local instance] debug64

open Spec

theorem noCycle_of {go : WGo} {orig : P2} {way : List Dir}
    (h : ∀ i j, i ≤ way.length → j ≤ way.length → follow (dropCost go) orig (way.take i) = follow (dropCost go) orig (way.take j) → i = j) : NoCycle go orig way := by
  intro as1 d as2 bs q e h1 h2
  have := h as1.length (as1 ++ d :: as2).length (by rw [e]; simp) (by rw [e]; simp) (by
    rw [e, List.take_left' rfl, List.append_assoc, List.take_left' rfl, h1, ← h2])
  simp at this

/-- From positions counted along the way to parts of it. -/
theorem greedy_of {go : WGo} {h : P2 → Int} {D : Bool} {orig : P2} {way : List Dir}
    (H : ∀ i j p g q g' d r w, j < i → i ≤ way.length → IsCostPath go D orig (way.take i) p g → IsCostPath go D orig (way.take j) q g' → Allowed D d →
      way[j]? ≠ some d → go q d = some (r, w) → (∀ l ≤ j, follow (dropCost go) orig (way.take l) ≠ some r) →
      g + h p < g' + w + h r ∨ g + h p = g' + w + h r ∧ (r.1 < p.1 ∨ r.1 = p.1 ∧ r.2 < p.2)) : Greedy go h D orig way := by
  intro as bs p g e hp r v hv
  obtain ⟨as1, d0, as2, q, g', d, w, e1, h1, h2, rfl, h3, h4⟩ := hv
  refine H as.length as1.length p g q g' d r w (by rw [e1]; simp) (by rw [e]; simp) (by rw [e, List.take_left' rfl]; exact hp)
    (by rw [e, e1, List.append_assoc, List.take_left' rfl]; exact h1) h2.1 ?_ h2.2 fun l hl => ?_
  · rw [e, e1]
    simp [Ne.symm h3]
  · have : way.take l = as1.take l := by
      rw [e, e1, List.append_assoc, List.take_append_of_le_length hl]
    rw [this]
    exact h4 _ (as1.drop l) (List.take_append_drop l as1).symm

/-- C139. For the uniform-cost search: if each position on a way without cycles costs less along it than every other step from the positions before it, or as much and is
greater in the order of the positions, then the search returns the way, or `Loop` if it has more steps than the square of the number of columns. Steps back to earlier
positions do not count. -/
theorem C139_ucs [Target] (T : PosTy) (hT : T.Searchable) (ucs) (hucs : Ucs.IsSearch T ucs) (D : Bool)
    (go : Int × Int → Dir → Option ((Int × Int) × Int)) (hgo : Adjacent T (dropCost go)) (hc : UsizeCosts go) (orig dest : Int × Int)
    (hno : NoOverflow go D orig) (ho : InGrid T orig) (hd : InGrid T dest)
    (way : List Dir) (n : Int) (hway : IsCostPath go D orig way dest n) (hn : n < limit)
    (hcyc : ∀ i j, i ≤ way.length → j ≤ way.length → follow (dropCost go) orig (way.take i) = follow (dropCost go) orig (way.take j) → i = j)
    (hfirst : ∀ i j p g q g' d r w, j < i → i ≤ way.length → IsCostPath go D orig (way.take i) p g → IsCostPath go D orig (way.take j) q g' → Allowed D d →
      way[j]? ≠ some d → go q d = some (r, w) → (∀ l ≤ j, follow (dropCost go) orig (way.take l) ≠ some r) →
      g < g' + w ∨ g = g' + w ∧ (r.1 < p.1 ∨ r.1 = p.1 ∧ r.2 < p.2)) (fuel : Nat) (hfuel : way.length < fuel) :
    ((way.length : Int) ≤ cols T * cols T → ucs D go orig dest fuel = .ok (.ok way)) ∧
    (cols T * cols T < (way.length : Int) → ucs D go orig dest fuel = .ok (.error .loop)) := by
  have hC := noCycle_of hcyc
  obtain ⟨f, h1, h2, h3⟩ := GreedyInv.search (h := fun _ => 0) (INF := usizeMax) hc.nonNeg hgo ho way (as := []) (n := n)
    (greedy_of fun i j p g q g' d r w a1 a2 a3 a4 a5 a6 a7 a8 => by simpa using hfirst i j p g q g' d r w a1 a2 a3 a4 a5 a6 a7 a8) hC isCostPath_nil hway (by rw [usizeMax_eq]; exact hn)
    (GreedyInv.init go _ D usizeMax_pos orig (fun _ => none)) fuel hfuel
  rw [hucs.eq hT hgo.staysIn ho hd, cols_sq hT.toIsGrid]
  rw [← Ucs.searchMapmov_eq hc.nonNeg hno dest fuel] at h1
  rw [Ucs.searchPath_of_mapmov h1]
  simp only
  rw [camefrom_arrives_out hT.wf hd h3 (arrives_way hgo ho way hway.1.2 fun as' d bs' q e h4 => ⟨?_, h2 as' d bs' q e h4⟩), wayOut_searchable hT ho hd]
  · simp only
    exact ⟨fun h => by rw [if_pos (by omega)], fun h => by rw [if_neg (by omega)]⟩
  · subst e
    have hC' : NoCycle go orig ((as' ++ [d]) ++ bs') := by simpa using hC
    exact hC'.ne_orig (by simp) h4

-- In a grid with a wall, with costs of 1: the way along the edge is taken without looking further.
example (fuel : Nat) (h : 2 < fuel) : Ucs.pathHash (PosTy.pos 2 2) false (unitCost (aroundWalls (PosTy.pos 2 2) [(0, 1)])) (0, 0) (2, 0) fuel = .ok (.ok [.E, .E]) := by
  have hgo := aroundWalls_adjacent (PosTy.pos 2 2) [(0, 1)]
  have hT : (PosTy.pos 2 2).Searchable := PosTy.pos_searchable (by decide) (by decide) (.inl rfl)
  refine (C139_ucs (PosTy.pos 2 2) hT _ (.inr (.inl rfl)) false _ (unitCost_adjacent hgo) (unitCost_usize _) (0, 0) (2, 0)
    (unitCost_below hT hgo (by unfold InGrid; decide)).noOverflow (by unfold InGrid; decide) (by unfold InGrid; decide) [.E, .E] 2
    (isCostPath_unit.2 ⟨⟨by simp [Allowed, unit], by decide +kernel⟩, rfl⟩) (by decide) ?_ ?_ fuel h).1 (by decide)
  · intro i j hi hj he
    simp only [List.length_cons, List.length_nil] at hi hj
    interval_cases i <;> interval_cases j <;> first | rfl | (exact absurd he (by decide +kernel))
  · intro i j p g q g' d r w hji hi hp hq hd hnext hr hback
    obtain ⟨hp', rfl⟩ := isCostPath_unit.1 hp
    obtain ⟨hq', rfl⟩ := isCostPath_unit.1 hq
    obtain ⟨hr', rfl⟩ := unitCost_some.1 hr
    have key : ∀ i ∈ List.range 3, ∀ j ∈ List.range i, ∀ d ∈ clockwise false, [Dir.E, .E][j]? ≠ some d →
        ∀ p ∈ (follow (aroundWalls (PosTy.pos 2 2) [(0, 1)]) (0, 0) ([Dir.E, .E].take i)).toList,
        ∀ q ∈ (follow (aroundWalls (PosTy.pos 2 2) [(0, 1)]) (0, 0) ([Dir.E, .E].take j)).toList, ∀ r ∈ (aroundWalls (PosTy.pos 2 2) [(0, 1)] q d).toList,
        (∀ l ∈ List.range (j + 1), follow (aroundWalls (PosTy.pos 2 2) [(0, 1)]) (0, 0) ([Dir.E, .E].take l) ≠ some r) →
        i < j + 1 ∨ i = j + 1 ∧ (r.1 < p.1 ∨ r.1 = p.1 ∧ r.2 < p.2) := by
      set_option synthInstance.maxSize 1000 in decide +kernel
    rw [dropCost_unitCost] at hback
    have := key i (by simpa using Nat.lt_succ_of_le hi) j (by simpa using hji) d (mem_clockwise.2 hd) hnext p (by simp [hp'.2]) q (by simp [hq'.2]) r (by simp [hr'])
      (fun l hl => hback l (by simpa using Nat.le_of_lt_succ (List.mem_range.1 hl)))
    simp only [List.length_take, List.length_cons, List.length_nil] at hi ⊢
    omega

/-- C139. For A*, with and without diagonals: what counts for a position is the number of steps to it and its Manhattan distance to the destination, added up. -/
theorem C139_astar [Target] (T : PosTy) (hT : T.Searchable) (astar) (hastar : Astar.IsSearch T astar) (D : Bool)
    (go : Int × Int → Dir → Option (Int × Int)) (hgo : Adjacent T go) (orig dest : Int × Int) (ho : InGrid T orig) (hd : InGrid T dest)
    (way : List Dir) (hway : IsPath go D orig way dest)
    (hcyc : ∀ i j, i ≤ way.length → j ≤ way.length → follow go orig (way.take i) = follow go orig (way.take j) → i = j)
    (hfirst : ∀ (i j : Nat) p q d r, j < i → i ≤ way.length → follow go orig (way.take i) = some p → follow go orig (way.take j) = some q → Allowed D d →
      way[j]? ≠ some d → go q d = some r → (∀ l ≤ j, follow go orig (way.take l) ≠ some r) →
      i + l1 p dest < j + 1 + l1 r dest ∨ i + l1 p dest = j + 1 + l1 r dest ∧ (r.1 < p.1 ∨ r.1 = p.1 ∧ r.2 < p.2)) (fuel : Nat) (hfuel : way.length < fuel) :
    ((way.length : Int) ≤ cols T * cols T → astar D go orig dest fuel = .ok (.ok way)) ∧
    (cols T * cols T < (way.length : Int) → astar D go orig dest fuel = .ok (.error .loop)) := by
  have hadj := unit_adjacent hgo
  have hC : NoCycle (unitCost go) orig way := noCycle_of (by rw [dropCost_unitCost]; exact hcyc)
  have hlen : (way.length : Int) < usizeMax := by
    have hsome : ∀ i, ∃ q, follow go orig (way.take i) = some q := by
      intro i
      have h1 := hway.2
      rw [← List.take_append_drop i way, follow_append] at h1
      cases h2 : follow go orig (way.take i) with
      | none => rw [h2] at h1; cases h1
      | some q => exact ⟨q, rfl⟩
    have hnd : ((List.range (way.length + 1)).map fun i => (follow go orig (way.take i)).getD orig).Nodup := by
      refine List.Nodup.map_on (fun i hi j hj hij => ?_) List.nodup_range
      obtain ⟨q, hq⟩ := hsome i
      obtain ⟨q', hq'⟩ := hsome j
      rw [List.mem_range] at hi hj
      refine hcyc i j (by omega) (by omega) ?_
      simp only [hq, hq', Option.getD_some] at hij ⊢
      rw [hij]
    have hsub : ((List.range (way.length + 1)).map fun i => (follow go orig (way.take i)).getD orig) ⊆ allPositions T true := by
      intro x hx
      obtain ⟨i, -, rfl⟩ := List.mem_map.1 hx
      obtain ⟨q, hq⟩ := hsome i
      simp only [hq, Option.getD_some]
      exact PosTy.mem_allPositions.2 (follow_inGrid hgo.staysIn _ ho hq)
    have h1 := (hnd.subperm hsub).length_le
    rw [List.length_map, List.length_range] at h1
    have := cells_lt hT
    omega
  obtain ⟨f, h1, h2, h3⟩ := GreedyInv.search (h := fun q => l1 q dest) (INF := usizeMax) (unitCost_nonneg go) hadj ho way (as := []) (n := way.length)
    (greedy_of fun i j p g q g' d r w a1 a2 a3 a4 a5 a6 a7 a8 => by
      rw [dropCost_unitCost] at a8
      obtain ⟨b1, b2⟩ := isCostPath_unit.1 a3
      obtain ⟨b3, b4⟩ := isCostPath_unit.1 a4
      obtain ⟨b5, b6⟩ := unitCost_some.1 a7
      rw [List.length_take_of_le a2] at b2
      rw [List.length_take_of_le (by omega)] at b4
      have := hfirst i j p q d r a1 a2 b1.2 b3.2 a5 a6 b5 a8
      omega) hC isCostPath_nil (isCostPath_unit.2 ⟨hway, rfl⟩) hlen
    (GreedyInv.init _ _ D usizeMax_pos orig (fun _ => none)) fuel hfuel
  rw [hastar.eq hT hgo.staysIn ho hd, cols_sq hT.toIsGrid]
  rw [← Astar.searchMapmov_eq hT hgo.staysIn ho hd D fuel] at h1
  rw [Astar.searchPath_of_mapmov h1]
  simp only
  rw [dropCost_unitCost, List.nil_append] at h2
  rw [camefrom_arrives_out hT.wf hd h3 (arrives_way hgo ho way hway.2 fun as' d bs' q e h4 => ⟨?_, h2 as' d bs' q e h4⟩), wayOut_searchable hT ho hd]
  · simp only
    exact ⟨fun h => by rw [if_pos (by omega)], fun h => by rw [if_neg (by omega)]⟩
  · subst e
    have hC' : NoCycle (unitCost go) orig ((as' ++ [d]) ++ bs') := by simpa using hC
    exact hC'.ne_orig (by simp) (by rw [dropCost_unitCost]; exact h4)

-- The same for A* with diagonals, in a grid with a wall on the way.
example (fuel : Nat) (h : 3 < fuel) : Astar.pathHash (PosTy.pos 3 2) true (aroundWalls (PosTy.pos 3 2) [(1, 0), (2, 1)]) (0, 0) (3, 0) fuel = .ok (.ok [.SE, .NE, .E]) := by
  have hgo := aroundWalls_adjacent (PosTy.pos 3 2) [(1, 0), (2, 1)]
  refine (C139_astar (PosTy.pos 3 2) (PosTy.pos_searchable (by decide) (by decide) (.inl rfl)) _ (.inr (.inl rfl)) true _ hgo (0, 0) (3, 0)
    (by unfold InGrid; decide) (by unfold InGrid; decide) [.SE, .NE, .E] ⟨fun _ _ => .inl rfl, by decide +kernel⟩ ?_ ?_ fuel h).1 (by decide)
  · intro i j hi hj he
    simp only [List.length_cons, List.length_nil] at hi hj
    interval_cases i <;> interval_cases j <;> first | rfl | (exact absurd he (by decide +kernel))
  · intro i j p q d r hji hi hp hq hd hnext hr hback
    have key : ∀ i ∈ List.range 4, ∀ j ∈ List.range i, ∀ d ∈ clockwise true, [Dir.SE, .NE, .E][j]? ≠ some d →
        ∀ p ∈ (follow (aroundWalls (PosTy.pos 3 2) [(1, 0), (2, 1)]) (0, 0) ([Dir.SE, .NE, .E].take i)).toList,
        ∀ q ∈ (follow (aroundWalls (PosTy.pos 3 2) [(1, 0), (2, 1)]) (0, 0) ([Dir.SE, .NE, .E].take j)).toList,
        ∀ r ∈ (aroundWalls (PosTy.pos 3 2) [(1, 0), (2, 1)] q d).toList,
        (∀ l ∈ List.range (j + 1), follow (aroundWalls (PosTy.pos 3 2) [(1, 0), (2, 1)]) (0, 0) ([Dir.SE, .NE, .E].take l) ≠ some r) →
        i + l1 p (3, 0) < j + 1 + l1 r (3, 0) ∨ i + l1 p (3, 0) = j + 1 + l1 r (3, 0) ∧ (r.1 < p.1 ∨ r.1 = p.1 ∧ r.2 < p.2) := by
      set_option synthInstance.maxSize 1000 in decide +kernel
    exact key i (by simpa using Nat.lt_succ_of_le hi) j (by simpa using hji) d (mem_clockwise.2 hd) hnext p (by simp [hp]) q (by simp [hq]) r (by simp [hr])
      (fun l hl => hback l (by simpa using Nat.le_of_lt_succ (List.mem_range.1 hl)))

end Sqrid
