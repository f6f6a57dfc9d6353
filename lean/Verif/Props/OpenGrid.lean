import Verif.Props.Ucs
/-!
# Searches on an open grid: C82

The movement function is `pos_dir_add_ok` itself: a step is allowed exactly if it stays in the grid.
-/

namespace Sqrid

-- Statements that do not mention a target are about a debug build for a 64-bit machine.
attribute [local instance] debug64

open Spec

/-- The number of steps between two points of the plane: the Manhattan distance without diagonals, the Chebyshev distance with them. -/
def Spec.moves (D : Bool) (p q : Int × Int) : Int := if D then linf p q else l1 p q

/-! ## The outcome of the searches when the distance is known -/

theorem cols_sq [Target] {T : PosTy} (hT : T.IsGrid) : cols T * cols T = ((T.nx * T.nx : Nat) : Int) := by
  have := hT.nx_eq
  have h0 := hT.x0
  simp only [cols]
  push_cast
  rw [this, h0]
  ring

/-- C57, without diagonals, when no detour is needed: a path if its length is at most the square of the number of columns, else `Loop`. -/
theorem C57_no_detour_exact [Target] (T : PosTy) (hT : T.Searchable) (astar) (hastar : Astar.IsSearch T astar)
    (go : Int × Int → Dir → Option (Int × Int)) (hgo : Adjacent T go) (orig dest : Int × Int) (ho : InGrid T orig) (hd : InGrid T dest) (fuel : Nat)
    (hfuel : Astar.steps T < (fuel : Int)) (n : Nat) (hn : IsDist go false orig dest n) (hl : (n : Int) = l1 orig dest) :
    ((n : Int) ≤ cols T * cols T → ∃ path, astar false go orig dest fuel = .ok (.ok path) ∧ path.length = n) ∧
    (cols T * cols T < (n : Int) → astar false go orig dest fuel = .ok (.error .loop)) := by
  rw [hastar.eq hT hgo.staysIn ho hd, cols_sq hT.toIsGrid]
  rcases Astar.searchPath_straight hT hgo ho hd fuel (Astar.steps_nat hT.toIsGrid hfuel).2 with ⟨h1, h2⟩ | ⟨path', h1, h2, h3, h4⟩
  · exact absurd (reachable_iff_isDist.2 ⟨n, hn⟩) h1
  · have e := h3 n hn hl
    rw [h4, e]
    refine ⟨fun h => ⟨path', by rw [if_pos (by omega)], e⟩, fun h => by rw [if_neg (by omega)]⟩

/-- C62, with unit costs: a path if the distance is at most the square of the number of columns, else `Loop`. -/
theorem C62_unit_exact [Target] (T : PosTy) (hT : T.Searchable) (ucs) (hucs : Ucs.IsSearch T ucs) (D : Bool)
    (go : Int × Int → Dir → Option (Int × Int)) (hgo : Adjacent T go) (orig dest : Int × Int) (ho : InGrid T orig) (hd : InGrid T dest) (fuel : Nat)
    (hfuel : Ucs.steps T < (fuel : Int)) (n : Nat) (hn : IsDist go D orig dest n) :
    ((n : Int) ≤ cols T * cols T → ∃ path, ucs D (unitCost go) orig dest fuel = .ok (.ok path) ∧ path.length = n) ∧
    (cols T * cols T < (n : Int) → ucs D (unitCost go) orig dest fuel = .ok (.error .loop)) := by
  have hgo' := unitCost_adjacent hgo
  have hfuel' := Ucs.steps_nat hT.toIsGrid hfuel
  have hb := unitCost_below (D := D) hT hgo ho
  have hmin : IsMinCost (unitCost go) D orig dest n := isMinCost_unit.2 ⟨n, rfl, hn⟩
  rw [hucs.eq hT hgo'.staysIn ho hd, cols_sq hT.toIsGrid]
  obtain ⟨r, hr⟩ := Ucs.searchPath_total (dest := dest) hT hgo'.staysIn (unitCost_usize go).nonNeg hb.noOverflow ho hd fuel hfuel'
  rcases Ucs.searchPath_spec (D := D) hT hgo' (unitCost_usize go).nonNeg (.inr hb.noOverflow) ho hd fuel hfuel' with h2 | ⟨h1, h2⟩ | ⟨-, path', h1, -, h3, h4⟩
  · rw [h2] at hr; cases hr
  · have := h1 _ hmin
    have := hb.lt (unitCost_usize go).nonNeg hmin
    omega
  · have h5 := h3 (unitCost_enter go) _ hmin
    have e : path'.length = n := by
      have := (isCostPath_unit.1 h5).2
      omega
    rw [h4, e]
    refine ⟨fun h => ⟨path', by rw [if_pos (by omega)], e⟩, fun h => by rw [if_neg (by omega)]⟩

example : IsDist (aroundWalls (PosTy.pos 0 2) []) false (0, 0) (0, 2) 2 ∧ cols (PosTy.pos 0 2) * cols (PosTy.pos 0 2) < ((2 : Nat) : Int) :=
  ⟨⟨⟨[.S, .S], ⟨by intro d hd; revert d; simp [Allowed, unit], by decide⟩, rfl⟩, fun ds h => by
    have := l1_le_path (aroundWalls_adjacent _ _) (by decide) h
    have e : l1 (0, 0) (0, 2) = 2 := by decide
    omega⟩, by decide⟩

/-! ## C82 -/

theorem PosTy.addDirOk_eq [Target] {T : PosTy} (hT : T.IsGrid) {p : P2} (hp : InGrid T p) (d : Dir) :
    T.addDirOk p d = if InGrid T (neighbour p d) then some (neighbour p d) else none := by
  unfold PosTy.addDirOk
  rw [PosTy.addDir_eq hT.wf p hp]
  show _ = if T.Valid (neighbour p d) then _ else _
  split <;> rfl

theorem addDirOk_adjacent [Target] {T : PosTy} (hT : T.IsGrid) : Adjacent T T.addDirOk := by
  intro p d q hp h
  rw [PosTy.addDirOk_eq hT hp] at h
  split at h
  · injection h with h
    subst h
    rename_i h'
    exact ⟨h', rfl⟩
  · cases h

theorem moves_step {D : Bool} {p q : P2} {d : Dir} (hd : Allowed D d) : moves D p (neighbour q d) ≤ moves D p q + 1 := by
  cases D with
  | false => exact l1_step' hd
  | true => cases d <;> simp only [moves, linf, neighbour, unit, if_true] <;> omega

theorem moves_le_path {T : PosTy} {go : GoFn} {D : Bool} {p q : P2} (hgo : Adjacent T go) (hp : InGrid T p) {ds : List Dir} (h : IsPath go D p ds q) :
    moves D p q ≤ ds.length := by
  induction ds using List.reverseRecOn generalizing q with
  | nil => have := h.2; injection this with e; subst e; cases D <;> simp [moves, l1, linf]
  | append_singleton ds d ih =>
    obtain ⟨r, h1, h2, h3⟩ := isPath_concat h
    have := ih h1
    rw [(hgo r d q (isPath_inGrid hgo.staysIn hp h1) h3).2]
    have := moves_step (p := p) (q := r) h2
    simp only [List.length_append, List.length_singleton]
    push_cast
    omega

theorem moves_closer {T : PosTy} {D : Bool} {p q : P2} (hp : InGrid T p) (hq : InGrid T q) (hne : p ≠ q) :
    ∃ d, Allowed D d ∧ InGrid T (neighbour p d) ∧ moves D (neighbour p d) q + 1 = moves D p q := by
  obtain ⟨x, y⟩ := p
  obtain ⟨x', y'⟩ := q
  have hne' : x ≠ x' ∨ y ≠ y' := by
    by_contra h
    push_neg at h
    exact hne (by rw [h.1, h.2])
  obtain ⟨⟨h1, h2⟩, h3, h4⟩ := hp
  obtain ⟨⟨h5, h6⟩, h7, h8⟩ := hq
  simp only at h1 h2 h3 h4 h5 h6 h7 h8
  cases D with
  | false =>
    rcases Int.lt_trichotomy x x' with hx | hx | hx
    · exact ⟨.E, by simp [Allowed, unit], ⟨by simp only [neighbour, unit]; omega, by simp only [neighbour, unit]; omega⟩, by
        simp only [moves, l1, neighbour, unit, Bool.false_eq_true, if_false]; omega⟩
    · rcases Int.lt_trichotomy y y' with hy | hy | hy
      · exact ⟨.S, by simp [Allowed, unit], ⟨by simp only [neighbour, unit]; omega, by simp only [neighbour, unit]; omega⟩, by
          simp only [moves, l1, neighbour, unit, Bool.false_eq_true, if_false]; omega⟩
      · omega
      · exact ⟨.N, by simp [Allowed, unit], ⟨by simp only [neighbour, unit]; omega, by simp only [neighbour, unit]; omega⟩, by
          simp only [moves, l1, neighbour, unit, Bool.false_eq_true, if_false]; omega⟩
    · exact ⟨.W, by simp [Allowed, unit], ⟨by simp only [neighbour, unit]; omega, by simp only [neighbour, unit]; omega⟩, by
        simp only [moves, l1, neighbour, unit, Bool.false_eq_true, if_false]; omega⟩
  | true =>
    have key : ∀ d, (unit d).1 = (if x < x' then 1 else if x' < x then -1 else 0) → (unit d).2 = (if y < y' then 1 else if y' < y then -1 else 0) →
        ∃ d, Allowed true d ∧ InGrid T (neighbour (x, y) d) ∧ moves true (neighbour (x, y) d) (x', y') + 1 = moves true (x, y) (x', y') := by
      intro d e1 e2
      refine ⟨d, .inl rfl, ⟨?_, ?_⟩, ?_⟩
      · simp only [neighbour]; rw [e1]; split <;> [skip; split] <;> omega
      · simp only [neighbour]; rw [e2]; split <;> [skip; split] <;> omega
      · simp only [moves, linf, neighbour, if_true]
        rw [e1, e2]
        split <;> [skip; split] <;> split <;> (try split) <;> omega
    rcases Int.lt_trichotomy x x' with hx | hx | hx <;> rcases Int.lt_trichotomy y y' with hy | hy | hy
    · exact key .SE (by rw [if_pos hx]; rfl) (by rw [if_pos hy]; rfl)
    · exact key .E (by rw [if_pos hx]; rfl) (by rw [if_neg (by omega), if_neg (by omega)]; rfl)
    · exact key .NE (by rw [if_pos hx]; rfl) (by rw [if_neg (by omega), if_pos hy]; rfl)
    · exact key .S (by rw [if_neg (by omega), if_neg (by omega)]; rfl) (by rw [if_pos hy]; rfl)
    · omega
    · exact key .N (by rw [if_neg (by omega), if_neg (by omega)]; rfl) (by rw [if_neg (by omega), if_pos hy]; rfl)
    · exact key .SW (by rw [if_neg (by omega), if_pos hx]; rfl) (by rw [if_pos hy]; rfl)
    · exact key .W (by rw [if_neg (by omega), if_pos hx]; rfl) (by rw [if_neg (by omega), if_neg (by omega)]; rfl)
    · exact key .NW (by rw [if_neg (by omega), if_pos hx]; rfl) (by rw [if_neg (by omega), if_pos hy]; rfl)

theorem moves_nonneg (D : Bool) (p q : P2) : 0 ≤ moves D p q := by
  cases D with
  | false => simp only [moves, l1, Bool.false_eq_true, if_false]; omega
  | true => simp only [moves, linf, if_true]; omega

theorem moves_path [Target] {T : PosTy} (hT : T.IsGrid) (D : Bool) (n : Nat) : ∀ {p q : P2}, InGrid T p → InGrid T q → moves D p q = n →
    ∃ ds, IsPath T.addDirOk D p ds q ∧ ds.length = n := by
  induction n with
  | zero =>
    intro p q hp hq h
    by_cases e : p = q
    · subst e; exact ⟨[], isPath_nil, rfl⟩
    · obtain ⟨d, -, -, h3⟩ := moves_closer (D := D) hp hq e
      have := moves_nonneg D (neighbour p d) q
      omega
  | succ n ih =>
    intro p q hp hq h
    by_cases e : p = q
    · subst e
      have : moves D p p = 0 := by cases D <;> simp [moves, l1, linf]
      omega
    · obtain ⟨d, h1, h2, h3⟩ := moves_closer (D := D) hp hq e
      obtain ⟨ds, h4, h5⟩ := ih h2 hq (by omega)
      refine ⟨d :: ds, ?_, by simp [h5]⟩
      have := isPath_append (isPath_single h1 (by rw [PosTy.addDirOk_eq hT hp, if_pos h2])) h4
      exact this

/-- C82. With `pos_dir_add_ok` as movement function the distance between two positions is the Manhattan distance without diagonals and the Chebyshev
distance with them. -/
theorem C82_distance [Target] (T : PosTy) (hT : T.IsGrid) (D : Bool) (p q : Int × Int) (hp : InGrid T p) (hq : InGrid T q) (n : Nat) :
    IsDist T.addDirOk D p q n ↔ (n : Int) = if D then linf p q else l1 p q := by
  have hm : IsDist T.addDirOk D p q (moves D p q).toNat := by
    obtain ⟨ds, h1, h2⟩ := moves_path hT D (moves D p q).toNat hp hq (by have := moves_nonneg D p q; omega)
    exact ⟨⟨ds, h1, h2⟩, fun ds h => by have := moves_le_path (addDirOk_adjacent hT) hp h; omega⟩
  have := moves_nonneg D p q
  show _ ↔ (n : Int) = moves D p q
  constructor
  · intro h
    have := isDist_unique h hm
    omega
  · intro h
    have : n = (moves D p q).toNat := by omega
    rw [this]
    exact hm

/-- C82. Every position but the origin is in the layer of `bf_iter(pos_dir_add_ok, orig)` given by its distance; no other position is in a layer. -/
theorem C82_layers [Target] (T : PosTy) (hT : T.IsGrid) (iter) (hiter : Bf.IsIter T iter) (D : Bool) (orig : Int × Int) (ho : InGrid T orig) (fuel : Nat)
    (hfuel : cols T * rows T < (fuel : Int)) :
    ∃ ls, iter D T.addDirOk orig fuel = .ok ls ∧ ∀ (k : Nat) layer, ls[k]? = some layer →
      (layer.map Prod.fst).Nodup ∧ ∀ q, q ∈ layer.map Prod.fst ↔ InGrid T q ∧ (if D then linf orig q else l1 orig q) = k + 1 := by
  have hgo := addDirOk_adjacent hT
  obtain ⟨ls, h1, h2, -⟩ := C49_layers_partial T hT iter hiter D T.addDirOk hgo.staysIn orig ho (fun d h => by
    have := (hgo orig d orig ho h).2
    exact neighbour_ne orig d this.symm) fuel hfuel
  refine ⟨ls, h1, fun k layer hl => ?_⟩
  obtain ⟨h3, h4, -⟩ := h2 k layer hl
  refine ⟨h4, fun q => ?_⟩
  have e : q ∈ layer.map Prod.fst ↔ ∃ d, (q, d) ∈ layer := by
    simp [List.mem_map]
  rw [e, h3 q]
  constructor
  · intro h
    have hq := isDist_inGrid hgo.staysIn ho h
    refine ⟨hq, ?_⟩
    rw [← (C82_distance T hT D orig q ho hq (k + 1)).1 h]
    push_cast
    rfl
  · rintro ⟨hq, h⟩
    rw [C82_distance T hT D orig q ho hq, h]
    push_cast
    rfl

/-- C82. With `pos_dir_add_ok` (and unit costs) the breadth-first and the uniform-cost search, and A* without diagonals, return paths as long as the
Manhattan distance, or the Chebyshev distance with diagonals; or `Loop` if that is more than the square of the number of columns. -/
theorem C82_paths [Target] (T : PosTy) (hT : T.Searchable) (bfs) (hbfs : Bf.IsSearch T bfs) (astar) (hastar : Astar.IsSearch T astar)
    (ucs) (hucs : Ucs.IsSearch T ucs) (D : Bool) (orig dest : Int × Int) (ho : InGrid T orig) (hd : InGrid T dest) (fuel : Nat)
    (hf1 : cols T * rows T < (fuel : Int)) (hf2 : Astar.steps T < (fuel : Int)) (hf3 : Ucs.steps T < (fuel : Int)) :
    let n := if D then linf orig dest else l1 orig dest
    (n ≤ cols T * cols T →
      (dest ≠ orig → ∃ path, bfs D T.addDirOk orig (fun p => p == dest) fuel = .ok (.ok (dest, path)) ∧ (path.length : Int) = n) ∧
      (∃ path, ucs D (unitCost T.addDirOk) orig dest fuel = .ok (.ok path) ∧ (path.length : Int) = n) ∧
      (D = false → ∃ path, astar D T.addDirOk orig dest fuel = .ok (.ok path) ∧ (path.length : Int) = n)) ∧
    (cols T * cols T < n →
      (dest ≠ orig → bfs D T.addDirOk orig (fun p => p == dest) fuel = .ok (.error .loop)) ∧
      ucs D (unitCost T.addDirOk) orig dest fuel = .ok (.error .loop) ∧
      (D = false → astar D T.addDirOk orig dest fuel = .ok (.error .loop))) := by
  intro n
  have hgo := addDirOk_adjacent hT.toIsGrid
  have hn0 : 0 ≤ n := moves_nonneg D orig dest
  obtain ⟨k, hk⟩ : ∃ k : Nat, (k : Int) = n := ⟨n.toNat, by omega⟩
  have hdist : IsDist T.addDirOk D orig dest k := (C82_distance T hT.toIsGrid D orig dest ho hd k).2 hk
  obtain ⟨u1, u2⟩ := C62_unit_exact T hT ucs hucs D T.addDirOk hgo orig dest ho hd fuel hf3 k hdist
  have hb := (C53_exact T hT bfs hbfs D T.addDirOk hgo orig ho (fun p => p == dest) fuel hf1).2 dest k (by simp)
  have hmin : ∀ q' m, (q' == dest) = true → q' ≠ orig → IsDist T.addDirOk D orig q' m → k ≤ m := by
    intro q' m h1 _ h2
    rw [beq_iff_eq] at h1
    subst h1
    exact Nat.le_of_eq (isDist_unique hdist h2)
  rw [← hk]
  refine ⟨fun hle => ⟨fun hne => ?_, u1 hle |>.imp fun p h => ⟨h.1, by rw [h.2]⟩, fun hD => ?_⟩, fun hlt => ⟨fun hne => ?_, u2 hlt, fun hD => ?_⟩⟩
  · obtain ⟨dest', path, h1⟩ := (hb hne hdist hmin).1 hle
    have h2 := (C51_valid_path T hT bfs hbfs D T.addDirOk hgo orig ho _ fuel dest' path h1).1
    rw [beq_iff_eq] at h2
    subst h2
    have h3 := (C52_shortest T hT bfs hbfs D T.addDirOk hgo orig ho _ fuel dest' path h1).1
    exact ⟨path, h1, by rw [isDist_unique h3 hdist]⟩
  · subst hD
    exact (C57_no_detour_exact T hT astar hastar T.addDirOk hgo orig dest ho hd fuel hf2 k hdist hk).1 hle |>.imp fun p h => ⟨h.1, by rw [h.2]⟩
  · exact (hb hne hdist hmin).2 hlt
  · subst hD
    exact (C57_no_detour_exact T hT astar hastar T.addDirOk hgo orig dest ho hd fuel hf2 k hdist hk).2 hlt

example : InGrid (PosTy.pos 6 4) (1, 4) ∧ InGrid (PosTy.pos 6 4) (5, 0) ∧ l1 (1, 4) (5, 0) = 8 ∧ linf (1, 4) (5, 0) = 4 ∧
    (8 : Int) ≤ cols (PosTy.pos 6 4) * cols (PosTy.pos 6 4) := by decide
example : Bf.pathHash (PosTy.pos 6 4) true (PosTy.pos 6 4).addDirOk (1, 4) (fun p => p == (5, 0)) 36 = .ok (.ok ((5, 0), [.NE, .NE, .NE, .NE])) := by
  decide +kernel

end Sqrid
