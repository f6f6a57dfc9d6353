import Verif.Props.Closure
/-!
# Properties of the searches with closures that only step to neighbours: C100

`Steps go` says that `go` answers nothing, or the neighbour in the direction of the call. The walls may still change all the time. A step is in `granted log` if the closure
answered it in one of the calls of the log.
-/

namespace Sqrid

-- Statements that do not mention a target are about a debug build for a 64-bit machine.
attribute [local instance] debug64

open Spec

variable {W : Type}

/-- C100. Breadth-first search with walls that may change: it never returns `InvalidMovement`, it returns `Loop` only if the grid has more rows than columns, and all the steps of
a path it returns were granted during this search. -/
theorem C100_bfs_granted [Target] (T : PosTy) (hT : T.Searchable) (S : SetImpl) (hS : S.Is T) (M : MapImpl (Option Dir)) (hM : M.Is T none) (D : Bool)
    (go : Int × Int → Dir → Eff W (Option (Int × Int))) (hgo : Returns T go) (hst : Steps go) (found : Int × Int → Eff W Bool) (hfound : Tests T found)
    (orig : Int × Int) (ho : InGrid T orig) (fuel : Nat) (hfuel : cols T * rows T < (fuel : Int)) (w : W) :
    (Bf.searchPathM T S M D go orig found fuel w = .panic ∧ ¬ (NoPanic T go ∧ NoPanic1 T found)) ∨
    ∃ r w' log tests, Bf.searchPathM T S M D go orig found fuel w = .ok (r, w') ∧
      Bf.searchPathM T S M D (bothGo go) orig (bothFound found) fuel ((w, []), []) = .ok (r, ((w', log), tests)) ∧
      ((r = .error .destinationUnreachable ∧ ∀ t ∈ tests, t.2 = false) ∨
       ∃ dest, (dest, true) ∈ tests ∧ ((r = .error .loop ∧ cols T < rows T) ∨ ∃ path, r = .ok (dest, path) ∧ IsPath (granted log) D orig path dest)) := by
  obtain ⟨R, hR⟩ := SetImpl.sim_of_is hT.toIsGrid hS
  obtain ⟨RM, hRM⟩ := MapImpl.sim_of_is hT.toIsGrid hM
  obtain ⟨hl, hl1⟩ := logged_both hgo hfound
  have hp := Bf.post_searchPath (D := D) hT hR hRM hl hl1 ho fuel (by have := hT.cells_eq; omega) (w := ((w, []), [])) rfl rfl
  rcases hp.unlog_both (Bf.same_searchPath (bothGo_same go) (bothFound_same found) T S M D orig fuel) with h |
    ⟨r, w', log, tests, h1, h2, disc, more, ⟨⟨k, f, hF⟩, -⟩, hr⟩
  · exact .inl h
  · refine .inr ⟨r, w', log, tests, h1, h2, ?_⟩
    have hI : ∀ p d w a w', go p d w = .ok (a, w') → ∀ q, a = some q → q = neighbour p d := fun p d w a w' h q hq => hst p d w q w' (hq ▸ h)
    have hs := Bf.same_searchPath (bothGo_same_all (fun p d a => ∀ q, a = some q → q = neighbour p d) hI)
      (bothFound_same_all (fun p d a => ∀ q, a = some q → q = neighbour p d) found) T S M D orig fuel
    have hadj := (hs.finish (w := w) (v := ((w, []), [])) ⟨rfl, fun e he => by cases he⟩ h1 h2).2
    rcases hr with ⟨h3, -, h5⟩ | ⟨a, m, b, h3, h4, -, h6⟩
    · simp only at h5
      refine .inl ⟨h3, fun t ht => ?_⟩
      rw [h5] at ht
      obtain ⟨m, -, rfl⟩ := List.mem_map.1 ht
      rfl
    · simp only at h4
      refine .inr ⟨m.1, by rw [h4]; simp, (h6 hadj).imp (fun ⟨h7, h8⟩ => ⟨h7, ?_⟩) id⟩
      have hn := nodup_length_le hF.nodup fun p hp => by
        obtain ⟨x, hx, rfl⟩ := List.mem_map.1 hp
        exact hF.inGrid x hx
      rw [h3] at hn
      simp only [List.map_append, List.map_cons, List.length_append, List.length_cons, List.length_map] at hn
      have hxy : T.nx * T.nx < T.nx * T.ny := by omega
      have hlt := Nat.lt_of_mul_lt_mul_left hxy
      have e1 := hT.nx_eq
      have e2 := hT.ny_eq
      have m1 := hT.x0
      have m2 := hT.y0
      simp only [cols, rows]
      omega

/-- C100. A* with walls that may change: it never returns `InvalidMovement`, and all the steps of a path it returns were granted during this search. -/
theorem C100_astar_granted [Target] (T : PosTy) (hT : T.Searchable) (M : MapImpl (Option Dir)) (hM : M.Is T none) (C : MapImpl Int) (hC : C.Is T 0) (D : Bool)
    (go : Int × Int → Dir → Eff W (Option (Int × Int))) (hgo : Returns T go) (hst : Steps go) (orig dest : Int × Int) (ho : InGrid T orig) (hd : InGrid T dest)
    (fuel : Nat) (hfuel : 1 + (cols T * rows T) * (cols T * rows T) < (fuel : Int)) (w : W) :
    (Astar.searchPathM T M C D go orig dest fuel w = .panic ∧ ¬ NoPanic T go) ∨
    ∃ r w' log, Astar.searchPathM T M C D go orig dest fuel w = .ok (r, w') ∧
      Astar.searchPathM T M C D (logged go) orig dest fuel (w, []) = .ok (r, (w', log)) ∧
      ((r = .error .destinationUnreachable ∧ dest ≠ orig ∧ ∀ m ∈ answers log, m.1 ≠ dest) ∨ r = .error .loop ∨
        ∃ path, r = .ok path ∧ IsPath (granted log) D orig path dest) := by
  obtain ⟨R, hR⟩ := MapImpl.sim_of_is hT.toIsGrid hC
  obtain ⟨RM, hRM⟩ := MapImpl.sim_of_is hT.toIsGrid hM
  have hcells := hT.cells_eq
  have hsq : ((1 + (T.nx * T.ny) * (T.nx * T.ny) : Nat) : Int) = 1 + (cols T * rows T) * (cols T * rows T) := by
    rw [Nat.cast_add, Nat.cast_mul, hcells]; rfl
  have hp := Astar.post_searchPath (D := D) hT hR hRM (logged_panic hgo) ho hd fuel (by omega) (w := (w, [])) rfl
  rcases hp.unlog (Astar.same_searchPath (logged_same go) T M C D orig dest fuel) with h | ⟨r, w', log, h1, h2, hr⟩
  · exact .inl h
  · refine .inr ⟨r, w', log, h1, h2, ?_⟩
    have hI : ∀ p d w a w', go p d w = .ok (a, w') → ∀ q, a = some q → q = neighbour p d := fun p d w a w' h q hq => hst p d w q w' (hq ▸ h)
    have hadj := ((Astar.same_searchPath (logged_same_all (fun p d a => ∀ q, a = some q → q = neighbour p d) hI) T M C D orig dest fuel).finish ⟨rfl, by simp⟩ h1 h2).2
    rcases hr with ⟨h3, -, h4⟩ | ⟨-, h3, -⟩
    · exact .inl ⟨h3, h4⟩
    · exact .inr (h3 hadj)

/-- C100. The same for uniform-cost search. -/
theorem C100_ucs_granted [Target] (T : PosTy) (hT : T.Searchable) (M : MapImpl (Option Dir)) (hM : M.Is T none) (C : MapImpl Int) (hC : C.Is T 0) (D : Bool)
    (B : Int) (hB : 0 ≤ B) (go : Int × Int → Dir → Eff W (Option ((Int × Int) × Int))) (hgo : ReturnsCost T B go) (hst : StepsCost go) (orig dest : Int × Int)
    (ho : InGrid T orig) (hd : InGrid T dest) (fuel : Nat) (hfuel : 1 + limit * (cols T * rows T) < (fuel : Int)) (w : W) :
    (Ucs.searchPathM T M C D go orig dest fuel w = .panic ∧ ¬ (NoPanic T go ∧ (Target.checks = false ∨ B * (cols T * rows T) < limit))) ∨
    ∃ r w' log, Ucs.searchPathM T M C D go orig dest fuel w = .ok (r, w') ∧
      Ucs.searchPathM T M C D (logged go) orig dest fuel (w, []) = .ok (r, (w', log)) ∧
      ((r = .error .destinationUnreachable ∧ dest ≠ orig) ∨ r = .error .loop ∨
        ∃ path, r = .ok path ∧ IsPath (granted (withoutCosts log)) D orig path dest) := by
  obtain ⟨R, hR⟩ := MapImpl.sim_of_is hT.toIsGrid hC
  obtain ⟨RM, hRM⟩ := MapImpl.sim_of_is hT.toIsGrid hM
  have hcells := hT.cells_eq
  have hsq : ((1 + ucsCap * (T.nx * T.ny) : Nat) : Int) = 1 + limit * (cols T * rows T) := by
    rw [Nat.cast_add, Nat.cast_mul, hcells, ucsCap_eq]; rfl
  have hB' : B * (cols T * rows T) < limit → 0 ≤ B ∧ B * ((T.nx * T.ny : Nat) : Int) < usizeMax := fun h => ⟨hB, by rw [hT.cells_eq, usizeMax_eq]; exact h⟩
  have hp := Ucs.post_searchPath (D := D) hT hR hRM hB' (fun h hck hn => hn.2.elim (fun h0 => by rw [hck] at h0; cases h0) h) (loggedCost_panic hgo _ (Target.checks = false ∨ B * (cols T * rows T) < limit)) ho hd fuel (by omega) (w := (w, [])) rfl
  rcases hp.unlog (Ucs.same_searchPath (logged_same go) T M C D orig dest fuel) with h | ⟨r, w', log, h1, h2, hr⟩
  · exact .inl h
  · refine .inr ⟨r, w', log, h1, h2, ?_⟩
    have hI : ∀ p d w a w', go p d w = .ok (a, w') → ∀ x, a = some x → x.1 = neighbour p d := fun p d w a w' h x hx => hst p d w x.1 x.2 w' (hx ▸ h)
    have hadj := ((Ucs.same_searchPath (logged_same_all (fun p d a => ∀ x, a = some x → x.1 = neighbour p d) hI) T M C D orig dest fuel).finish ⟨rfl, by simp⟩ h1 h2).2
    rcases hr with ⟨h3, -, h4, -⟩ | ⟨-, h3, -⟩
    · exact .inl ⟨h3, h4⟩
    · refine .inr (h3 fun e he q hq => ?_)
      obtain ⟨x, hx, rfl⟩ := List.mem_map.1 he
      simp only at hq ⊢
      obtain ⟨y, hy, rfl⟩ := Option.map_eq_some_iff.1 hq
      exact hadj x hx y hy

/-- Walls that move: in every third call the whole column in the middle is closed. -/
def doorGo : Int × Int → Dir → Eff Nat (Option (Int × Int)) := fun p d n =>
  .ok (aroundWalls (PosTy.pos 2 2) (if n % 3 = 0 then [(1, 0), (1, 1), (1, 2)] else [(1, 1)]) p d, n + 1)

/-- The same with costs that depend on the number of calls. -/
def doorCost : Int × Int → Dir → Eff Nat (Option ((Int × Int) × Int)) := fun p d n =>
  .ok ((aroundWalls (PosTy.pos 2 2) (if n % 3 = 0 then [(1, 0), (1, 1), (1, 2)] else [(1, 1)]) p d).map fun q => (q, ((n % 4 : Nat) : Int)), n + 1)

theorem aroundWalls_some {T : PosTy} {walls : List P2} {p q : P2} {d : Dir} (h : aroundWalls T walls p d = some q) : q = neighbour p d ∧ InGrid T q := by
  unfold aroundWalls at h
  split at h
  · injection h with h; subst h; rename_i h; exact ⟨rfl, h.1⟩
  · cases h

theorem door_steps : Returns (PosTy.pos 2 2) doorGo ∧ Steps doorGo := by
  refine ⟨fun p d n _ => .inr ⟨_, _, rfl, fun q hq => (aroundWalls_some hq).2⟩, fun p d n q w' h => ?_⟩
  injection h with h
  injection h with h _
  exact (aroundWalls_some h).1

theorem doorCost_steps : ReturnsCost (PosTy.pos 2 2) 3 doorCost ∧ StepsCost doorCost := by
  refine ⟨fun p d n _ => .inr ⟨_, _, rfl, fun q c hq => ?_⟩, fun p d n q c w' h => ?_⟩
  · obtain ⟨x, hx, he⟩ := Option.map_eq_some_iff.1 hq
    injection he with h1 h2
    subst h1 h2
    exact ⟨(aroundWalls_some hx).2, by omega, by omega⟩
  · injection h with h
    injection h with h _
    obtain ⟨x, hx, he⟩ := Option.map_eq_some_iff.1 h
    injection he with h1 h2
    subst h1
    exact (aroundWalls_some hx).1


example : Returns (PosTy.pos 2 2) doorGo ∧ Steps doorGo ∧ ReturnsCost (PosTy.pos 2 2) 3 doorCost ∧ StepsCost doorCost ∧
    Bf.searchPathM (PosTy.pos 2 2) SetImpl.hash (MapImpl.btree none) false doorGo (0, 0) (countingIs (2, 2)) 10 0 = .ok (.ok ((2, 2), [.E, .E, .S, .S]), 732) ∧
    Astar.searchPathM (PosTy.pos 2 2) (MapImpl.btree none) (MapImpl.hash 0) false doorGo (0, 0) (2, 2) 83 0 = .ok (.ok [.E, .E, .S, .S], 20) ∧
    Ucs.searchPathM (PosTy.pos 2 2) (MapImpl.btree none) (MapImpl.hash 0) false doorCost (0, 0) (2, 2) (2 + 9 * 2 ^ 64) 0 = .ok (.ok [.E, .E, .S, .S], 28) :=
  ⟨door_steps.1, door_steps.2, doorCost_steps.1, doorCost_steps.2, by decide +kernel, by decide +kernel, by decide +kernel⟩

/-- Walls and costs from a script: `none` is a wall, `some c` a step of cost `c`, which is at most 6. -/
def scriptGo (T : PosTy) : Int × Int → Dir → Eff (List (Option Nat)) (Option ((Int × Int) × Int)) := fun p d script =>
  match script with
  | [] => .ok (none, [])
  | none :: rest => .ok (none, rest)
  | some c :: rest => .ok ((aroundWalls T [] p d).map fun q => (q, ((min c 6 : Nat) : Int)), rest)

theorem script_steps (T : PosTy) : StepsCost (scriptGo T) := by
  intro p d script q c w' h
  unfold scriptGo at h
  split at h
  · injection h with h; injection h with h _; cases h
  · injection h with h; injection h with h _; cases h
  · injection h with h
    injection h with h _
    obtain ⟨x, hx, he⟩ := Option.map_eq_some_iff.1 h
    injection he with h1 _
    subst h1
    exact (aroundWalls_some hx).1

theorem script_returns (T : PosTy) : ReturnsCost T 6 (scriptGo T) := by
  intro p d script _
  unfold scriptGo
  split
  · exact .inr ⟨_, _, rfl, fun q c h => by cases h⟩
  · exact .inr ⟨_, _, rfl, fun q c h => by cases h⟩
  · refine .inr ⟨_, _, rfl, fun q c h => ?_⟩
    obtain ⟨x, hx, he⟩ := Option.map_eq_some_iff.1 h
    injection he with h1 h2
    subst h1 h2
    exact ⟨(aroundWalls_some hx).2, by omega, by omega⟩

/-- C100. `Loop` cannot be left out of `C100_ucs_granted`: on a square grid, without diagonals, where walls and costs that stay as they are never make uniform-cost
search return it (`C62_wide_partial`), walls and costs that change can. -/
theorem C100_ucs_loop_occurs [Target] : ∃ (go : Int × Int → Dir → Eff (List (Option Nat)) (Option ((Int × Int) × Int))) (script : List (Option Nat)) (fuel : Nat),
    ReturnsCost (PosTy.pos 3 3) 6 go ∧ StepsCost go ∧ 1 + limit * (cols (PosTy.pos 3 3) * rows (PosTy.pos 3 3)) < (fuel : Int) ∧
    Ucs.searchPathM (PosTy.pos 3 3) (MapImpl.hash none) (MapImpl.hash 0) false go (1, 0) (2, 2) fuel script = .ok (.error .loop, []) :=
  ⟨scriptGo (PosTy.pos 3 3),
    [none, some 0, some 2, some 2, none, some 0, none, none, none, none, none, none, none, some 1, some 6, some 6, none, none, some 0, none, none, none, none, none,
        none, some 0, none, none, none, none, none, none, none, none, none, some 1, none, none, some 0, none, none, none, none, none, none, some 0, none, none, none,
        some 0], 2 + 16 * 2 ^ 64, script_returns _, script_steps _, by decide_target, by decide_target⟩

/-- Walls from a script: 0 is a wall, 1 is none. -/
def wallGo (T : PosTy) : Int × Int → Dir → Eff (List Nat) (Option (Int × Int)) := fun p d script =>
  match script with
  | [] => .ok (none, [])
  | open_ :: rest => .ok (if open_ = 0 then none else aroundWalls T [] p d, rest)

theorem wall_steps (T : PosTy) : Returns T (wallGo T) ∧ Steps (wallGo T) := by
  refine ⟨fun p d script _ => ?_, fun p d script q w' h => ?_⟩
  · unfold wallGo
    split
    · exact .inr ⟨_, _, rfl, fun q hq => by cases hq⟩
    · refine .inr ⟨_, _, rfl, fun q hq => ?_⟩
      split at hq
      · cases hq
      · exact (aroundWalls_some hq).2
  · unfold wallGo at h
    split at h
    · injection h with h; injection h with h _; cases h
    · injection h with h
      injection h with h _
      split at h
      · cases h
      · exact (aroundWalls_some h).1

/-- C100. `Loop` cannot be left out of `C100_astar_granted` either: on a square grid, without diagonals, where walls that stay as they are never make A* return it
(`C57_wide_straight_partial`), walls that change can. -/
theorem C100_astar_loop_occurs [Target] : ∃ (go : Int × Int → Dir → Eff (List Nat) (Option (Int × Int))) (script : List Nat) (fuel : Nat),
    Returns (PosTy.pos 4 4) go ∧ Steps go ∧ 1 + (cols (PosTy.pos 4 4) * rows (PosTy.pos 4 4)) * (cols (PosTy.pos 4 4) * rows (PosTy.pos 4 4)) < (fuel : Int) ∧
    Astar.searchPathM (PosTy.pos 4 4) (MapImpl.hash none) (MapImpl.hash 0) false go (4, 3) (2, 0) fuel script = .ok (.error .loop, []) :=
  ⟨wallGo (PosTy.pos 4 4),
    [0, 0, 1, 1, 0, 0, 1, 0, 0, 0, 0, 0, 0, 0, 0, 1, 0, 0, 0, 1,
        1, 0, 0, 0, 0, 1, 0, 1, 1, 0, 0, 0, 0, 1, 0, 1, 1, 0, 0, 0,
        0, 1, 0, 1, 0, 0, 0, 1, 0, 0, 0, 1, 1, 0, 0, 0, 0, 0, 0, 0,
        0, 0, 0, 0, 0, 0, 0, 1, 1, 0, 0, 0, 0, 0, 0, 0, 0, 1, 0, 0,
        1, 0, 0, 0, 0, 1, 0, 0], 627, (wall_steps _).1, (wall_steps _).2, by decide, by decide_target⟩

end Sqrid
