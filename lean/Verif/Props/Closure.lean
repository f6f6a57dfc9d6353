import Verif.Proofs.ClosureLog
import Verif.Props.SetMap
/-!
# Properties of the traversals and searches with closures that have effects: C94 – C99

`W` is everything a closure can read and change: counters, caches, a random number generator, a script. `Returns T go` only says that `go` panics, or answers a position of
the grid type or nothing, which Rust's types guarantee; what it answers can be different for each call. A run with `logged go` does the same as the run with `go` and also
keeps the list of calls and answers.
-/

namespace Sqrid

-- Statements that do not mention a target are about a debug build for a 64-bit machine.
attribute [local instance] debug64

open Spec

variable {W : Type}

/-! ## C94 -/

/-- C94. With a closure whose answers do not depend on the world, the traversal has the same outcome as with the function. -/
theorem C94_bf_iter (S : SetImpl) (D : Bool) (go : Int × Int → Dir → Eff W (Option (Int × Int))) (f : Int × Int → Dir → Option (Int × Int))
    (h : Answers go f) (orig : Int × Int) (fuel : Nat) (w : W) :
    (Bf.iterAllM S D go orig fuel w >>= fun s => .ok s.1) = Bf.iterAll S D f orig fuel :=
  (Bf.same_iterAll h.same S D orig fuel).outcome (Bf.runs_iterAll f S D orig fuel) w

/-- C94. The same for breadth-first search. -/
theorem C94_bfs [Target] (T : PosTy) (S : SetImpl) (M : MapImpl (Option Dir)) (D : Bool) (go : Int × Int → Dir → Eff W (Option (Int × Int)))
    (f : Int × Int → Dir → Option (Int × Int)) (h : Answers go f) (found : Int × Int → Eff W Bool) (g : Int × Int → Bool) (hg : Decides found g)
    (orig : Int × Int) (fuel : Nat) (w : W) :
    (Bf.searchPathM T S M D go orig found fuel w >>= fun s => .ok s.1) = Bf.searchPath T S M D f orig g fuel :=
  (Bf.same_searchPath h.same hg.same T S M D orig fuel).outcome (Bf.runs_searchPath f g T S M D orig fuel) w

/-- C94. The same for A*. -/
theorem C94_astar [Target] (T : PosTy) (M : MapImpl (Option Dir)) (C : MapImpl Int) (D : Bool) (go : Int × Int → Dir → Eff W (Option (Int × Int)))
    (f : Int × Int → Dir → Option (Int × Int)) (h : Answers go f) (orig dest : Int × Int) (fuel : Nat) (w : W) :
    (Astar.searchPathM T M C D go orig dest fuel w >>= fun s => .ok s.1) = Astar.searchPath T M C D f orig dest fuel :=
  (Astar.same_searchPath h.same T M C D orig dest fuel).outcome (Astar.runs_searchPath f T M C D orig dest fuel) w

/-- C94. The same for uniform-cost search. -/
theorem C94_ucs [Target] (T : PosTy) (M : MapImpl (Option Dir)) (C : MapImpl Int) (D : Bool) (go : Int × Int → Dir → Eff W (Option ((Int × Int) × Int)))
    (f : Int × Int → Dir → Option ((Int × Int) × Int)) (h : Answers go f) (orig dest : Int × Int) (fuel : Nat) (w : W) :
    (Ucs.searchPathM T M C D go orig dest fuel w >>= fun s => .ok s.1) = Ucs.searchPath T M C D f orig dest fuel :=
  (Ucs.same_searchPath h.same T M C D orig dest fuel).outcome (Ucs.runs_searchPath f T M C D orig dest fuel) w

/-- A closure that counts its calls and moves around walls. -/
def countingGo (T : PosTy) (walls : List (Int × Int)) : Int × Int → Dir → Eff Nat (Option (Int × Int)) := fun p d n =>
  .ok (aroundWalls T walls p d, n + 1)

/-- A predicate that counts its calls by hundreds. -/
def countingIs (dest : Int × Int) : Int × Int → Eff Nat Bool := fun p n => .ok (decide (p = dest), n + 100)

example : Answers (countingGo (PosTy.pos 2 2) [(1, 1)]) (aroundWalls (PosTy.pos 2 2) [(1, 1)]) ∧ Decides (countingIs (2, 0)) (fun p => decide (p = (2, 0))) ∧
    Bf.searchPathM (PosTy.pos 2 2) SetImpl.hash (MapImpl.hash none) false (countingGo (PosTy.pos 2 2) [(1, 1)]) (0, 0) (countingIs (2, 0)) 10 0 =
      .ok (.ok ((2, 0), [.E, .E]), 320) :=
  ⟨fun _ _ n => ⟨n + 1, rfl⟩, fun _ n => ⟨n + 100, rfl⟩, by decide +kernel⟩

/-! ## C95 -/

/-- C95. However far a breadth-first traversal is taken, the closure has been called exactly once for each direction of the mode, clockwise, from the origin and then from each
position of the layers yielded, in order; whatever it answers. -/
theorem C95_bf_iter_calls [Target] (T : PosTy) (hT : T.IsGrid) (S : SetImpl) (hS : S.Is T) (D : Bool) (go : Int × Int → Dir → Eff W (Option (Int × Int)))
    (hgo : Returns T go) (orig : Int × Int) (ho : InGrid T orig) (n : Nat) (w : W) :
    (Bf.iterTakeM S D go orig n w = .panic ∧ ¬ NoPanic T go) ∨
    ∃ layers w' log, Bf.iterTakeM S D go orig n w = .ok (layers, w') ∧ Bf.iterTakeM S D (logged go) orig n (w, []) = .ok (layers, (w', log)) ∧
      calls log = sweep D (orig :: layers.flatten.map Prod.fst) := by
  obtain ⟨R, hR⟩ := SetImpl.sim_of_is hT hS
  have hl := logged_panic hgo
  have hs : Eff.Same (fun w (s : W × GoLog) => s.1 = w) (Bf.iterTakeM S D go orig n) (Bf.iterTakeM S D (logged go) orig n) :=
    (BfIter.same_new (logged_same go) S D orig).bind fun it => (same_take (BfIter.same_next (logged_same go) S D) n it).bind fun _ => .pure _
  have hp : Eff.Post (¬ NoPanic T go) (Bf.iterTakeM S D (logged go) orig n) (w, []) fun a s => calls s.2 = sweep D (orig :: a.flatten.map Prod.fst) :=
    (BfIter.post_new (D := D) hR hl ho rfl).bind fun it s ⟨h1, h2, _⟩ =>
      (BfIter.post_take hR hl n h1 (by simpa using h2)).bind fun a s' ⟨_, h3, _⟩ => .pure (by simpa using h3)
  rcases hp.unlog hs with h | ⟨layers, w', log, h1, h2, h3⟩
  · exact .inl h
  · exact .inr ⟨layers, w', log, h1, h2, h3⟩

/-- C95. However far A* is taken, the closure has been called exactly once for each direction of the mode, clockwise, from each item yielded, in order; in particular
creating the iterator does not call it. -/
theorem C95_astar_calls [Target] (T : PosTy) (hT : T.Searchable) (C : MapImpl Int) (hC : C.Is T 0) (D : Bool) (go : Int × Int → Dir → Eff W (Option (Int × Int)))
    (hgo : Returns T go) (orig dest : Int × Int) (ho : InGrid T orig) (hd : InGrid T dest) (n : Nat) (w : W) :
    (AstarIter.takeFromM T C D go orig dest n w = .panic ∧ ¬ NoPanic T go) ∨
    ∃ items w' log, AstarIter.takeFromM T C D go orig dest n w = .ok (items, w') ∧ AstarIter.takeFromM T C D (logged go) orig dest n (w, []) = .ok (items, (w', log)) ∧
      calls log = sweep D (items.map Prod.fst) := by
  obtain ⟨R, hR⟩ := MapImpl.sim_of_is hT.toIsGrid hC
  have hl := logged_panic hgo
  have hs : Eff.Same (fun w (s : W × GoLog) => s.1 = w) (AstarIter.takeFromM T C D go orig dest n) (AstarIter.takeFromM T C D (logged go) orig dest n) :=
    (Eff.Same.code _).bind fun it => (same_take (AstarIter.same_next (logged_same go) T C D dest) n it).bind fun _ => .pure _
  have hp : Eff.Post (¬ NoPanic T go) (AstarIter.takeFromM T C D (logged go) orig dest n) (w, []) fun a s => calls s.2 = sweep D (a.map Prod.fst) := by
    obtain ⟨st, h1, h2⟩ := AstarIter.post_new (T := T) (R := R) (D := D) (log := []) hR ho rfl
    refine .code_bind h1 ((AstarIter.post_take hT hR hl hd n (w := (w, [])) h2).bind fun a s' h => .pure ?_)
    obtain ⟨more, h3, h4⟩ := h.2.1
    rw [h3]; simpa using h4
  rcases hp.unlog hs with h | ⟨items, w', log, h1, h2, h3⟩
  · exact .inl h
  · exact .inr ⟨items, w', log, h1, h2, h3⟩

/-- C95. The same for uniform-cost search, which can also panic because of an overflow. -/
theorem C95_ucs_calls [Target] (T : PosTy) (hT : T.Searchable) (C : MapImpl Int) (hC : C.Is T 0) (D : Bool) (B : Int) (hB : 0 ≤ B)
    (go : Int × Int → Dir → Eff W (Option ((Int × Int) × Int)))
    (hgo : ReturnsCost T B go) (orig : Int × Int) (ho : InGrid T orig) (n : Nat) (w : W) :
    (UcsIter.takeFromM C D go orig n w = .panic ∧ ¬ (NoPanic T go ∧ (Target.checks = false ∨ B * (cols T * rows T) < limit))) ∨
    ∃ items w' log, UcsIter.takeFromM C D go orig n w = .ok (items, w') ∧ UcsIter.takeFromM C D (logged go) orig n (w, []) = .ok (items, (w', log)) ∧
      calls log = sweep D (items.map Prod.fst) := by
  obtain ⟨R, hR⟩ := MapImpl.sim_of_is hT.toIsGrid hC
  have hl := loggedCost_panic hgo (B * (cols T * rows T) < limit) (Target.checks = false ∨ B * (cols T * rows T) < limit)
  have hs : Eff.Same (fun w (s : W × List (P2 × Dir × Option (P2 × Int))) => s.1 = w) (UcsIter.takeFromM C D go orig n) (UcsIter.takeFromM C D (logged go) orig n) :=
    (Eff.Same.code _).bind fun it => (same_take (UcsIter.same_next (logged_same go) C D) n it).bind fun _ => .pure _
  have hB' : B * (cols T * rows T) < limit → 0 ≤ B ∧ B * ((T.nx * T.ny : Nat) : Int) < usizeMax := fun h => ⟨hB, by rw [hT.cells_eq, usizeMax_eq]; exact h⟩
  have hp : Eff.Post (¬ (NoPanic T go ∧ (Target.checks = false ∨ B * (cols T * rows T) < limit))) (UcsIter.takeFromM C D (logged go) orig n) (w, []) fun a s => calls s.2 = sweep D (a.map Prod.fst) := by
    obtain ⟨st, h1, h2⟩ := UcsIter.post_new (T := T) (R := R) (D := D) (log := []) (small := B * (cols T * rows T) < limit) (B := B) hR ho (fun _ => hB) rfl
    refine .code_bind h1 ((UcsIter.post_take hT hR hB' (fun h hck hn => hn.2.elim (fun h0 => by rw [hck] at h0; cases h0) h) hl n (w := (w, [])) h2).bind fun a s' h => .pure ?_)
    obtain ⟨more, h3, h4⟩ := h.2.1
    rw [← h4, show more = withoutCosts s'.2 by rw [h3]; rfl]
    simp [calls, withoutCosts]
  rcases hp.unlog hs with h | ⟨items, w', log, h1, h2, h3⟩
  · exact .inl h
  · exact .inr ⟨items, w', log, h1, h2, h3⟩

/-- A closure that answers anything: it depends on the number of calls so far, and also answers positions that are not neighbours. -/
def fickleGo : Int × Int → Dir → Eff Nat (Option (Int × Int)) := fun p _ n =>
  .ok (if n % 3 = 2 then none else some ((p.1 + n) % 3, (p.2 + 2 * n) % 2), n + 1)

/-- The same, but the call number 6 panics. -/
def panickyGo : Int × Int → Dir → Eff Nat (Option (Int × Int)) := fun p d n => if n = 6 then .panic else fickleGo p d n

theorem fickle_returns : Returns (PosTy.pos 2 1) fickleGo := by
  intro p d n hp
  refine .inr ⟨_, _, rfl, fun q hq => ?_⟩
  split at hq
  · cases hq
  · injection hq with hq
    subst hq
    refine (PosTy.pos_isGrid (by decide) (by decide) (.inr (.inl (by decide)))).valid_iff'.2 ?_
    have h1 : (PosTy.pos 2 1).X.MAX = 2 := rfl
    have h2 : (PosTy.pos 2 1).Y.MAX = 1 := rfl
    rw [h1, h2]
    simp only
    omega

theorem fickle_noPanic : NoPanic (PosTy.pos 2 1) fickleGo := by
  intro p d n _ h
  cases h

theorem panicky_returns : Returns (PosTy.pos 2 1) panickyGo := by
  intro p d n hp
  by_cases h : n = 6
  · exact .inl (by rw [panickyGo, if_pos h])
  · rw [panickyGo, if_neg h]; exact fickle_returns p d n hp

example : InGrid (PosTy.pos 2 1) (0, 0) ∧ Returns (PosTy.pos 2 1) fickleGo ∧ Returns (PosTy.pos 2 1) panickyGo ∧
    (Bf.iterTakeM SetImpl.btree false (logged fickleGo) (0, 0) 1 (0, []) >>= fun s => .ok s.2.2) =
      .ok [((0, 0), .N, some (0, 0)), ((0, 0), .E, some (1, 0)), ((0, 0), .S, none), ((0, 0), .W, some (0, 0)),
        ((0, 0), .N, some (1, 0)), ((0, 0), .E, none), ((0, 0), .S, some (0, 0)), ((0, 0), .W, some (1, 0)),
        ((1, 0), .N, none), ((1, 0), .E, some (1, 0)), ((1, 0), .S, some (2, 0)), ((1, 0), .W, none)] ∧
    (AstarIter.takeFromM (PosTy.pos 2 1) (MapImpl.hash 0) false (logged fickleGo) (0, 0) (2, 1) 2 (0, []) >>= fun s => .ok (s.1, calls s.2.2)) =
      .ok ([((0, 0), .N), ((1, 0), .W)], [((0, 0), .N), ((0, 0), .E), ((0, 0), .S), ((0, 0), .W), ((1, 0), .N), ((1, 0), .E), ((1, 0), .S), ((1, 0), .W)]) ∧
    Bf.iterTakeM SetImpl.btree false panickyGo (0, 0) 1 0 = .panic :=
  ⟨by decide, fickle_returns, panicky_returns, by decide +kernel, by decide +kernel, by decide +kernel⟩

/-! ## C96 -/

/-- C96. Whatever the closure answers, a breadth-first traversal ends, unless the closure panics. It yields every position answered, except the origin, exactly once, in the order of
the first answers, with the opposite of the direction of that answer. It yields the origin, once, if one of the calls from the origin answered it. No layer is empty. -/
theorem C96_any_closure [Target] (T : PosTy) (hT : T.IsGrid) (S : SetImpl) (hS : S.Is T) (D : Bool) (go : Int × Int → Dir → Eff W (Option (Int × Int)))
    (hgo : Returns T go) (orig : Int × Int) (ho : InGrid T orig) (fuel : Nat) (hfuel : cols T * rows T < (fuel : Int)) (w : W) :
    (Bf.iterAllM S D go orig fuel w = .panic ∧ ¬ NoPanic T go) ∨
    ∃ layers w' log, Bf.iterAllM S D go orig fuel w = .ok (layers, w') ∧ Bf.iterAllM S D (logged go) orig fuel (w, []) = .ok (layers, (w', log)) ∧
      (layers.flatten.filter fun m => decide (m.1 ≠ orig)) = firstAnswers orig log ∧
      (orig ∈ layers.flatten.map Prod.fst ↔ ∃ e ∈ log.take (clockwise D).length, e.2.2 = some orig) ∧
      (layers.flatten.map Prod.fst).Nodup ∧ (∀ l ∈ layers, l ≠ []) ∧ ∀ m ∈ layers.flatten, InGrid T m.1 := by
  obtain ⟨R, hR⟩ := SetImpl.sim_of_is hT hS
  have hl := logged_panic hgo
  have hp := Bf.post_iterAll (D := D) hR hl ho fuel (by have := hT.cells_eq; omega) (w := (w, [])) rfl
  rcases hp.unlog (Bf.same_iterAll (logged_same go) S D orig fuel) with h | ⟨layers, w', log, h1, h2, ⟨f, hF⟩, -, h3, -⟩
  · exact .inl h
  · exact .inr ⟨layers, w', log, h1, h2, hF.firsts.symm, hF.org, hF.nodup, h3, hF.inGrid⟩

example : Returns (PosTy.pos 2 1) fickleGo ∧ NoPanic (PosTy.pos 2 1) fickleGo ∧
    Bf.iterAllM SetImpl.btree false fickleGo (0, 0) 7 0 = .ok ([[((0, 0), .S), ((1, 0), .W)], [((2, 0), .N)]], 16) ∧
    Bf.iterAllM SetImpl.btree true panickyGo (0, 0) 7 0 = .panic :=
  ⟨fickle_returns, fickle_noPanic, by decide +kernel, by decide +kernel⟩

/-! ## C97 -/

/-- C97. Whatever the closures answer, a breadth-first search ends, unless one of them panics. The predicate is called with the positions answered by the movement closure, in the
order of the first answers (and with the origin if it is one of the answers), with no position twice, up to the first `true`. If there is none, all the
positions answered have been tried and the result is `DestinationUnreachable`. Otherwise the result is the position it accepted with a path of steps on the grid from the origin to
it, or `Loop` or `InvalidMovement`. -/
theorem C97_any_closures [Target] (T : PosTy) (hT : T.Searchable) (S : SetImpl) (hS : S.Is T) (M : MapImpl (Option Dir)) (hM : M.Is T none) (D : Bool)
    (go : Int × Int → Dir → Eff W (Option (Int × Int))) (hgo : Returns T go) (found : Int × Int → Eff W Bool) (hfound : Tests T found)
    (orig : Int × Int) (ho : InGrid T orig) (fuel : Nat) (hfuel : cols T * rows T < (fuel : Int)) (w : W) :
    (Bf.searchPathM T S M D go orig found fuel w = .panic ∧ ¬ (NoPanic T go ∧ NoPanic1 T found)) ∨
    ∃ r w' log tests, Bf.searchPathM T S M D go orig found fuel w = .ok (r, w') ∧
      Bf.searchPathM T S M D (bothGo go) orig (bothFound found) fuel ((w, []), []) = .ok (r, ((w', log), tests)) ∧
      (tests.map Prod.fst).Nodup ∧
      ((r = .error .destinationUnreachable ∧ (∀ t ∈ tests, t.2 = false) ∧
          (tests.map Prod.fst).filter (fun p => decide (p ≠ orig)) = (firstAnswers orig log).map Prod.fst) ∨
       ∃ before dest, tests = before ++ [(dest, true)] ∧ (∀ t ∈ before, t.2 = false) ∧
          (tests.map Prod.fst).filter (fun p => decide (p ≠ orig)) <+: (firstAnswers orig log).map Prod.fst ∧
          (r = .error .loop ∨ r = .error .invalidMovement ∨ ∃ path, r = .ok (dest, path) ∧ IsPath (aroundWalls T []) D orig path dest)) := by
  obtain ⟨R, hR⟩ := SetImpl.sim_of_is hT.toIsGrid hS
  obtain ⟨RM, hRM⟩ := MapImpl.sim_of_is hT.toIsGrid hM
  obtain ⟨hl, hl1⟩ := logged_both hgo hfound
  have hp := Bf.post_searchPath (D := D) hT hR hRM hl hl1 ho fuel (by have := hT.cells_eq; omega) (w := ((w, []), [])) rfl rfl
  have hmiss : ∀ l : List (P2 × Dir), (misses l).map Prod.fst = l.map Prod.fst := fun l => by simp [misses]
  have hfilt : ∀ l : List (P2 × Dir), (l.map Prod.fst).filter (fun p => decide (p ≠ orig)) = (l.filter fun m => decide (m.1 ≠ orig)).map Prod.fst := fun l => by
    rw [List.filter_map]; rfl
  have hfalse : ∀ l : List (P2 × Dir), ∀ t ∈ misses l, t.2 = false := by
    intro l t ht
    obtain ⟨m, -, rfl⟩ := List.mem_map.1 ht
    rfl
  rcases hp.unlog_both (Bf.same_searchPath (bothGo_same go) (bothFound_same found) T S M D orig fuel) with h |
    ⟨r, w', log, tests, h1, h2, disc, more, ⟨⟨k, f, hF⟩, -⟩, hr⟩
  · exact .inl h
  · refine .inr ⟨r, w', log, tests, h1, h2, ?_⟩
    have hnd := hF.nodup
    rw [List.map_append, List.nodup_append] at hnd
    have hfs := hF.firsts
    simp only at hfs
    rcases hr with ⟨h3, h4, h5⟩ | ⟨a, m, b, h3, h4, h5, -⟩
    · simp only at h5
      subst h4
      rw [List.append_nil] at hfs
      refine ⟨by rw [h5, hmiss]; exact hnd.1, .inl ⟨h3, by rw [h5]; exact hfalse disc, ?_⟩⟩
      rw [h5, hmiss, hfilt, hfs]
    · simp only at h4
      have ht : tests.map Prod.fst = (a ++ [m]).map Prod.fst := by rw [h4]; simp [misses]
      have hpre : (a ++ [m]) <+: disc ++ more := ⟨b ++ more, by rw [h3]; simp⟩
      refine ⟨?_, .inr ⟨misses a, m.1, h4, hfalse a, ?_, h5⟩⟩
      · rw [ht]; exact List.Nodup.sublist (hpre.map _).sublist hF.nodup
      · rw [ht, hfilt, hfs]
        exact (hpre.filter _).map _

example : Returns (PosTy.pos 2 1) fickleGo ∧ Tests (PosTy.pos 2 1) (countingIs (2, 0)) ∧
    Bf.searchPathM (PosTy.pos 2 1) SetImpl.hash (MapImpl.btree none) false fickleGo (0, 0) (countingIs (2, 1)) 7 0 = .ok (.error .destinationUnreachable, 316) ∧
    Bf.searchPathM (PosTy.pos 2 1) SetImpl.hash (MapImpl.btree none) false fickleGo (0, 0) (countingIs (1, 0)) 7 0 = .ok (.ok ((1, 0), [.E]), 212) ∧
    Bf.searchPathM (PosTy.pos 2 1) SetImpl.hash (MapImpl.btree none) false panickyGo (0, 0) (countingIs (1, 0)) 7 0 = .panic :=
  ⟨fickle_returns, fun p n _ => .inr ⟨_, _, rfl⟩, by decide +kernel, by decide +kernel, by decide +kernel⟩

/-! ## C98 -/

/-- C98. Whatever the closure answers, A* ends, unless the closure panics. There are some items, at most the square of the number of positions plus one, each the origin or an answer of
the closure, and the closure is called clockwise from each one. The result is `DestinationUnreachable` if and only if the destination is not the origin and never was an answer.
Otherwise the destination is the last item, and no other, and the result is a path of steps on the grid from the origin to it, or `Loop` or `InvalidMovement`. -/
theorem C98_any_closure [Target] (T : PosTy) (hT : T.Searchable) (M : MapImpl (Option Dir)) (hM : M.Is T none) (C : MapImpl Int) (hC : C.Is T 0) (D : Bool)
    (go : Int × Int → Dir → Eff W (Option (Int × Int))) (hgo : Returns T go) (orig dest : Int × Int) (ho : InGrid T orig) (hd : InGrid T dest)
    (fuel : Nat) (hfuel : 1 + (cols T * rows T) * (cols T * rows T) < (fuel : Int)) (w : W) :
    (Astar.searchPathM T M C D go orig dest fuel w = .panic ∧ ¬ NoPanic T go) ∨
    ∃ r w' log items, Astar.searchPathM T M C D go orig dest fuel w = .ok (r, w') ∧
      Astar.searchPathM T M C D (logged go) orig dest fuel (w, []) = .ok (r, (w', log)) ∧
      calls log = sweep D (items.map Prod.fst) ∧ (items.length : Int) ≤ 1 + (cols T * rows T) * (cols T * rows T) ∧
      (∀ m ∈ items, m = (orig, Dir.N) ∨ m ∈ answers log) ∧
      ((r = .error .destinationUnreachable ∧ dest ≠ orig ∧ (∀ m ∈ answers log, m.1 ≠ dest) ∧ dest ∉ items.map Prod.fst) ∨
       ((∃ pre d, items = pre ++ [(dest, d)] ∧ dest ∉ pre.map Prod.fst) ∧
         (r = .error .loop ∨ r = .error .invalidMovement ∨ ∃ path, r = .ok path ∧ IsPath (aroundWalls T []) D orig path dest))) := by
  obtain ⟨R, hR⟩ := MapImpl.sim_of_is hT.toIsGrid hC
  obtain ⟨RM, hRM⟩ := MapImpl.sim_of_is hT.toIsGrid hM
  have hcells := hT.cells_eq
  have hsq : ((1 + (T.nx * T.ny) * (T.nx * T.ny) : Nat) : Int) = 1 + (cols T * rows T) * (cols T * rows T) := by
    rw [Nat.cast_add, Nat.cast_mul, hcells]; rfl
  have hp := Astar.post_searchPath (D := D) hT hR hRM (logged_panic hgo) ho hd fuel (by omega) (w := (w, [])) rfl
  rcases hp.unlog (Astar.same_searchPath (logged_same go) T M C D orig dest fuel) with h | ⟨r, w', log, h1, h2, hr⟩
  · exact .inl h
  · refine .inr ⟨r, w', log, ?_⟩
    rcases hr with ⟨h3, ⟨items, ⟨more, k1, k2⟩, k3, k4, k5⟩, k6, k7⟩ | ⟨h3, -, ⟨items, ⟨more, k1, k2⟩, k3, k4, k5⟩⟩
    · simp only [List.nil_append] at k1
      subst k1
      rcases k5 with ⟨hf, -⟩ | ⟨-, k5⟩
      · exact hf.elim
      · exact ⟨items, h1, h2, k2, by omega, fun m hm => (k4 m hm).2, .inl ⟨h3, k6, k7, k5⟩⟩
    · simp only [List.nil_append] at k1
      subst k1
      rcases k5 with ⟨-, k5⟩ | ⟨hf, -⟩
      · exact ⟨items, h1, h2, k2, by omega, fun m hm => (k4 m hm).2, .inr ⟨k5, h3⟩⟩
      · exact absurd trivial hf

example : Returns (PosTy.pos 2 1) fickleGo ∧
    Astar.searchPathM (PosTy.pos 2 1) (MapImpl.btree none) (MapImpl.hash 0) false fickleGo (0, 0) (2, 1) 38 0 = .ok (.error .destinationUnreachable, 12) ∧
    Astar.searchPathM (PosTy.pos 2 1) (MapImpl.btree none) (MapImpl.hash 0) false fickleGo (0, 0) (1, 0) 38 0 = .ok (.ok [.E], 8) :=
  ⟨fickle_returns, by decide +kernel, by decide +kernel⟩

/-! ## C99 -/

/-- C99. Whatever the closure answers, uniform-cost search ends, unless the closure panics or a cost goes over the limit. The latter does not happen if no step costs more than `B` and
`B` times the number of positions is below the limit. The result is as in C98; if it is `DestinationUnreachable` and `B` is small, the destination never was an answer. -/
theorem C99_any_closure [Target] (T : PosTy) (hT : T.Searchable) (M : MapImpl (Option Dir)) (hM : M.Is T none) (C : MapImpl Int) (hC : C.Is T 0) (D : Bool)
    (B : Int) (hB : 0 ≤ B) (go : Int × Int → Dir → Eff W (Option ((Int × Int) × Int))) (hgo : ReturnsCost T B go) (orig dest : Int × Int)
    (ho : InGrid T orig) (hd : InGrid T dest) (fuel : Nat) (hfuel : 1 + limit * (cols T * rows T) < (fuel : Int)) (w : W) :
    (Ucs.searchPathM T M C D go orig dest fuel w = .panic ∧ ¬ (NoPanic T go ∧ (Target.checks = false ∨ B * (cols T * rows T) < limit))) ∨
    ∃ r w' log items, Ucs.searchPathM T M C D go orig dest fuel w = .ok (r, w') ∧
      Ucs.searchPathM T M C D (logged go) orig dest fuel (w, []) = .ok (r, (w', log)) ∧
      calls log = sweep D (items.map Prod.fst) ∧
      (∀ m ∈ items, m = (orig, Dir.N) ∨ m ∈ answers (withoutCosts log)) ∧
      ((r = .error .destinationUnreachable ∧ dest ≠ orig ∧ (B * (cols T * rows T) < limit → ∀ m ∈ answers (withoutCosts log), m.1 ≠ dest) ∧
          dest ∉ items.map Prod.fst) ∨
       ((∃ pre d, items = pre ++ [(dest, d)] ∧ dest ∉ pre.map Prod.fst) ∧
         (r = .error .loop ∨ r = .error .invalidMovement ∨ ∃ path, r = .ok path ∧ IsPath (aroundWalls T []) D orig path dest))) := by
  obtain ⟨R, hR⟩ := MapImpl.sim_of_is hT.toIsGrid hC
  obtain ⟨RM, hRM⟩ := MapImpl.sim_of_is hT.toIsGrid hM
  have hcells := hT.cells_eq
  have hsq : ((1 + ucsCap * (T.nx * T.ny) : Nat) : Int) = 1 + limit * (cols T * rows T) := by
    rw [Nat.cast_add, Nat.cast_mul, hcells, ucsCap_eq]; rfl
  have hB' : B * (cols T * rows T) < limit → 0 ≤ B ∧ B * ((T.nx * T.ny : Nat) : Int) < usizeMax := fun h => ⟨hB, by rw [hT.cells_eq, usizeMax_eq]; exact h⟩
  have hcalls : ∀ log : List (P2 × Dir × Option (P2 × Int)), calls (withoutCosts log) = calls log := fun log => by simp [calls, withoutCosts]
  have hp := Ucs.post_searchPath (D := D) hT hR hRM hB' (fun h hck hn => hn.2.elim (fun h0 => by rw [hck] at h0; cases h0) h) (loggedCost_panic hgo _ (Target.checks = false ∨ B * (cols T * rows T) < limit)) ho hd fuel (by omega) (w := (w, [])) rfl
  rcases hp.unlog (Ucs.same_searchPath (logged_same go) T M C D orig dest fuel) with h | ⟨r, w', log, h1, h2, hr⟩
  · exact .inl h
  · refine .inr ⟨r, w', log, ?_⟩
    rcases hr with ⟨h3, ⟨items, ⟨more, k1, k2⟩, k3, k4, k5⟩, k6, k7⟩ | ⟨h3, -, ⟨items, ⟨more, k1, k2⟩, k3, k4, k5⟩⟩
    · simp only [List.nil_append] at k1
      rw [← k1, hcalls] at k2
      rcases k5 with ⟨hf, -⟩ | ⟨-, k5⟩
      · exact hf.elim
      · exact ⟨items, h1, h2, k2, fun m hm => (k4 m hm).2, .inl ⟨h3, k6, k7, k5⟩⟩
    · simp only [List.nil_append] at k1
      rw [← k1, hcalls] at k2
      rcases k5 with ⟨-, k5⟩ | ⟨hf, -⟩
      · exact ⟨items, h1, h2, k2, fun m hm => (k4 m hm).2, .inr ⟨k5, h3⟩⟩
      · exact absurd trivial hf

/-- The closure that answers anything, with costs. -/
def fickleCost : Int × Int → Dir → Eff Nat (Option ((Int × Int) × Int)) := fun p _ n =>
  .ok (if n % 3 = 2 then none else some (((p.1 + n) % 3, (p.2 + 2 * n) % 2), ((n * n) % 5 : Nat)), n + 1)

/-- Steps that cost almost as much as the limit. -/
def costlyGo [Target] : Int × Int → Dir → Eff Nat (Option ((Int × Int) × Int)) := fun p d n => .ok ((aroundWalls (PosTy.pos 2 1) [] p d).map fun q => (q, limit - 1), n + 1)

example : ReturnsCost (PosTy.pos 2 1) 4 fickleCost ∧ (4 : Int) * (cols (PosTy.pos 2 1) * rows (PosTy.pos 2 1)) < limit ∧
    Ucs.searchPathM (PosTy.pos 2 1) (MapImpl.btree none) (MapImpl.hash 0) false fickleCost (0, 0) (2, 1) (2 + 6 * 2 ^ 64) 0 = .ok (.error .destinationUnreachable, 12) ∧
    Ucs.searchPathM (PosTy.pos 2 1) (MapImpl.btree none) (MapImpl.hash 0) false fickleCost (0, 0) (1, 0) (2 + 6 * 2 ^ 64) 0 = .ok (.ok [.E], 8) ∧
    Ucs.searchPathM (PosTy.pos 2 1) (MapImpl.btree none) (MapImpl.hash 0) false costlyGo (0, 0) (2, 1) (2 + 6 * 2 ^ 64) 0 = .panic := by
  refine ⟨fun p d n hp => .inr ⟨_, _, rfl, fun q c hq => ?_⟩, by decide, by decide +kernel, by decide +kernel, by decide +kernel⟩
  split at hq
  · cases hq
  · injection hq with hq
    injection hq with hq hc
    subst hq hc
    have h1 : (PosTy.pos 2 1).X.MAX = 2 := rfl
    have h2 : (PosTy.pos 2 1).Y.MAX = 1 := rfl
    refine ⟨(PosTy.pos_isGrid (by decide) (by decide) (.inr (.inl (by decide)))).valid_iff'.2 ?_, by omega, by omega⟩
    rw [h1, h2]
    simp only
    omega

end Sqrid
