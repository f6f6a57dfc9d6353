import Verif.Spec.Bisect
import Verif.Props.SearchLaws
/-!
# Which wall cuts off the destination: C159
-/

namespace Sqrid

-- Statements that do not mention a target are about a debug build for a 64-bit machine.
attribute [local instance] debug64

open Spec

theorem bisect_spec (blocked : Nat → Out Bool) (B : Nat → Bool) (len : Nat) (hB : ∀ m ≤ len, blocked m = .ok (B m)) (hmono : ∀ i j, i ≤ j → j ≤ len → B i = true → B j = true)
    (times lo hi : Nat) (hlo : ∀ m, m < lo → m ≤ len → B m = false) (hhi : ∀ m, hi ≤ m → m ≤ len → B m = true) (h1 : lo ≤ hi) (h2 : hi ≤ len + 1) (ht : hi - lo < 2 ^ times) :
    ∃ n calls, bisect blocked times lo hi = .ok (n, calls) ∧ calls ≤ times ∧ n ≤ len + 1 ∧ ∀ m ≤ len, B m = false ↔ m < n := by
  induction times generalizing lo hi with
  | zero =>
    have : ¬ lo < hi := by
      rw [Nat.pow_zero] at ht
      omega
    refine ⟨lo, 0, by rw [bisect, if_neg this], Nat.le_refl 0, by omega, fun m hm => ?_⟩
    constructor
    · intro h
      by_contra hc
      rw [hhi m (by omega) hm] at h
      cases h
    · exact fun h => hlo m h hm
  | succ times ih =>
    by_cases hc : lo < hi
    · rw [bisect, if_pos hc]
      simp only
      rw [hB _ (by omega), Out.ok_bind]
      rw [Nat.pow_succ] at ht
      cases hb : B ((lo + hi) / 2) with
      | true =>
        obtain ⟨n, calls, a1, a2, a3, a4⟩ := ih lo ((lo + hi) / 2) hlo (fun m hm hl => hmono _ m hm hl hb) (by omega) (by omega) (by omega)
        rw [if_pos rfl, a1]
        exact ⟨n, calls + 1, rfl, by omega, a3, a4⟩
      | false =>
        obtain ⟨n, calls, a1, a2, a3, a4⟩ := ih ((lo + hi) / 2 + 1) hi (fun m hm hl => by
          cases hbm : B m with
          | false => rfl
          | true => rw [hmono m _ (by omega) (by omega) hbm] at hb; cases hb) hhi (by omega) (by omega) (by omega)
        rw [if_neg (by simp), a1]
        exact ⟨n, calls + 1, rfl, by omega, a3, a4⟩
    · refine ⟨lo, 0, by rw [bisect, if_neg hc], Nat.zero_le _, by omega, fun m hm => ?_⟩
      constructor
      · intro h
        by_contra hc'
        rw [hhi m (by omega) hm] at h
        cases h
      · exact fun h => hlo m h hm

theorem reachable_fewer {T : PosTy} {D : Bool} {walls walls' : List P2} (hsub : ∀ p ∈ walls', p ∈ walls) {p q : P2} (h : Reachable (aroundWalls T walls) D p q) :
    Reachable (aroundWalls T walls') D p q := by
  obtain ⟨ds, h1, h2⟩ := h
  refine ⟨ds, h1, ?_⟩
  clear h1
  induction ds generalizing p with
  | nil => exact h2
  | cons d ds ih =>
    unfold follow at h2 ⊢
    cases hg : aroundWalls T walls p d with
    | none => rw [hg] at h2; cases h2
    | some r =>
      rw [hg] at h2
      have : aroundWalls T walls' p d = some r := by
        unfold aroundWalls at hg ⊢
        split at hg
        · rename_i hc
          rw [if_pos ⟨hc.1, fun hm => hc.2 (hsub _ hm)⟩]
          exact hg
        · cases hg
      rw [this]
      exact ih h2

theorem firstCut_of {α : Type} (T : PosTy) (D : Bool) (orig dest : P2) (walls : List P2) (search : List P2 → Out (Res α))
    (hs : ∀ w, (search w = .ok (.error .destinationUnreachable) ↔ ¬ Reachable (aroundWalls T w) D orig dest) ∧ ∃ r, search w = .ok r)
    (times : Nat) (ht : walls.length + 1 < 2 ^ times) :
    ∃ n calls, bisect (fun m => do .ok (unreachable (← search (walls.take m)))) times 0 (walls.length + 1) = .ok (n, calls) ∧ calls ≤ times ∧
      FirstCut T D orig dest walls n := by
  have hb : ∀ w, ∃ b, (do .ok (unreachable (← search w))) = Out.ok b ∧ (b = false ↔ Reachable (aroundWalls T w) D orig dest) := by
    intro w
    obtain ⟨h1, r, h2⟩ := hs w
    refine ⟨unreachable r, by rw [h2]; rfl, ?_⟩
    rw [h2] at h1
    constructor
    · intro h
      by_contra hc
      have := h1.2 hc
      injection this with this
      subst this
      cases h
    · intro h
      cases hu : unreachable r with
      | false => rfl
      | true =>
        exfalso
        refine h1.1 ?_ h
        unfold unreachable at hu
        split at hu
        · rfl
        · cases hu
  choose B hB1 hB2 using hb
  obtain ⟨n, calls, a1, a2, a3, a4⟩ := bisect_spec (fun m => do .ok (unreachable (← search (walls.take m)))) (fun m => B (walls.take m)) walls.length (fun m _ => hB1 _)
    (fun i j hij _ hi => by
      cases hj : B (walls.take j) with
      | true => rfl
      | false =>
        rw [(hB2 _).2 (reachable_fewer (fun p hp => List.take_subset_take_left walls hij hp) ((hB2 _).1 hj))] at hi
        cases hi) times 0 (walls.length + 1) (fun m hm => absurd hm (by omega)) (fun m hm => by omega) (by omega) (Nat.le_refl _) (by omega)
  exact ⟨n, calls, a1, a2, a3, fun m hm => by rw [← hB2]; exact a4 m hm⟩

theorem bfs_unreachable [Target] (T : PosTy) (hT : T.Searchable) (bfs) (hbfs : Bf.IsSearch T bfs) (D : Bool) (go : Int × Int → Dir → Option (Int × Int)) (hgo : Adjacent T go)
    (orig dest : Int × Int) (ho : InGrid T orig) (hne : dest ≠ orig) (fuel : Nat) (hfuel : cols T * rows T < (fuel : Int)) :
    (bfs D go orig (fun p => p == dest) fuel = .ok (.error .destinationUnreachable) ↔ ¬ Reachable go D orig dest) ∧ ∃ r, bfs D go orig (fun p => p == dest) fuel = .ok r := by
  obtain ⟨h1, h2⟩ := C53_exact T hT bfs hbfs D go hgo orig ho (fun p => p == dest) fuel hfuel
  by_cases hr : Reachable go D orig dest
  · obtain ⟨n, hn⟩ := reachable_iff_isDist.1 hr
    obtain ⟨h3, h4⟩ := h2 dest n (by simp) hne hn fun q' m hq' _ hm => by
      have := beq_iff_eq.1 hq'
      subst this
      rw [isDist_unique hn hm]
    by_cases hl : (n : Int) ≤ cols T * cols T
    · obtain ⟨dest', path, h5⟩ := h3 hl
      rw [h5]
      exact ⟨⟨(fun h => by cases h), fun h => absurd hr h⟩, _, rfl⟩
    · rw [h4 (by omega)]
      exact ⟨⟨(fun h => by cases h), fun h => absurd hr h⟩, _, rfl⟩
  · have h3 := h1 fun q hq _ => by rw [beq_iff_eq.1 hq]; exact hr
    exact ⟨⟨fun _ => hr, fun _ => h3⟩, _, h3⟩

theorem astar_unreachable [Target] (T : PosTy) (hT : T.Searchable) (astar) (hastar : Astar.IsSearch T astar) (D : Bool) (go : Int × Int → Dir → Option (Int × Int)) (hgo : Adjacent T go)
    (orig dest : Int × Int) (ho : InGrid T orig) (hd : InGrid T dest) (fuel : Nat) (hfuel : Astar.steps T < (fuel : Int)) :
    (astar D go orig dest fuel = .ok (.error .destinationUnreachable) ↔ ¬ Reachable go D orig dest) ∧ ∃ r, astar D go orig dest fuel = .ok r := by
  obtain ⟨h1, h2⟩ := C57_unreachable_partial T hT astar hastar D go hgo orig dest ho hd fuel hfuel
  refine ⟨h1, ?_⟩
  by_cases hr : Reachable go D orig dest
  · rcases h2.1 hr with ⟨path, h⟩ | h
    · exact ⟨_, h⟩
    · exact ⟨_, h⟩
  · exact ⟨_, h1.2 hr⟩

/-- C159. Bisection with breadth-first search finds the first wall that cuts off the destination, if that is not the origin, in grids of every shape. -/
theorem C159_bfs [Target] (T : PosTy) (hT : T.Searchable) (bfs) (hbfs : Bf.IsSearch T bfs) (D : Bool) (orig dest : Int × Int) (ho : InGrid T orig) (hne : dest ≠ orig)
    (fuel : Nat) (hfuel : cols T * rows T < (fuel : Int)) (walls : List (Int × Int)) (times : Nat) (ht : walls.length + 1 < 2 ^ times) :
    ∃ n calls, bisect (fun m => do .ok (unreachable (← bfs D (aroundWalls T (walls.take m)) orig (fun p => p == dest) fuel))) times 0 (walls.length + 1) = .ok (n, calls) ∧
      calls ≤ times ∧ FirstCut T D orig dest walls n := by
  refine firstCut_of T D orig dest walls (fun w => bfs D (aroundWalls T w) orig (fun p => p == dest) fuel) (fun w => ?_) times ht
  exact bfs_unreachable T hT bfs hbfs D (aroundWalls T w) (aroundWalls_adjacent T w) orig dest ho hne fuel hfuel

/-- C159. The same with A*. -/
theorem C159_astar [Target] (T : PosTy) (hT : T.Searchable) (astar) (hastar : Astar.IsSearch T astar) (D : Bool) (orig dest : Int × Int) (ho : InGrid T orig)
    (hd : InGrid T dest) (fuel : Nat) (hfuel : Astar.steps T < (fuel : Int)) (walls : List (Int × Int)) (times : Nat) (ht : walls.length + 1 < 2 ^ times) :
    ∃ n calls, bisect (fun m => do .ok (unreachable (← astar D (aroundWalls T (walls.take m)) orig dest fuel))) times 0 (walls.length + 1) = .ok (n, calls) ∧
      calls ≤ times ∧ FirstCut T D orig dest walls n := by
  refine firstCut_of T D orig dest walls (fun w => astar D (aroundWalls T w) orig dest fuel) (fun w => ?_) times ht
  obtain ⟨h1, h2⟩ := C57_unreachable_partial T hT astar hastar D (aroundWalls T w) (aroundWalls_adjacent T w) orig dest ho hd fuel hfuel
  refine ⟨h1, ?_⟩
  by_cases hr : Reachable (aroundWalls T w) D orig dest
  · rcases h2.1 hr with ⟨path, h⟩ | h
    · exact ⟨_, h⟩
    · exact ⟨_, h⟩
  · exact ⟨_, h1.2 hr⟩

/-- C159. The same with uniform-cost search, whatever the steps cost. -/
theorem C159_ucs [Target] (T : PosTy) (hT : T.Searchable) (ucs) (hucs : Ucs.IsSearch T ucs) (D : Bool) (cost : Int × Int → Dir → Int) (B : Int)
    (hB : ∀ p d, 0 ≤ cost p d ∧ cost p d ≤ B) (hlim : B * (cols T * rows T) < limit) (orig dest : Int × Int) (ho : InGrid T orig)
    (hd : InGrid T dest) (fuel : Nat) (hfuel : Ucs.steps T < (fuel : Int)) (walls : List (Int × Int)) (times : Nat) (ht : walls.length + 1 < 2 ^ times) :
    ∃ n calls, bisect (fun m => do .ok (unreachable (← ucs D (stepCosts T (walls.take m) cost) orig dest fuel))) times 0 (walls.length + 1) = .ok (n, calls) ∧
      calls ≤ times ∧ FirstCut T D orig dest walls n := by
  have hB0 : 0 ≤ B := by have := hB (0, 0) .N; omega
  have hcells : 1 ≤ cols T * rows T := by
    have h1 : 1 ≤ cols T := by unfold cols; have := ho.1; omega
    have h2 : 1 ≤ rows T := by unfold rows; have := ho.2; omega
    nlinarith
  have hBl : B < limit := by nlinarith
  refine firstCut_of T D orig dest walls (fun w => ucs D (stepCosts T w cost) orig dest fuel) (fun w => ?_) times ht
  obtain ⟨h1, h2⟩ := C62_unreachable_partial T hT ucs hucs D (stepCosts T w cost) (stepCosts_adjacent T w cost)
    (stepCosts_usize T w fun p d => ⟨(hB p d).1, by have := (hB p d).2; omega⟩) orig dest ho hd (stepCosts_below hT w D ho hB0 (fun p d => (hB p d).2) hlim) fuel hfuel
  rw [dropCost_stepCosts] at h1 h2
  refine ⟨h1, ?_⟩
  by_cases hr : Reachable (aroundWalls T w) D orig dest
  · rcases h2.1 hr with ⟨path, h⟩ | h
    · exact ⟨_, h⟩
    · exact ⟨_, h⟩
  · exact ⟨_, h1.2 hr⟩

-- The third wall of four closes a line across the grid; three searches find it.
example : bisect (fun m => do .ok (unreachable (← Bf.pathHash (PosTy.pos 2 2) false (aroundWalls (PosTy.pos 2 2) ([(1, 0), (1, 2), (1, 1), (2, 2)].take m)) (0, 0) (fun p => p == (2, 0)) 10)))
    3 0 5 = .ok (3, 3) := by decide +kernel
-- One that never is cut off.
example : bisect (fun m => do .ok (unreachable (← Astar.pathHash (PosTy.pos 2 2) false (aroundWalls (PosTy.pos 2 2) ([(1, 0), (1, 2), (0, 1)].take m)) (2, 1) (2, 0) 1000)))
    3 0 4 = .ok (4, 2) := by decide +kernel

-- With a swamp.
example : bisect (fun m => do .ok (unreachable (← Ucs.pathHash (PosTy.pos 2 2) false (stepCosts (PosTy.pos 2 2) ([(1, 0), (1, 2), (1, 1), (2, 2)].take m) fun p _ => if p = (0, 1) then 7 else 2)
    (0, 0) (2, 0) 1000))) 3 0 5 = .ok (3, 3) ∧ 7 * (cols (PosTy.pos 2 2) * rows (PosTy.pos 2 2)) < limit ∧ Ucs.steps (PosTy.pos 2 2) < 1000 := by decide +kernel

/-- C159. In a grid that is taller than wide it must be the error `DestinationUnreachable` that is asked for: a search that fails because the path is too long also returns an error,
so that asking for any error finds a wall that is not there. -/
theorem C159_any_error_differs [Target] :
    bisect (fun m => do .ok (match ← Bf.pathHash (PosTy.pos 0 2) false (aroundWalls (PosTy.pos 0 2) ([].take m)) (0, 0) (fun p => p == (0, 2)) 10 with | .ok _ => false | .error _ => true)) 1 0 1 =
      .ok (0, 1) ∧ FirstCut (PosTy.pos 0 2) false (0, 0) (0, 2) [] 1 := by
  refine ⟨by decide_target, by decide, fun m hm => ?_⟩
  simp only [List.length_nil, Nat.le_zero] at hm
  subst hm
  refine ⟨fun _ => by decide, fun _ => ⟨[.S, .S], ?_, by decide_target⟩⟩
  intro d hd
  revert d
  simp [Allowed, unit]

theorem isPath_wall {T : PosTy} {D : Bool} {up : List P2} {wall p q : P2} {path : List Dir} (h : IsPath (aroundWalls T up) D p path q) (hw : wall ∉ entered p path) :
    IsPath (aroundWalls T (up ++ [wall])) D p path q := by
  obtain ⟨h1, h2⟩ := h
  refine ⟨h1, ?_⟩
  clear h1
  induction path generalizing p with
  | nil => exact h2
  | cons d ds ih =>
    unfold follow at h2 ⊢
    unfold entered at hw
    rw [List.mem_cons, not_or] at hw
    cases hg : aroundWalls T up p d with
    | none => rw [hg] at h2; cases h2
    | some r =>
      rw [hg] at h2
      unfold aroundWalls at hg
      split at hg
      · rename_i hc
        injection hg with hg
        subst hg
        have : aroundWalls T (up ++ [wall]) p d = some (neighbour p d) := by
          unfold aroundWalls
          refine if_pos ⟨hc.1, ?_⟩
          rw [List.mem_append, List.mem_singleton]
          rintro (h | h)
          · exact hc.2 h
          · exact hw.1 h.symm
        rw [this]
        exact ih hw.2 h2
      · cases hg

/-- C159. Searching anew only when a wall is put up on the path at hand finds the same wall, in a grid that is not taller than wide, or with any search that returns a path exactly
if there is one. -/
theorem C159_on_the_path (T : PosTy) (D : Bool) (orig dest : Int × Int) (search : List (Int × Int) → Out (Res (List Dir)))
    (hs : ∀ walls, (Reachable (aroundWalls T walls) D orig dest → ∃ path, search walls = .ok (.ok path) ∧ IsPath (aroundWalls T walls) D orig path dest) ∧
      (¬ Reachable (aroundWalls T walls) D orig dest → ∃ e, search walls = .ok (.error e))) (walls : List (Int × Int)) (path : List Dir) (hpath : search [] = .ok (.ok path)) :
    ∃ n, putUp search orig [] walls path = .ok n ∧ FirstCut T D orig dest walls n := by
  have key : ∀ left up path, IsPath (aroundWalls T up) D orig path dest → ∃ n, putUp search orig up left path = .ok n ∧ up.length < n ∧ n ≤ up.length + left.length + 1 ∧
      ∀ m ≤ left.length, Reachable (aroundWalls T (up ++ left.take m)) D orig dest ↔ up.length + m < n := by
    intro left
    induction left with
    | nil =>
      intro up path h
      refine ⟨up.length + 1, rfl, by omega, by simp, fun m hm => ?_⟩
      simp only [List.length_nil, Nat.le_zero] at hm
      subst hm
      simp only [List.take_nil, List.append_nil]
      exact ⟨fun _ => by omega, fun _ => ⟨path, h⟩⟩
    | cons wall left ih =>
      intro up path h
      have step : ∀ path', IsPath (aroundWalls T (up ++ [wall])) D orig path' dest → ∃ n, putUp search orig (up ++ [wall]) left path' = .ok n ∧ up.length < n ∧
          n ≤ up.length + (wall :: left).length + 1 ∧ ∀ m ≤ (wall :: left).length, Reachable (aroundWalls T (up ++ (wall :: left).take m)) D orig dest ↔ up.length + m < n := by
        intro path' h'
        obtain ⟨n, a1, a2, a3, a4⟩ := ih (up ++ [wall]) path' h'
        rw [List.length_append, List.length_singleton] at a2 a3 a4
        refine ⟨n, a1, by omega, by rw [List.length_cons]; omega, fun m hm => ?_⟩
        cases m with
        | zero => exact ⟨fun _ => by omega, fun _ => ⟨path, by simpa using h⟩⟩
        | succ m =>
          have := a4 m (by simpa using hm)
          rw [List.append_assoc, List.singleton_append] at this
          rw [List.take_succ_cons, this]
          constructor <;> intro <;> omega
      unfold putUp
      split
      · by_cases hr : Reachable (aroundWalls T (up ++ [wall])) D orig dest
        · obtain ⟨path', h1, h2⟩ := (hs _).1 hr
          rw [h1, Out.ok_bind]
          exact step path' h2
        · obtain ⟨e, h1⟩ := (hs _).2 hr
          rw [h1, Out.ok_bind]
          refine ⟨up.length + 1, rfl, by omega, by rw [List.length_cons]; omega, fun m hm => ?_⟩
          cases m with
          | zero => exact ⟨fun _ => by omega, fun _ => ⟨path, by simpa using h⟩⟩
          | succ m =>
            refine ⟨fun h3 => absurd (reachable_fewer (fun p hp => ?_) h3) hr, fun h3 => by omega⟩
            rw [List.take_succ_cons]
            rcases List.mem_append.1 hp with hp | hp
            · exact List.mem_append_left _ hp
            · rw [List.mem_singleton.1 hp]
              simp
      · rename_i hw
        exact step path (isPath_wall h hw)
  have h0 : IsPath (aroundWalls T []) D orig path dest := by
    by_cases hr : Reachable (aroundWalls T []) D orig dest
    · obtain ⟨path', h1, h2⟩ := (hs []).1 hr
      rw [hpath] at h1
      injection h1 with h1
      injection h1 with h1
      exact h1 ▸ h2
    · obtain ⟨e, h1⟩ := (hs []).2 hr
      rw [hpath] at h1
      cases h1
  obtain ⟨n, a1, a2, a3, a4⟩ := key walls [] path h0
  simp only [List.length_nil, Nat.zero_add, List.nil_append] at a3 a4
  exact ⟨n, a1, a3, a4⟩

/-- C159. Breadth-first search is such a search in grids that are not taller than wide, if the destination is not the origin. -/
theorem C159_on_the_path_bfs [Target] (T : PosTy) (hT : T.Searchable) (hwide : rows T ≤ cols T) (bfs) (hbfs : Bf.IsSearch T bfs) (D : Bool) (orig dest : Int × Int)
    (ho : InGrid T orig) (hne : dest ≠ orig) (fuel : Nat) (hfuel : cols T * rows T < (fuel : Int)) (walls : List (Int × Int)) (path : List Dir)
    (hpath : bfs D (aroundWalls T []) orig (fun p => p == dest) fuel = .ok (.ok (dest, path))) :
    ∃ n, putUp (fun w => do .ok ((← bfs D (aroundWalls T w) orig (fun p => p == dest) fuel).map Prod.snd)) orig [] walls path = .ok n ∧ FirstCut T D orig dest walls n := by
  refine C159_on_the_path T D orig dest _ (fun w => ?_) walls path (by rw [hpath]; rfl)
  obtain ⟨h1, h2⟩ := C53_wide_partial T hT hwide bfs hbfs D (aroundWalls T w) (aroundWalls_adjacent T w) orig ho (fun p => p == dest) (by simp [Ne.symm hne]) fuel hfuel
  constructor
  · intro hr
    obtain ⟨dest', path', h3⟩ := h1 ⟨dest, by simp, hr⟩
    obtain ⟨h4, h5⟩ := C51_valid_path T hT bfs hbfs D (aroundWalls T w) (aroundWalls_adjacent T w) orig ho _ fuel dest' path' h3
    have := beq_iff_eq.1 h4
    subst this
    exact ⟨path', by rw [h3]; rfl, h5⟩
  · intro hr
    refine ⟨.destinationUnreachable, ?_⟩
    rw [h2 (by rintro ⟨q, hq, h3⟩; exact hr (beq_iff_eq.1 hq ▸ h3))]
    rfl

/-- C159. A* without diagonals is such a search in grids that are not taller than wide. -/
theorem C159_on_the_path_astar [Target] (T : PosTy) (hT : T.Searchable) (hwide : rows T ≤ cols T) (astar) (hastar : Astar.IsSearch T astar) (orig dest : Int × Int)
    (ho : InGrid T orig) (hd : InGrid T dest) (fuel : Nat) (hfuel : Astar.steps T < (fuel : Int)) (walls : List (Int × Int)) (path : List Dir)
    (hpath : astar false (aroundWalls T []) orig dest fuel = .ok (.ok path)) :
    ∃ n, putUp (fun w => astar false (aroundWalls T w) orig dest fuel) orig [] walls path = .ok n ∧ FirstCut T false orig dest walls n := by
  refine C159_on_the_path T false orig dest _ (fun w => ?_) walls path hpath
  obtain ⟨h1, h2⟩ := C57_wide_straight_partial T hT hwide astar hastar (aroundWalls T w) (aroundWalls_adjacent T w) orig dest ho hd fuel hfuel
  constructor
  · intro hr
    obtain ⟨path', h3⟩ := h1 hr
    exact ⟨path', h3, C55_valid_path T hT astar hastar false (aroundWalls T w) (aroundWalls_adjacent T w) orig dest ho hd fuel path' h3⟩
  · exact fun hr => ⟨_, h2 hr⟩

example : putUp (fun w => Astar.pathHash (PosTy.pos 2 2) false (aroundWalls (PosTy.pos 2 2) w) (0, 0) (2, 0) 1000) (0, 0) [] [(1, 0), (1, 2), (1, 1), (2, 2)] [.E, .E] = .ok 3 ∧
    Astar.pathHash (PosTy.pos 2 2) false (aroundWalls (PosTy.pos 2 2) []) (0, 0) (2, 0) 1000 = .ok (.ok [.E, .E]) := by decide +kernel
example : rows (PosTy.pos 2 2) ≤ cols (PosTy.pos 2 2) ∧ Astar.steps (PosTy.pos 2 2) < 1000 := by decide +kernel

end Sqrid
