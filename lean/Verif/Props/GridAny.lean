import Verif.Props.Safety
import Verif.Props.Release
/-!
# `Grid` with every position type: C116
-/

namespace Sqrid

-- Statements that do not mention a target are about a debug build for a 64-bit machine.
attribute [local instance] debug64

open Spec

open Out.NoUb

/-! ## C116 -/

theorem Out.NoUb.height [Target] (T : PosTy) : T.height.NoUb := (intoUsize _ _).bind fun _ => add _ _ _

theorem Out.NoUb.coords (B : BTy) : B.toList.NoUb := collectWith (fun _ => ok _) _ _

theorem Out.NoUb.posFlipH (T : PosTy) (p : Int × Int) : (T.flipH p).NoUb := (unwrap _).bind fun _ => unwrapRes _
theorem Out.NoUb.posFlipV (T : PosTy) (p : Int × Int) : (T.flipV p).NoUb := (unwrap _).bind fun _ => unwrapRes _

theorem Out.NoUb.posRotateCw [Target] (T : PosTy) (p : Int × Int) : (T.rotateCw p).NoUb := by
  unfold PosTy.rotateCw
  exact (sub _ _ _).bind fun _ => (unwrapRes _).bind fun _ => (unwrapRes _).bind fun _ => ok _

namespace Grid

theorem swap_noUb (g : List α) (i j : Int) : (swap g i j).NoUb := by
  unfold swap
  split
  · exact ok _
  · exact panic

theorem fromIterLoop_noUb : ∀ (n : Nat) (items : List α), (fromIterLoop n items).NoUb
  | 0, _ => ok _
  | _ + 1, [] => panic
  | n + 1, _ :: items => (fromIterLoop_noUb n items).bind fun _ => ok _

theorem fromIter_noUb (SIZE : Nat) (items : List α) : (fromIter SIZE items).NoUb :=
  (fromIterLoop_noUb SIZE items).bind fun r => by
    obtain ⟨vs, rest⟩ := r
    simp only
    split
    · exact ok _
    · exact panic

theorem anyLonger_noUb [Target] (T : PosTy) : ∀ vec : List (List α), (anyLonger T vec).NoUb
  | [] => ok _
  | v :: vs => (width T).bind fun w => by
    split
    · exact ok _
    · exact anyLonger_noUb T vs

theorem takeAt_noUb (dflt : α) (vec : List (List α)) (y x : Nat) : (takeAt dflt vec y x).NoUb := by
  unfold takeAt
  split
  · exact panic
  · split
    · exact panic
    · exact ok _

theorem fromVecVecLoop_noUb [Target] (T : PosTy) (dflt : α) : ∀ (n i : Nat) (vec : List (List α)), (fromVecVecLoop T dflt i n vec).NoUb
  | 0, _, _ => ok _
  | n + 1, i, vec => by
    rw [fromVecVecLoop]
    refine Out.NoUb.bind ?_ fun r => (fromVecVecLoop_noUb T dflt n (i + 1) r.2).bind fun _ => ok _
    unfold fromVecVecItem
    refine Out.NoUb.bind ?_ fun r => (unwrapRes r).bind fun pos => ?_
    · unfold PosTy.tryFromUsize
      refine (width T).bind fun w => ?_
      refine Out.NoUb.bind ?_ fun _ => Out.NoUb.bind ?_ fun _ => ok _
      · unfold IntTy.rem; split; exacts [panic, ok _]
      · unfold IntTy.div; split; exacts [panic, ok _]
    · split
      · exact ok _
      · split
        · exact ok _
        · split
          · exact ok _
          · split
            · exact takeAt_noUb _ _ _ _
            · exact ok _

end Grid

/-- C116. Only reading and writing at a position can leave the array of a `Grid`: whatever the type of positions, the SIZE and the build, the lines,
flips, rotations, negation and the conversions from iterators and nested vectors have no undefined behaviour. -/
theorem C116_no_ub [Target] (T : PosTy) (g : List α) :
    (∀ y, Grid.line T g y ≠ .ub ∧ ∀ x v, Grid.lineMutSet T g y x v ≠ .ub) ∧ Grid.flipH T g ≠ .ub ∧ Grid.flipV T g ≠ .ub ∧
    (∀ M, Grid.rotateCw M g ≠ .ub ∧ Grid.rotateCc M g ≠ .ub) ∧ (∀ SIZE items, Grid.fromIter (α := α) SIZE items ≠ .ub) ∧
    (∀ SIZE dflt vec, Grid.tryFromVecVec (α := α) T SIZE dflt vec ≠ .ub) ∧ ∀ n : α → Out α, (∀ a, n a ≠ .ub) → Grid.neg n g ≠ .ub := by
  refine ⟨fun y => ⟨?_, fun x v => ?_⟩, ?_, ?_, fun M => ⟨?_, ?_⟩, fun SIZE items => Grid.fromIter_noUb SIZE items, fun SIZE dflt vec => ?_,
    fun n hn => ?_⟩
  · refine (width T).bind fun _ => (unwrapRes _).bind fun _ => (mul _ _ _).bind fun _ => (add _ _ _).bind fun _ => ?_
    split
    · exact ok _
    · exact panic
  · refine (width T).bind fun _ => (unwrapRes _).bind fun _ => (mul _ _ _).bind fun _ => (add _ _ _).bind fun _ => ?_
    split
    · split
      · exact ok _
      · exact panic
    · exact panic
  · exact (coords _).bind fun _ => (width T).bind fun _ => foldlM (fun g y => foldlM (fun g x =>
      (unwrapRes _).bind fun _ => (posFlipH _ _).bind fun _ => (Out.NoUb.toUsize _ _).bind fun _ => (Out.NoUb.toUsize _ _).bind fun _ =>
        Grid.swap_noUb _ _ _) _ _) _ _
  · exact (height T).bind fun _ => (coords _).bind fun _ => foldlM (fun g y => foldlM (fun g x =>
      (unwrapRes _).bind fun _ => (posFlipV _ _).bind fun _ => (Out.NoUb.toUsize _ _).bind fun _ => (Out.NoUb.toUsize _ _).bind fun _ =>
        Grid.swap_noUb _ _ _) _ _) _ _
  · exact (height _).bind fun _ => foldlM (fun g y => foldlM (fun g x =>
      (unwrapRes _).bind fun _ => (unwrapRes _).bind fun _ => (unwrapRes _).bind fun _ => (posRotateCw _ _).bind fun _ => (posRotateCw _ _).bind fun _ =>
      (posRotateCw _ _).bind fun _ => (Out.NoUb.toUsize _ _).bind fun _ => (Out.NoUb.toUsize _ _).bind fun _ => (Out.NoUb.toUsize _ _).bind fun _ =>
      (Out.NoUb.toUsize _ _).bind fun _ => (Grid.swap_noUb _ _ _).bind fun _ => (Grid.swap_noUb _ _ _).bind fun _ => Grid.swap_noUb _ _ _) _ _) _ _
  · exact (height _).bind fun _ => foldlM (fun g y => foldlM (fun g x =>
      (unwrapRes _).bind fun _ => (unwrapRes _).bind fun _ => (unwrapRes _).bind fun _ => (posRotateCw _ _).bind fun _ => (posRotateCw _ _).bind fun _ =>
      (posRotateCw _ _).bind fun _ => (Out.NoUb.toUsize _ _).bind fun _ => (Out.NoUb.toUsize _ _).bind fun _ => (Out.NoUb.toUsize _ _).bind fun _ =>
      (Out.NoUb.toUsize _ _).bind fun _ => (Grid.swap_noUb _ _ _).bind fun _ => (Grid.swap_noUb _ _ _).bind fun _ => Grid.swap_noUb _ _ _) _ _) _ _
  · unfold Grid.tryFromVecVec
    refine Out.NoUb.bind ?_ fun big => ?_
    · unfold Grid.tooBig
      refine (height T).bind fun h => ?_
      split
      · exact ok _
      · exact Grid.anyLonger_noUb T vec
    · split
      · exact ok _
      · exact (Grid.fromVecVecLoop_noUb T dflt _ _ _).bind fun _ => ok _
  · exact (Out.NoUb.mapM hn _).bind fun _ => Grid.fromIter_noUb _ _

example : Grid.line (PosTy.tuple .i8) [7, 8] 3 = .panic ∧ Grid.flipH (PosTy.tuple .i8) [7, 8] = .panic ∧ Grid.rotateCw 4 [7, 8] = .panic ∧
    Grid.tryFromVecVec (PosTy.pos 1 0) 3 0 [[5, 6]] = .panic := by decide +kernel

/-- C116. Reading and writing, with any type of positions, any SIZE and in any build: at a position that has no index both panic. At an index within
the array a write changes that item alone. Beyond the array both are undefined behaviour. -/
theorem C116_get_set_exact [Target] (T : PosTy) (g : List α) (p : Int × Int) :
    (T.toUsize p = .panic → Grid.get T g p = .panic ∧ ∀ v, Grid.set T g p v = .panic) ∧
    ∀ i : Nat, T.toUsize p = .ok i →
      (g.length ≤ i → Grid.get T g p = .ub ∧ ∀ v, Grid.set T g p v = .ub) ∧
      (i < g.length → (∃ a, g[i]? = some a ∧ Grid.get T g p = .ok a) ∧ ∀ v, ∃ g', Grid.set T g p v = .ok g' ∧ g'.length = g.length ∧
        Grid.get T g' p = .ok v ∧ ∀ q (j : Nat), T.toUsize q = .ok j → j ≠ i → Grid.get T g' q = Grid.get T g q) := by
  refine ⟨fun h => ⟨by rw [Grid.get, h]; rfl, fun v => by rw [Grid.set, h]; rfl⟩, fun i hi => ⟨fun hlen => ⟨?_, fun v => ?_⟩, fun hlen => ⟨?_, fun v => ?_⟩⟩⟩
  · rw [Grid.get, hi, Out.ok_bind, Grid.getUnchecked, Int.toNat_natCast, List.getElem?_eq_none hlen]
  · rw [Grid.set, hi, Out.ok_bind, Grid.setUnchecked, Int.toNat_natCast, if_neg (by omega)]
  · refine ⟨g[i], List.getElem?_eq_getElem hlen, ?_⟩
    rw [Grid.get, hi, Out.ok_bind, Grid.getUnchecked, Int.toNat_natCast, List.getElem?_eq_getElem hlen]
  · refine ⟨g.set i v, ?_, List.length_set, ?_, fun q j hj hne => ?_⟩
    · rw [Grid.set, hi, Out.ok_bind, Grid.setUnchecked, Int.toNat_natCast, if_pos hlen]
    · rw [Grid.get, hi, Out.ok_bind, Grid.getUnchecked, Int.toNat_natCast, List.getElem?_set_self hlen]
    · rw [Grid.get, Grid.get, hj, Out.ok_bind, Out.ok_bind, Grid.getUnchecked, Grid.getUnchecked, Int.toNat_natCast, List.getElem?_set_ne hne.symm]

example : (PosTy.tuple .i8).toUsize (2, 1) = .ok (130 : Nat) ∧ Grid.get (PosTy.tuple .i8) [7, 8] (2, 1) = .ub ∧ (PosTy.tuple .i8).toUsize (1, 0) = .ok (1 : Nat) ∧
    Grid.get (PosTy.tuple .i8) [7, 8] (1, 0) = .ok 8 ∧ Grid.get (PosTy.tuple .i8) [7, 8] (-1, 0) = .panic := by decide

theorem Grid.get_ub_iff [Target] (T : PosTy) (SIZE : Nat) (v : α) (p : Int × Int) :
    Grid.get T (Grid.repeat SIZE v) p = .ub ↔ ∃ i : Int, T.toUsize p = .ok i ∧ SIZE ≤ i.toNat := by
  rw [Grid.get]
  cases h : T.toUsize p with
  | ok i =>
    rw [Out.ok_bind, Grid.getUnchecked, Grid.repeat]
    constructor
    · intro h2
      refine ⟨i, rfl, ?_⟩
      by_contra h3
      rw [List.getElem?_replicate_of_lt (by omega)] at h2
      cases h2
    · rintro ⟨j, hj, h2⟩
      injection hj with hj
      subst hj
      rw [List.getElem?_eq_none (by rw [List.length_replicate]; exact h2)]
  | panic => rw [Out.panic_bind]; simp
  | ub => exact absurd h (Out.NoUb.toUsize T p)
  | timeout =>
    constructor
    · intro h; cases h
    · rintro ⟨_, h, _⟩; cases h

/-- The position whose index is `n`. -/
theorem exists_index (T : PosTy) (hx : T.X.MIN ≤ 0 ∧ 0 ≤ T.X.MAX) (hy : T.Y.MIN ≤ 0 ∧ 0 ≤ T.Y.MAX) (n : Nat)
    (hn : (n : Int) < (T.X.MAX + 1) * (T.Y.MAX + 1)) : ∃ p : Int × Int, InGrid T p ∧ 0 ≤ p.1 ∧ 0 ≤ p.2 ∧ p.2 ≤ n ∧ p.1 ≤ n ∧ p.2 * (T.X.MAX + 1) + p.1 = n := by
  have hw : 0 < T.X.MAX + 1 := by omega
  have h1 := Int.emod_nonneg (n : Int) (by omega : T.X.MAX + 1 ≠ 0)
  have h2 := Int.emod_lt_of_pos (n : Int) hw
  have h3 := Int.ediv_nonneg (Int.natCast_nonneg n) (Int.le_of_lt hw)
  have h4 : (n : Int) / (T.X.MAX + 1) < T.Y.MAX + 1 := Int.ediv_lt_of_lt_mul hw (by rw [Int.mul_comm]; exact hn)
  have h5 : (n : Int) / (T.X.MAX + 1) * (T.X.MAX + 1) + (n : Int) % (T.X.MAX + 1) = n := Int.ediv_mul_add_emod _ _
  have h6 : (n : Int) / (T.X.MAX + 1) ≤ n := Int.ediv_le_self _ (Int.natCast_nonneg n)
  have h7 : (n : Int) % (T.X.MAX + 1) ≤ n := by
    have := Int.mul_nonneg h3 (Int.le_of_lt hw)
    omega
  exact ⟨((n : Int) % (T.X.MAX + 1), (n : Int) / (T.X.MAX + 1)), by simp only [InGrid]; omega, h1, h3, h6, h7, h5⟩

/-- No index is larger than that of the last position. -/
theorem index_lt (T : PosTy) (p : Int × Int) (hp : InGrid T p) (hx : 0 ≤ T.X.MAX) :
    p.2 * (T.X.MAX + 1) + p.1 < (T.X.MAX + 1) * (T.Y.MAX + 1) := by
  simp only [InGrid] at hp
  have := Int.mul_le_mul_of_nonneg_right (show p.2 ≤ T.Y.MAX by omega) (show 0 ≤ T.X.MAX + 1 by omega)
  have e : (T.X.MAX + 1) * (T.Y.MAX + 1) = T.Y.MAX * (T.X.MAX + 1) + (T.X.MAX + 1) := by ring
  omega

/-- C116. When a `Grid` can be read at every position without undefined behaviour, in a debug build: if its SIZE is at least (XMAX + 1) * (YMAX + 1),
also for signed types (whose positions with a negative coordinate panic); or if XMAX + 1 does not fit in `usize`, because then every access panics. -/
theorem C116_safe_iff_checks [Target] (hc : Target.checks = true) (T : PosTy) (hx : T.X.MIN ≤ 0 ∧ 0 ≤ T.X.MAX) (hy : T.Y.MIN ≤ 0 ∧ 0 ≤ T.Y.MAX)
    (SIZE : Nat) (hS : (SIZE : Int) ≤ limit) (v : α) :
    (∀ p, InGrid T p → Grid.get T (Grid.repeat SIZE v) p ≠ .ub) ↔ limit < T.X.MAX + 1 ∨ (T.X.MAX + 1) * (T.Y.MAX + 1) ≤ SIZE := by
  constructor
  · intro h
    by_contra hno
    obtain ⟨p, hp, h1, h2, -, -, h5⟩ := exists_index T hx hy SIZE (by omega)
    refine h p hp ((Grid.get_ub_iff T SIZE v p).2 ⟨SIZE, ?_, by omega⟩)
    rw [C76_to_usize_exact hc T p hp, if_pos (by omega), h5]
  · intro h p hp hub
    obtain ⟨i, h1, h2⟩ := (Grid.get_ub_iff T SIZE v p).1 hub
    rw [C76_to_usize_exact hc T p hp] at h1
    split at h1
    · rename_i hcond
      injection h1 with h1
      have h3 := index_lt T p hp hx.2
      have h4 : 0 ≤ p.2 * (T.X.MAX + 1) := Int.mul_nonneg hcond.2.1 (by omega)
      omega
    · cases h1

/-- C116. When a `Grid` can be read at every position without undefined behaviour, in a release build: if its SIZE is at least (XMAX + 1) * (YMAX + 1),
or if XMAX does not fit in `usize`. So with `(u64, u64)` on a 64-bit machine no SIZE is safe: the width wraps around to 0. -/
theorem C116_safe_iff_release [Target] (hc : Target.checks = false) (T : PosTy) (hx : T.X.MIN ≤ 0 ∧ 0 ≤ T.X.MAX) (hy : T.Y.MIN ≤ 0 ∧ 0 ≤ T.Y.MAX)
    (SIZE : Nat) (hS : (SIZE : Int) ≤ limit) (v : α) :
    (∀ p, InGrid T p → Grid.get T (Grid.repeat SIZE v) p ≠ .ub) ↔ limit < T.X.MAX ∨ (T.X.MAX + 1) * (T.Y.MAX + 1) ≤ SIZE := by
  constructor
  · intro h
    by_contra hno
    obtain ⟨p, hp, h1, h2, h3, h4, h5⟩ := exists_index T hx hy SIZE (by omega)
    refine h p hp ((Grid.get_ub_iff T SIZE v p).2 ⟨SIZE, ?_, by omega⟩)
    rw [C104_to_usize hc T p, if_pos (by omega), h5, Int.emod_eq_of_lt (by omega) (by omega)]
  · intro h p hp hub
    obtain ⟨i, h1, h2⟩ := (Grid.get_ub_iff T SIZE v p).1 hub
    rw [C104_to_usize hc T p] at h1
    split at h1
    · rename_i hcond
      injection h1 with h1
      have h3 := index_lt T p hp hx.2
      have h4 : 0 ≤ p.2 * (T.X.MAX + 1) := Int.mul_nonneg hcond.2.1.1 (by omega)
      rw [Int.emod_eq_of_lt (by omega) (by omega)] at h1
      omega
    · cases h1

example : (PosTy.tuple .i8).X.MIN ≤ 0 ∧ 0 ≤ (PosTy.tuple .i8).X.MAX ∧ ((PosTy.tuple .i8).X.MAX + 1) * ((PosTy.tuple .i8).Y.MAX + 1) = 16384 ∧
    Grid.get (PosTy.tuple .i8) (Grid.repeat 16383 7) (127, 127) = .ub ∧ Grid.get (PosTy.tuple .i8) (Grid.repeat 16384 7) (127, 127) = .ok 7 ∧
    @Grid.get _ debug64 (PosTy.tuple .u64) [7, 8] (2, 0) = .panic ∧ @Grid.get _ release64 (PosTy.tuple .u64) [7, 8] (2, 0) = .ub := by decide +kernel

/-- C116. A line of a `Grid` in a debug build, whatever the type of positions: the items with indices from y * (XMAX + 1), if they are in the array,
and a panic otherwise. -/
theorem C116_line_checks [Target] (hc : Target.checks = true) (T : PosTy) (g : List α) (hg : (g.length : Int) ≤ limit) (y : Int) :
    Grid.line T g y = if 0 ≤ T.X.MAX ∧ 0 ≤ y ∧ (y + 1) * (T.X.MAX + 1) ≤ g.length
      then .ok ((g.drop (y * (T.X.MAX + 1)).toNat).take (T.X.MAX + 1).toNat) else .panic := by
  have hw := (C76_width_height_exact hc T).1
  have hi := intoUsize_exact T.Y y
  rw [PosTy.intoUsize] at hi
  rw [Grid.line, hw, hi]
  by_cases h1 : 0 ≤ T.X.MAX
  swap
  · rw [if_neg (c := 0 ≤ T.X.MAX ∧ _ ≤ limit) (fun h => h1 h.1), if_neg (c := 0 ≤ T.X.MAX ∧ 0 ≤ y ∧ _) (fun h => h1 h.1)]; rfl
  by_cases h2 : 0 ≤ y
  swap
  · rw [if_neg (c := 0 ≤ y ∧ _) (fun h => h2 h.1), if_neg (c := 0 ≤ T.X.MAX ∧ 0 ≤ y ∧ _) (fun h => h2 h.2.1)]
    split <;> rfl
  have hyw : (y + 1) * (T.X.MAX + 1) = y * (T.X.MAX + 1) + (T.X.MAX + 1) := by ring
  have hnn : 0 ≤ y * (T.X.MAX + 1) := Int.mul_nonneg h2 (by omega)
  have hyle : y ≤ y * (T.X.MAX + 1) := by
    have := Int.mul_le_mul_of_nonneg_left (show 1 ≤ T.X.MAX + 1 by omega) h2
    omega
  have hmul : ∀ v : Int, IntTy.usize.arith v = if 0 ≤ v ∧ v ≤ limit then .ok v else .panic := by
    intro v; simp only [IntTy.arith_checks hc, IntTy.usize_has]
  by_cases h3 : T.X.MAX + 1 ≤ limit
  swap
  · rw [if_neg (c := 0 ≤ T.X.MAX ∧ _ ≤ limit) (fun h => h3 h.2), if_neg (c := 0 ≤ T.X.MAX ∧ 0 ≤ y ∧ _) (by omega)]; rfl
  rw [if_pos ⟨h1, h3⟩, Out.ok_bind]
  by_cases h4 : y * (T.X.MAX + 1) + (T.X.MAX + 1) ≤ limit
  · rw [if_pos (by omega), Out.ok_bind, IntTy.mul, hmul, if_pos (by omega), Out.ok_bind, IntTy.add, hmul, if_pos (by omega), Out.ok_bind]
    by_cases h5 : y * (T.X.MAX + 1) + (T.X.MAX + 1) ≤ g.length
    · rw [if_pos (by omega), if_pos (by omega), show y * (T.X.MAX + 1) + (T.X.MAX + 1) - y * (T.X.MAX + 1) = T.X.MAX + 1 by omega]
    · rw [if_neg (by omega), if_neg (c := 0 ≤ T.X.MAX ∧ 0 ≤ y ∧ _) (by omega)]
  · rw [if_neg (c := 0 ≤ T.X.MAX ∧ 0 ≤ y ∧ _) (by omega)]
    by_cases h6 : y ≤ limit
    · rw [if_pos ⟨h2, h6⟩, Out.ok_bind, IntTy.mul, hmul]
      by_cases h7 : y * (T.X.MAX + 1) ≤ limit
      · rw [if_pos ⟨hnn, h7⟩, Out.ok_bind, IntTy.add, hmul, if_neg (fun h => h4 h.2)]; rfl
      · rw [if_neg (fun h => h7 h.2)]; rfl
    · rw [if_neg (fun h => h6 h.2)]; rfl

example : Grid.line (PosTy.tuple .i8) ((List.range 256).map fun i : Nat => i) 1 = .ok ((List.range 128).map fun i : Nat => 128 + i) ∧
    Grid.line (PosTy.tuple .i8) [7, 8] 0 = .panic ∧ Grid.line (PosTy.tuple .i8) [7, 8] (-1) = .panic := by decide +kernel

/-- C116. A line of a `Grid` in a release build, whatever the type of positions: its ends are computed modulo 2^64 (2^32); it panics if they are
reversed or not in the array, and returns the items between them otherwise. -/
theorem C116_line_release [Target] (hc : Target.checks = false) (T : PosTy) (g : List α) (y : Int) (hx : 0 ≤ T.X.MAX ∧ T.X.MAX ≤ limit) (hy : 0 ≤ y ∧ y ≤ limit) :
    Grid.line T g y =
      (let start := y * (T.X.MAX + 1) % (limit + 1)
       let stop := (y + 1) * (T.X.MAX + 1) % (limit + 1)
       if start ≤ stop ∧ stop ≤ g.length then .ok ((g.drop start.toNat).take (stop - start).toNat) else .panic) := by
  have hw := (C104_width_height hc T).1
  have hi := intoUsize_exact T.Y y
  rw [PosTy.intoUsize] at hi
  rw [Grid.line, hw, hi, if_pos hx, if_pos hy, Out.ok_bind, Out.ok_bind, IntTy.mul, usize_arith_release hc, Out.ok_bind, IntTy.add, usize_arith_release hc,
    Out.ok_bind]
  have e1 : y * ((T.X.MAX + 1) % (limit + 1)) % (limit + 1) = y * (T.X.MAX + 1) % (limit + 1) := by
    rw [Int.mul_emod, Int.emod_emod, ← Int.mul_emod]
  have e2 : (y * (T.X.MAX + 1) % (limit + 1) + (T.X.MAX + 1) % (limit + 1)) % (limit + 1) = (y + 1) * (T.X.MAX + 1) % (limit + 1) := by
    rw [← Int.add_emod]; congr 1; ring
  rw [e1, e2]
  have hl : 0 < limit + 1 := by omega
  have h1 := Int.emod_nonneg ((y + 1) * (T.X.MAX + 1)) (by omega : limit + 1 ≠ 0)
  simp only
  congr 1
  apply propext
  omega

example : @Grid.line _ release64 (PosTy.tuple .u64) [7, 8] 0 = .ok [] ∧ @Grid.line _ release64 (PosTy.tuple .u32) [7, 8] 4294967295 = .panic ∧
    @Grid.line _ release64 (PosTy.pos 1 0) [7, 8] 0 = .ok [7, 8] := by decide +kernel

theorem Grid.foldlM_panic {f : σ → β → Out σ} {s : σ} {l : List β} {b : β} {rest : List β} (hl : l = b :: rest) (h : f s b = .panic) :
    l.foldlM f s = .panic := by
  rw [hl, List.foldlM_cons, h]; rfl

theorem usize_arith_nonneg [Target] {v r : Int} (h : IntTy.usize.arith v = .ok r) : 0 ≤ r := by
  unfold IntTy.arith at h
  simp only [IntTy.usize_has] at h
  split at h
  · injection h with h; omega
  · split at h
    · cases h
    · injection h with h
      rw [← h, IntTy.cast, IntTy.usize_lo, IntTy.usize_hi, Int.add_zero]
      exact Int.emod_nonneg _ (by have := limit_pos; omega)

/-- C116. Writing into a line of a `Grid`, whatever the type of positions: it panics where reading the line does, and past the end of the line; otherwise one cell of the line
is written, and what comes before and after the line stays as it is. -/
theorem C116_line_mut [Target] (T : PosTy) (g : List α) (y : Int) (x : Nat) (v : α) :
    (Grid.line T g y = .panic → Grid.lineMutSet T g y x v = .panic) ∧
    (∀ l, Grid.line T g y = .ok l → l.length ≤ x → Grid.lineMutSet T g y x v = .panic) ∧
    (∀ l, Grid.line T g y = .ok l → x < l.length → ∃ before after, g = before ++ l ++ after ∧
      Grid.lineMutSet T g y x v = .ok (before ++ l.set x v ++ after) ∧ Grid.line T (before ++ l.set x v ++ after) y = .ok (l.set x v)) := by
  unfold Grid.line Grid.lineMutSet
  cases T.width with
  | panic => exact ⟨fun _ => rfl, fun _ h => (nomatch h), fun _ h => (nomatch h)⟩
  | ub => exact ⟨fun h => (nomatch h), fun _ h => (nomatch h), fun _ h => (nomatch h)⟩
  | timeout => exact ⟨fun h => (nomatch h), fun _ h => (nomatch h), fun _ h => (nomatch h)⟩
  | ok width =>
  simp only [Out.ok_bind]
  cases Out.unwrapRes (T.Y.toUsize y) with
  | panic => exact ⟨fun _ => rfl, fun _ h => (nomatch h), fun _ h => (nomatch h)⟩
  | ub => exact ⟨fun h => (nomatch h), fun _ h => (nomatch h), fun _ h => (nomatch h)⟩
  | timeout => exact ⟨fun h => (nomatch h), fun _ h => (nomatch h), fun _ h => (nomatch h)⟩
  | ok lineno =>
  simp only [Out.ok_bind]
  cases hm : IntTy.usize.mul lineno width with
  | panic => exact ⟨fun _ => rfl, fun _ h => (nomatch h), fun _ h => (nomatch h)⟩
  | ub => exact ⟨fun h => (nomatch h), fun _ h => (nomatch h), fun _ h => (nomatch h)⟩
  | timeout => exact ⟨fun h => (nomatch h), fun _ h => (nomatch h), fun _ h => (nomatch h)⟩
  | ok start =>
  simp only [Out.ok_bind]
  cases IntTy.usize.add start width with
  | panic => exact ⟨fun _ => rfl, fun _ h => (nomatch h), fun _ h => (nomatch h)⟩
  | ub => exact ⟨fun h => (nomatch h), fun _ h => (nomatch h), fun _ h => (nomatch h)⟩
  | timeout => exact ⟨fun h => (nomatch h), fun _ h => (nomatch h), fun _ h => (nomatch h)⟩
  | ok stop =>
  simp only [Out.ok_bind]
  by_cases h1 : start ≤ stop ∧ stop.toNat ≤ g.length
  swap
  · simp only [if_neg h1]
    exact ⟨fun _ => trivial, fun _ h => (nomatch h), fun _ h => (nomatch h)⟩
  simp only [if_pos h1]
  have h0 : 0 ≤ start := usize_arith_nonneg hm
  refine ⟨fun h => (nomatch h), ?_, ?_⟩
  · intro l h h2
    have h := Out.ok.inj h
    subst h
    simp only [List.length_take, List.length_drop] at h2
    rw [if_neg (by omega)]
  · intro l h h2
    have h := Out.ok.inj h
    subst h
    simp only [List.length_take, List.length_drop] at h2
    have hlen : (g.take start.toNat).length = start.toNat := by rw [List.length_take]; omega
    have hlen2 : ((g.drop start.toNat).take (stop - start).toNat).length = (stop - start).toNat := by rw [List.length_take, List.length_drop]; omega
    have e : g = g.take start.toNat ++ (g.drop start.toNat).take (stop - start).toNat ++ (g.drop start.toNat).drop (stop - start).toNat := by
      rw [List.append_assoc, List.take_append_drop, List.take_append_drop]
    refine ⟨g.take start.toNat, (g.drop start.toNat).drop (stop - start).toNat, e, ?_, ?_⟩
    · rw [if_pos (by omega)]
      congr 1
      conv_lhs => rw [e]
      rw [List.append_assoc, List.set_append_right _ _ (by omega), List.set_append_left _ _ (by omega), hlen, Nat.add_sub_cancel_left, List.append_assoc]
    · rw [if_pos ⟨h1.1, by simp only [List.length_append, List.length_set, List.length_take, List.length_drop]; omega⟩]
      congr 1
      rw [List.append_assoc, List.drop_append_of_le_length (by omega), List.drop_of_length_le (by omega), List.nil_append,
        List.take_append_of_le_length (by rw [List.length_set]; omega), List.take_of_length_le (by rw [List.length_set]; omega)]

example : Grid.lineMutSet (PosTy.tuple .u8) [1, 2] 0 1 9 = .panic ∧ Grid.line (PosTy.tuple .u8) [1, 2] 0 = .panic ∧
    Grid.line (PosTy.pos 1 7) [1, 2, 3, 4] 1 = .ok [3, 4] ∧ Grid.lineMutSet (PosTy.pos 1 7) [1, 2, 3, 4] 1 0 9 = .ok [1, 2, 9, 4] ∧
    Grid.lineMutSet (PosTy.pos 1 7) [1, 2, 3, 4] 2 0 9 = .panic := by decide +kernel

/-- C116. Flipping a `Grid` whose type of positions has negative coordinates panics, in every build. -/
theorem C116_flip_signed [Target] (T : PosTy) (hT : T.WF) (hx : T.X.MIN ≤ 0 ∧ 0 < T.X.MAX) (hy : T.Y.MIN ≤ 0 ∧ 0 < T.Y.MAX) (g : List α) :
    (T.Y.MIN < 0 → T.X.MAX < limit → Grid.flipH T g = .panic) ∧ (T.X.MIN < 0 → T.Y.MAX < limit → Grid.flipV T g = .panic) := by
  have hwid : ∀ (B : BTy) (m : Int), 0 < m → m < limit → (do let m ← PosTy.intoUsize B m; IntTy.usize.add m 1) = .ok (m + 1) := by
    intro B m h1 h2
    rw [intoUsize_exact, if_pos (by omega), Out.ok_bind, IntTy.add, IntTy.arith, if_pos (IntTy.usize_has.2 (by omega))]
  have hrange : ∀ m : Int, 0 < m → ∃ rest, rustRange 0 ((m + 1) / 2) = 0 :: rest := by
    intro m hm
    obtain ⟨k, hk⟩ : ∃ k, ((m + 1) / 2 - 0).toNat = k + 1 := ⟨((m + 1) / 2).toNat - 1, by omega⟩
    rw [rustRange, hk, List.range_succ_eq_map, List.map_cons]
    exact ⟨_, rfl⟩
  have hints : ∀ a b : Int, a ≤ b → ∃ rest, intsFromTo a b = a :: rest := by
    intro a b hab
    obtain ⟨k, hk⟩ : ∃ k, (b - a + 1).toNat = k + 1 := ⟨(b - a).toNat, by omega⟩
    rw [intsFromTo, hk, List.range_succ_eq_map, List.map_cons]
    exact ⟨_, congrArg (· :: _) (by simp)⟩
  have hneg : ∀ p : Int × Int, p.1 < 0 ∨ p.2 < 0 → T.toUsize p = .panic := by
    intro p h
    simp only [PosTy.toUsize]
    rw [intoUsize_exact, intoUsize_exact]
    by_cases h2 : p.2 < 0
    · rw [if_neg (by omega)]; rfl
    · rw [if_neg (c := 0 ≤ p.1 ∧ _) (by omega)]
      split <;> rfl
  constructor
  · intro h1 h2
    obtain ⟨ys, hys⟩ := hints T.Y.MIN T.Y.MAX (by omega)
    obtain ⟨xs, hxs⟩ := hrange T.X.MAX hx.2
    rw [Grid.flipH, BTy.toList_eq hT.2, Out.ok_bind, show T.width = .ok (T.X.MAX + 1) from hwid T.X _ hx.2 h2, Out.ok_bind]
    refine Grid.foldlM_panic hys (Grid.foldlM_panic hxs ?_)
    rw [Grid.flipHStep, PosTy.newX, BTy.tryFrom_eq hT.1, if_pos (show T.X.Valid 0 from ⟨by omega, by omega⟩)]
    simp only [Out.unwrapRes_ok, Out.ok_bind]
    rw [(C77_flip_exact T hT _).1, if_pos (by simp only; omega), Out.ok_bind, hneg (0, T.Y.MIN) (.inr h1)]
    rfl
  · intro h1 h2
    obtain ⟨xs, hxs⟩ := hints T.X.MIN T.X.MAX (by omega)
    obtain ⟨ys, hys⟩ := hrange T.Y.MAX hy.2
    rw [Grid.flipV, show T.height = .ok (T.Y.MAX + 1) from hwid T.Y _ hy.2 h2, Out.ok_bind, BTy.toList_eq hT.1, Out.ok_bind]
    refine Grid.foldlM_panic hys (Grid.foldlM_panic hxs ?_)
    rw [Grid.flipVStep, PosTy.newY, BTy.tryFrom_eq hT.2, if_pos (show T.Y.Valid 0 from ⟨by omega, by omega⟩)]
    simp only [Out.unwrapRes_ok, Out.ok_bind]
    rw [(C77_flip_exact T hT _).2, if_pos (by simp only; omega), Out.ok_bind, hneg (T.X.MIN, 0) (.inl h1)]
    rfl

/-- C101. Flipping a `Gridbool` whose type of positions has negative coordinates panics, in every build. -/
theorem C101_flip_signed [Target] (T : PosTy) (hT : T.WF) (hx : T.X.MIN ≤ 0 ∧ 0 < T.X.MAX) (hy : T.Y.MIN ≤ 0 ∧ 0 < T.Y.MAX) (gb : List (BitVec 32)) :
    (T.Y.MIN < 0 → T.X.MAX < limit → Gridbool.flipH T gb = .panic) ∧ (T.X.MIN < 0 → T.Y.MAX < limit → Gridbool.flipV T gb = .panic) := by
  have hwid : ∀ (B : BTy) (m : Int), 0 < m → m < limit → (do let m ← PosTy.intoUsize B m; IntTy.usize.add m 1) = .ok (m + 1) := by
    intro B m h1 h2
    rw [intoUsize_exact, if_pos (by omega), Out.ok_bind, IntTy.add, IntTy.arith, if_pos (IntTy.usize_has.2 (by omega))]
  have hrange : ∀ m : Int, 0 < m → ∃ rest, rustRange 0 ((m + 1) / 2) = 0 :: rest := by
    intro m hm
    obtain ⟨k, hk⟩ : ∃ k, ((m + 1) / 2 - 0).toNat = k + 1 := ⟨((m + 1) / 2).toNat - 1, by omega⟩
    rw [rustRange, hk, List.range_succ_eq_map, List.map_cons]
    exact ⟨_, rfl⟩
  have hints : ∀ a b : Int, a ≤ b → ∃ rest, intsFromTo a b = a :: rest := by
    intro a b hab
    obtain ⟨k, hk⟩ : ∃ k, (b - a + 1).toNat = k + 1 := ⟨(b - a).toNat, by omega⟩
    rw [intsFromTo, hk, List.range_succ_eq_map, List.map_cons]
    exact ⟨_, congrArg (· :: _) (by simp)⟩
  have hneg : ∀ p : Int × Int, p.1 < 0 ∨ p.2 < 0 → T.toUsize p = .panic := by
    intro p h
    simp only [PosTy.toUsize]
    rw [intoUsize_exact, intoUsize_exact]
    by_cases h2 : p.2 < 0
    · rw [if_neg (by omega)]; rfl
    · rw [if_neg (c := 0 ≤ p.1 ∧ _) (by omega)]
      split <;> rfl
  constructor
  · intro h1 h2
    obtain ⟨ys, hys⟩ := hints T.Y.MIN T.Y.MAX (by omega)
    obtain ⟨xs, hxs⟩ := hrange T.X.MAX hx.2
    rw [Gridbool.flipH, BTy.toList_eq hT.2, Out.ok_bind, show T.width = .ok (T.X.MAX + 1) from hwid T.X _ hx.2 h2, Out.ok_bind]
    refine Grid.foldlM_panic hys (Grid.foldlM_panic hxs ?_)
    rw [Gridbool.flipHStep, PosTy.newX, BTy.tryFrom_eq hT.1, if_pos (show T.X.Valid 0 from ⟨by omega, by omega⟩)]
    simp only [Out.unwrapRes_ok, Out.ok_bind]
    rw [(C77_flip_exact T hT _).1, if_pos (by simp only; omega), Out.ok_bind, Gridbool.get, hneg (0, T.Y.MIN) (.inr h1)]
    rfl
  · intro h1 h2
    obtain ⟨xs, hxs⟩ := hints T.X.MIN T.X.MAX (by omega)
    obtain ⟨ys, hys⟩ := hrange T.Y.MAX hy.2
    rw [Gridbool.flipV, show T.height = .ok (T.Y.MAX + 1) from hwid T.Y _ hy.2 h2, Out.ok_bind, BTy.toList_eq hT.1, Out.ok_bind]
    refine Grid.foldlM_panic hys (Grid.foldlM_panic hxs ?_)
    rw [Gridbool.flipVStep, PosTy.newY, BTy.tryFrom_eq hT.2, if_pos (show T.Y.Valid 0 from ⟨by omega, by omega⟩)]
    simp only [Out.unwrapRes_ok, Out.ok_bind]
    rw [(C77_flip_exact T hT _).2, if_pos (by simp only; omega), Out.ok_bind, Gridbool.get, hneg (T.X.MIN, 0) (.inl h1)]
    rfl

example : (PosTy.tuple .i16).WF ∧ (PosTy.tuple .i16).X.MIN < 0 ∧ 0 < (PosTy.tuple .i16).X.MAX ∧ (PosTy.tuple .i16).X.MAX < limit := by decide

end Sqrid
