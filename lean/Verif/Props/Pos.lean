import Verif.Proofs.Pos
/-!
# Properties C05-C10, C14-C19: positions
-/

namespace Sqrid

-- Statements that do not mention a target are about a debug build for a 64-bit machine.
attribute [local instance] debug64

open Spec

/-! ## C05 -/

/-- C05. `Pos::new(x, y)` (also `try_from((u16, u16))`) accepts exactly the positions with `x <= XMAX` and `y <= YMAX`,
keeps the coordinates, and otherwise fails with `OutOfBounds`. -/
theorem C05_pos_new_exact (xmax ymax x y : Int) (hx : IntTy.u16.Has x) (hy : IntTy.u16.Has y) :
    ((x ≤ xmax ∧ y ≤ ymax) → ∃ p, Pos.new xmax ymax x y = .ok p ∧ Pos.tuple p = (x, y)) ∧
    (¬ (x ≤ xmax ∧ y ≤ ymax) → Pos.new xmax ymax x y = .error .outOfBounds) := by
  simp only [IntTy.Has, IntTy.u16] at hx hy
  simp only [Pos.new, BTy.new_eq]
  constructor
  · intro h
    rw [if_pos (BTy.valid_bounded.2 ⟨hx.1, h.1⟩), if_pos (BTy.valid_bounded.2 ⟨hy.1, h.2⟩)]
    exact ⟨_, rfl, rfl⟩
  · intro h
    by_cases h1 : x ≤ xmax
    · rw [if_pos (BTy.valid_bounded.2 ⟨hx.1, h1⟩), if_neg]
      intro h2; exact h ⟨h1, (BTy.valid_bounded.1 h2).2⟩
    · rw [if_neg]
      intro h2; exact h1 (BTy.valid_bounded.1 h2).2

/-- C05. `Pos::new_unwrap` panics exactly when `Pos::new` fails. -/
theorem C05_pos_new_unwrap_exact (xmax ymax x y : Int) :
    (∀ p, Pos.newUnwrap xmax ymax x y = .ok p ↔ Pos.new xmax ymax x y = .ok p) ∧
    (Pos.newUnwrap xmax ymax x y = .panic ↔ ∃ e, Pos.new xmax ymax x y = .error e) := by
  simp only [Pos.newUnwrap, Pos.new, BTy.newUnwrap, BTy.new]
  by_cases h1 : 0 ≤ x ∧ x ≤ xmax <;> by_cases h2 : 0 ≤ y ∧ y ≤ ymax
  all_goals
    simp only [BTy.MIN, BTy.MAX, ge_iff_le, gt_iff_lt]
    first
      | rw [if_pos h1, if_neg (show ¬ (x < 0 ∨ xmax < x) by omega)]
      | rw [if_neg h1, if_pos (show (x < 0 ∨ xmax < x) by omega)]
    first
      | rw [if_pos h2, if_neg (show ¬ (y < 0 ∨ ymax < y) by omega)]
      | rw [if_neg h2, if_pos (show (y < 0 ∨ ymax < y) by omega)]
    simp

/-- C05. The corner and centre constants are positions of the grid, for every XMAX and YMAX. -/
theorem C05_pos_constants (xmax ymax : Int) (hx : IntTy.u16.Has xmax) (hy : IntTy.u16.Has ymax) :
    Pos.FIRST xmax ymax = .ok (0, 0) ∧ Pos.LAST xmax ymax = .ok (xmax, ymax) ∧
    Pos.TOP_RIGHT xmax ymax = .ok (xmax, 0) ∧ Pos.BOTTOM_LEFT xmax ymax = .ok (0, ymax) ∧
    Pos.CENTER xmax ymax = .ok (xmax / 2, ymax / 2) ∧
    (PosTy.pos xmax ymax).first = (0, 0) ∧ (PosTy.pos xmax ymax).last = (xmax, ymax) := by
  simp only [IntTy.Has, IntTy.u16] at hx hy
  have hn : ∀ m v : Int, 0 ≤ v → v ≤ m → (BTy.bounded .u16 0 m).newUnwrap v = .ok v :=
    fun m v h1 h2 => if_pos ⟨h1, h2⟩
  simp only [Pos.FIRST, Pos.LAST, Pos.TOP_RIGHT, Pos.BOTTOM_LEFT, Pos.CENTER, Pos.newUnwrap]
  rw [hn xmax 0 (by omega) (by omega), hn ymax 0 (by omega) (by omega), hn xmax xmax (by omega) (by omega),
    hn ymax ymax (by omega) (by omega), hn xmax (xmax / 2) (by omega) (by omega),
    hn ymax (ymax / 2) (by omega) (by omega)]
  exact ⟨rfl, rfl, rfl, rfl, rfl, rfl, rfl⟩

example : IntTy.u16.Has 3 ∧ IntTy.u16.Has 65535 ∧ Pos.new 3 65535 3 65535 = .ok (3, 65535) ∧
    Pos.new 3 65535 4 0 = .error .outOfBounds ∧ Pos.newUnwrap 3 4 4 4 = .panic := by decide

/-! ## C06 -/

/-- C06, full statement (false of the code). -/
def C06_statement : Prop :=
  ∀ xmax ymax x y : Int, IntTy.u16.Has xmax → IntTy.u16.Has ymax → IntTy.i32.Has x → IntTy.i32.Has y →
    ((0 ≤ x ∧ x ≤ xmax ∧ 0 ≤ y ∧ y ≤ ymax) → Pos.ofI32 xmax ymax x y = .ok (x, y)) ∧
    (¬ (0 ≤ x ∧ x ≤ xmax ∧ 0 ≤ y ∧ y ≤ ymax) → Pos.ofI32 xmax ymax x y = .error .outOfBounds)

/-- C06 is violated: `Pos::<4,4>::try_from((65536, 65538))` is `Ok((0, 2))`, because of the `as u16` casts. -/
theorem C06_try_from_i32_refuted : ¬ C06_statement := by
  intro h
  have := (h 4 4 65536 65538 (by decide_target) (by decide_target) (by decide_target) (by decide_target)).2 (by decide_target)
  revert this
  decide_target

/-- C06 is violated by negative values too: `Pos::<65535, 4>::try_from((-1, 0))` is `Ok((65535, 0))`. -/
theorem C06_negative_accepted : Pos.ofI32 65535 4 (-1) 0 = .ok (65535, 0) := by decide

/-- C06, exact behaviour: the coordinates are reduced modulo 65536 before the bounds check. -/
theorem C06_try_from_i32_modulo (xmax ymax x y : Int) :
    ((x % 65536 ≤ xmax ∧ y % 65536 ≤ ymax) → Pos.ofI32 xmax ymax x y = .ok (x % 65536, y % 65536)) ∧
    (¬ (x % 65536 ≤ xmax ∧ y % 65536 ≤ ymax) → Pos.ofI32 xmax ymax x y = .error .outOfBounds) := by
  have hc : ∀ v, IntTy.u16.cast v = v % 65536 := by intro v; simp [IntTy.cast, IntTy.u16]
  have hr : ∀ v : Int, IntTy.u16.Has (v % 65536) := by
    intro v; simp only [IntTy.Has, IntTy.u16]; omega
  obtain ⟨h1, h2⟩ := C05_pos_new_exact xmax ymax (x % 65536) (y % 65536) (hr x) (hr y)
  rw [Pos.ofI32, hc, hc]
  refine ⟨fun h => ?_, h2⟩
  obtain ⟨p, hp, ht⟩ := h1 h
  rw [hp]; exact congrArg _ ht

/-- C06, partial: the statement holds when the coordinates are in 0..=65535 (or, more generally, negative values
not smaller than XMAX-65535). Missing: coordinates that differ from a valid one by a multiple of 65536. -/
theorem C06_try_from_i32_partial (xmax ymax x y : Int)
    (hx : xmax - 65535 ≤ x ∧ x ≤ 65535) (hy : ymax - 65535 ≤ y ∧ y ≤ 65535)
    (hxm : IntTy.u16.Has xmax) (hym : IntTy.u16.Has ymax) :
    ((0 ≤ x ∧ x ≤ xmax ∧ 0 ≤ y ∧ y ≤ ymax) → Pos.ofI32 xmax ymax x y = .ok (x, y)) ∧
    (¬ (0 ≤ x ∧ x ≤ xmax ∧ 0 ≤ y ∧ y ≤ ymax) → Pos.ofI32 xmax ymax x y = .error .outOfBounds) := by
  simp only [IntTy.Has, IntTy.u16] at hxm hym
  obtain ⟨h1, h2⟩ := C06_try_from_i32_modulo xmax ymax x y
  constructor
  · intro h
    rw [h1 (by omega), Int.emod_eq_of_lt (by omega) (by omega), Int.emod_eq_of_lt (by omega) (by omega)]
  · intro h; exact h2 (by omega)

example : (4 : Int) - 65535 ≤ -1 ∧ Pos.ofI32 4 4 (-1) 3 = .error .outOfBounds ∧
    Pos.ofI32 4 4 1 3 = .ok (1, 3) := by decide

/-! ## C07 -/

/-- C07. `to_usize` is the row-major index, in range, without panic or overflow. -/
theorem C07_to_usize [Target] (T : PosTy) (hT : T.IsGrid) (p : Int × Int) (hp : InGrid T p) :
    ∃ i, T.toUsize p = .ok i ∧ i = p.2 * cols T + p.1 ∧ 0 ≤ i ∧ i < cols T * rows T := by
  have h := hT.index_lt hp
  refine ⟨_, hT.toUsize_eq hp, ?_, h.1, ?_⟩ <;> simp only [cols, rows, hT.x0, hT.y0, Int.sub_zero]
  exact h.2

/-- C07. `tryfrom_usize` inverts `to_usize`. -/
theorem C07_from_to_usize [Target] (T : PosTy) (hT : T.IsGrid) (p : Int × Int) (hp : InGrid T p) :
    ∃ i, T.toUsize p = .ok i ∧ T.tryFromUsize i = .ok (.ok p) := by
  have h := hT.index_lt hp
  refine ⟨_, hT.toUsize_eq hp, ?_⟩
  rw [hT.tryFromUsize_eq h.1, if_pos h.2]
  have hp := hT.valid_iff'.1 hp
  have h1 : (p.2 * (T.X.MAX + 1) + p.1) % (T.X.MAX + 1) = p.1 := by
    rw [Int.add_comm, Int.add_mul_emod_self_right, Int.emod_eq_of_lt (by omega) (by omega)]
  have h2 : (p.2 * (T.X.MAX + 1) + p.1) / (T.X.MAX + 1) = p.2 := by
    rw [Int.add_comm, Int.add_mul_ediv_right _ _ (by omega), Int.ediv_eq_zero_of_lt (by omega) (by omega)]
    omega
  rw [h1, h2]

/-- C07. Every index below the number of positions is the index of the position `tryfrom_usize` returns; every
other index is rejected with `OutOfBounds`. -/
theorem C07_to_from_usize [Target] (T : PosTy) (hT : T.IsGrid) (i : Int) (hi : IntTy.usize.Has i) :
    (i < cols T * rows T → ∃ p, T.tryFromUsize i = .ok (.ok p) ∧ InGrid T p ∧ T.toUsize p = .ok i) ∧
    (cols T * rows T ≤ i → T.tryFromUsize i = .ok (.error .outOfBounds)) := by
  have hi := (IntTy.usize_has.1 hi).1
  have hc : cols T * rows T = (T.X.MAX + 1) * (T.Y.MAX + 1) := by
    simp only [cols, rows, hT.x0, hT.y0, Int.sub_zero]
  have hx := hT.xmax0
  rw [hT.tryFromUsize_eq hi, hc]
  constructor
  · intro hlt
    rw [if_pos hlt]
    have hm0 := Int.emod_nonneg i (show T.X.MAX + 1 ≠ 0 by omega)
    have hm1 := Int.emod_lt_of_pos i (show 0 < T.X.MAX + 1 by omega)
    have hd0 : 0 ≤ i / (T.X.MAX + 1) := Int.ediv_nonneg hi (by omega)
    have hd1 : i / (T.X.MAX + 1) < T.Y.MAX + 1 := by
      rw [Int.ediv_lt_iff_lt_mul (by omega), Int.mul_comm]; exact hlt
    have hv : T.Valid (i % (T.X.MAX + 1), i / (T.X.MAX + 1)) := by
      rw [hT.valid_iff']; simp only; omega
    refine ⟨_, rfl, hv, ?_⟩
    rw [hT.toUsize_eq hv]
    have := Int.mul_ediv_add_emod i (T.X.MAX + 1)
    simp only [Out.ok.injEq]
    rw [Int.mul_comm]; exact this
  · intro hge; rw [if_neg (by omega)]

/-- C07. `to_usize` is injective. -/
theorem C07_to_usize_injective [Target] (T : PosTy) (hT : T.IsGrid) (p q : Int × Int)
    (hp : InGrid T p) (hq : InGrid T q) (h : T.toUsize p = T.toUsize q) : p = q := by
  obtain ⟨i, h1, h2⟩ := C07_from_to_usize T hT p hp
  obtain ⟨j, h3, h4⟩ := C07_from_to_usize T hT q hq
  rw [h1, h3] at h
  cases h
  rw [h2] at h4
  cases h4; rfl

example : (PosTy.pos 6 4).IsGrid ∧ InGrid (PosTy.pos 6 4) (5, 3) ∧
    (PosTy.pos 6 4).toUsize (5, 3) = .ok 26 ∧ (PosTy.pos 6 4).tryFromUsize 35 = .ok (.error .outOfBounds) ∧
    (PosTy.pos 65535 65535).IsGrid :=
  ⟨PosTy.pos_isGrid (by decide) (by decide) (.inl rfl), by unfold InGrid; decide, by decide, by decide,
    PosTy.pos_isGrid (by decide) (by decide) (.inl rfl)⟩

/-! ## C08 -/

/-- C08. `next` is the successor in reading order: it is `None` exactly at the last position, and otherwise it is the
grid position whose rank is one more. -/
theorem C08_next (T : PosTy) (hT : T.WF) (p : Int × Int) (hp : InGrid T p) :
    (T.next p = none ↔ p = T.last) ∧
    (∀ q, T.next p = some q → InGrid T q ∧ rankRow T q = rankRow T p + 1 ∧ T.prev q = some p) := by
  have hX := hT.1.min_le_max
  simp only [InGrid] at hp ⊢
  simp only [rankRow, cols]
  rcases lt_or_eq_of_le hp.1.2 with hlt | heq
  · rw [PosTy.next_in_row hT hp.1.1 hlt]
    refine ⟨⟨by simp, fun h => by rw [h] at hlt; simp [PosTy.last] at hlt⟩, ?_⟩
    rintro q ⟨⟩
    refine ⟨by simp only; omega, by ring, ?_⟩
    rw [PosTy.prev_in_row hT (by simp only; omega) (by simp only; omega)]; simp
  · rcases lt_or_eq_of_le hp.2.2 with hlt' | heq'
    · rw [PosTy.next_row hT heq hp.2.1 hlt']
      refine ⟨⟨by simp, fun h => by rw [h] at hlt'; simp [PosTy.last] at hlt'⟩, ?_⟩
      rintro q ⟨⟩
      refine ⟨by simp only; omega, by rw [heq]; ring, ?_⟩
      rw [PosTy.prev_row hT rfl (by simp only; omega) (by simp only; omega)]
      simp [Prod.ext_iff, heq]
    · have e : p = T.last := Prod.ext heq heq'
      rw [e, PosTy.next_last hT]
      exact ⟨by simp, by simp⟩

/-- C08. `prev` is the predecessor in reading order. -/
theorem C08_prev (T : PosTy) (hT : T.WF) (p : Int × Int) (hp : InGrid T p) :
    (T.prev p = none ↔ p = T.first) ∧
    (∀ q, T.prev p = some q → InGrid T q ∧ rankRow T q = rankRow T p - 1 ∧ T.next q = some p) := by
  have hX := hT.1.min_le_max
  simp only [InGrid] at hp ⊢
  simp only [rankRow, cols]
  rcases lt_or_eq_of_le hp.1.1 with hlt | heq
  · rw [PosTy.prev_in_row hT hlt hp.1.2]
    refine ⟨⟨by simp, fun h => by rw [h] at hlt; simp [PosTy.first] at hlt⟩, ?_⟩
    rintro q ⟨⟩
    refine ⟨by simp only; omega, by ring, ?_⟩
    rw [PosTy.next_in_row hT (by simp only; omega) (by simp only; omega)]; simp
  · rcases lt_or_eq_of_le hp.2.1 with hlt' | heq'
    · rw [PosTy.prev_row hT heq.symm hlt' hp.2.2]
      refine ⟨⟨by simp, fun h => by rw [h] at hlt'; simp [PosTy.first] at hlt'⟩, ?_⟩
      rintro q ⟨⟩
      refine ⟨by simp only; omega, by rw [← heq]; ring, ?_⟩
      rw [PosTy.next_row hT rfl (by simp only; omega) (by simp only; omega)]
      simp [Prod.ext_iff, heq]
    · have e : p = T.first := Prod.ext heq.symm heq'.symm
      rw [e, PosTy.prev_first hT]
      exact ⟨by simp, by simp⟩

/-- C08. `next_y` is the successor in column order. -/
theorem C08_next_y (T : PosTy) (hT : T.WF) (p : Int × Int) (hp : InGrid T p) :
    (T.nextY p = none ↔ p = T.last) ∧
    (∀ q, T.nextY p = some q → InGrid T q ∧ rankCol T q = rankCol T p + 1 ∧ T.prevY q = some p) := by
  have hX := hT.2.min_le_max
  simp only [InGrid] at hp ⊢
  simp only [rankCol, rows]
  rcases lt_or_eq_of_le hp.2.2 with hlt | heq
  · rw [PosTy.nextY_in_col hT hp.2.1 hlt]
    refine ⟨⟨by simp, fun h => by rw [h] at hlt; simp [PosTy.last] at hlt⟩, ?_⟩
    rintro q ⟨⟩
    refine ⟨by simp only; omega, by ring, ?_⟩
    rw [PosTy.prevY_in_col hT (by simp only; omega) (by simp only; omega)]; simp
  · rcases lt_or_eq_of_le hp.1.2 with hlt' | heq'
    · rw [PosTy.nextY_col hT heq hp.1.1 hlt']
      refine ⟨⟨by simp, fun h => by rw [h] at hlt'; simp [PosTy.last] at hlt'⟩, ?_⟩
      rintro q ⟨⟩
      refine ⟨by simp only; omega, by rw [heq]; ring, ?_⟩
      rw [PosTy.prevY_col hT rfl (by simp only; omega) (by simp only; omega)]
      simp [Prod.ext_iff, heq]
    · have e : p = T.last := Prod.ext heq' heq
      rw [e, PosTy.nextY_last hT]
      exact ⟨by simp, by simp⟩

/-- C08. `prev_y` is the predecessor in column order. -/
theorem C08_prev_y (T : PosTy) (hT : T.WF) (p : Int × Int) (hp : InGrid T p) :
    (T.prevY p = none ↔ p = T.first) ∧
    (∀ q, T.prevY p = some q → InGrid T q ∧ rankCol T q = rankCol T p - 1 ∧ T.nextY q = some p) := by
  have hX := hT.2.min_le_max
  simp only [InGrid] at hp ⊢
  simp only [rankCol, rows]
  rcases lt_or_eq_of_le hp.2.1 with hlt | heq
  · rw [PosTy.prevY_in_col hT hlt hp.2.2]
    refine ⟨⟨by simp, fun h => by rw [h] at hlt; simp [PosTy.first] at hlt⟩, ?_⟩
    rintro q ⟨⟩
    refine ⟨by simp only; omega, by ring, ?_⟩
    rw [PosTy.nextY_in_col hT (by simp only; omega) (by simp only; omega)]; simp
  · rcases lt_or_eq_of_le hp.1.1 with hlt' | heq'
    · rw [PosTy.prevY_col hT heq.symm hlt' hp.1.2]
      refine ⟨⟨by simp, fun h => by rw [h] at hlt'; simp [PosTy.first] at hlt'⟩, ?_⟩
      rintro q ⟨⟩
      refine ⟨by simp only; omega, by rw [← heq]; ring, ?_⟩
      rw [PosTy.nextY_col hT rfl (by simp only; omega) (by simp only; omega)]
      simp [Prod.ext_iff, heq]
    · have e : p = T.first := Prod.ext heq'.symm heq.symm
      rw [e, PosTy.prevY_first hT]
      exact ⟨by simp, by simp⟩

example : (PosTy.pos 6 4).WF ∧ InGrid (PosTy.pos 6 4) (6, 3) ∧ (PosTy.pos 6 4).next (6, 3) = some (0, 4) ∧
    (PosTy.pos 6 4).prevY (2, 0) = some (1, 4) ∧ (PosTy.tuple .i8).WF ∧
    (PosTy.tuple .i8).next (127, -3) = some (-128, -2) := by unfold InGrid; decide

/-! ## C09, C10 -/

/-- C09. `iter_orientation::<XFIRST>()` (`iter`, `iter_horizontal`, `iter_vertical`) visits exactly the positions of the grid, in
reading order (XFIRST) or in column order. -/
theorem C09_iter_collect (T : PosTy) (hT : T.WF) (XFIRST : Bool) (fuel : Nat)
    (hf : (cols T * rows T).toNat < fuel) :
    collectWith (liftNext (PosIter.next T XFIRST)) fuel (PosIter.default T) = .ok (allPositions T XFIRST) := by
  have hc := (T.machine hT XFIRST).collect fuel (by
    rw [PosTy.machine_N hT XFIRST, ← PosTy.dims_eq hT]; exact hf)
  rw [PosTy.machine_init hT XFIRST, PosTy.machine_N hT XFIRST] at hc
  rw [← PosTy.seg_enumAt]; exact hc

/-- C09. The visited list contains each grid position exactly once, and nothing else. -/
theorem C09_iter_each_once (T : PosTy) (hT : T.WF) (XFIRST : Bool) :
    (∀ p, p ∈ allPositions T XFIRST ↔ InGrid T p) ∧ (allPositions T XFIRST).Nodup ∧
    ((allPositions T XFIRST).length : Int) = cols T * rows T := by
  refine ⟨fun p => PosTy.mem_allPositions, PosTy.allPositions_nodup XFIRST, ?_⟩
  have hX := hT.1.min_le_max
  have hY := hT.2.min_le_max
  rw [PosTy.allPositions_length, ← PosTy.dims_eq hT, Int.toNat_of_nonneg]
  · rfl
  · have h1 : 0 ≤ T.X.MAX - T.X.MIN + 1 := by omega
    have h2 : 0 ≤ T.Y.MAX - T.Y.MIN + 1 := by omega
    exact Int.mul_nonneg h1 h2

/-- C09. In reading order, the position with index `i` (as computed by `to_usize`) is visited `i`-th; after the last
one, every further call returns `None`. -/
theorem C09_iter_call_order [Target] (T : PosTy) (hT : T.IsGrid) (n k : Nat) (hk : k < n) :
    ∃ r, (callN (PosIter.next T true) n (PosIter.default T)).1[k]? = some r ∧
      ((k : Int) < cols T * rows T → ∃ p, r = some p ∧ InGrid T p ∧ T.toUsize p = .ok (k : Int)) ∧
      (cols T * rows T ≤ (k : Int) → r = none) := by
  have hc := (T.machine hT.wf true).calls n
  rw [PosTy.machine_init hT.wf true, PosTy.machine_N hT.wf true] at hc
  refine ⟨(seg T.rowAt 0 (T.nx * T.ny))[k]?, ?_, ?_⟩
  · rw [show (callN (PosIter.next T true) n (PosIter.default T)).1 = _ from hc]
    rw [List.getElem?_map, List.getElem?_range hk, Option.map_some]; rfl
  · have hX := hT.wf.1.min_le_max
    have hY := hT.wf.2.min_le_max
    have hn : (T.nx : Int) = T.X.MAX + 1 := by have := hT.x0; simp only [PosTy.nx]; omega
    have hm : (T.ny : Int) = T.Y.MAX + 1 := by have := hT.y0; simp only [PosTy.ny]; omega
    have hd : cols T * rows T = ((T.nx * T.ny : Nat) : Int) := by
      simp only [cols, rows, hT.x0, hT.y0, Nat.cast_mul, hn, hm, Int.sub_zero]
    rw [hd]
    constructor
    · intro hlt
      have hlt : k < T.nx * T.ny := by omega
      refine ⟨T.rowAt k, ?_, PosTy.rowAt_valid hT.wf hlt, ?_⟩
      · show (seg T.rowAt 0 (T.nx * T.ny))[k]? = _
        rw [seg, List.getElem?_map, List.getElem?_range hlt, Option.map_some, Nat.zero_add]
      · rw [hT.toUsize_eq (PosTy.rowAt_valid hT.wf hlt)]
        simp only [PosTy.rowAt, hT.x0, hT.y0, ← hn, Out.ok.injEq]
        have := Nat.div_add_mod k T.nx
        have h2 : ((T.nx * (k / T.nx) + k % T.nx : Nat) : Int) = k := by rw [this]
        push_cast at h2 ⊢
        rw [Int.zero_add, Int.zero_add, Int.mul_comm]; exact h2
    · intro hge
      apply List.getElem?_eq_none
      rw [seg_length]
      exact Int.ofNat_le.1 hge

example : (PosTy.pos 1 2).WF ∧ (cols (PosTy.pos 1 2) * rows (PosTy.pos 1 2)).toNat = 6 ∧
    collectWith (liftNext (PosIter.next (PosTy.pos 1 2) true)) 7 (PosIter.default (PosTy.pos 1 2))
      = .ok [(0, 0), (1, 0), (0, 1), (1, 1), (0, 2), (1, 2)] ∧
    allPositions (PosTy.pos 1 2) false = [(0, 0), (0, 1), (0, 2), (1, 0), (1, 1), (1, 2)] := by decide

/-- C10. For every schedule of `next` and `next_back` calls and both orientations, the position iterator
answers like an ideal double-ended iterator over the list of all positions. -/
theorem C10_iter_double_ended (T : PosTy) (hT : T.WF) (XFIRST : Bool) (es : List End) :
    (runSchedule (PosIter.next T XFIRST) (PosIter.nextBack T XFIRST) es (PosIter.default T)).1
      = dequeRun es (allPositions T XFIRST) := by
  have h := (T.machine hT XFIRST).schedule es
  rw [PosTy.machine_init hT XFIRST, PosTy.machine_N hT XFIRST] at h
  rw [← PosTy.seg_enumAt]; exact h

example : (PosTy.pos 1 1).WF ∧
    (runSchedule (PosIter.next (PosTy.pos 1 1) true) (PosIter.nextBack (PosTy.pos 1 1) true)
      [.back, .front, .back, .back, .front] (PosIter.default (PosTy.pos 1 1))).1
      = [some (1, 1), some (0, 0), some (0, 1), some (1, 0), none] := by decide

/-! ## C14 -/

/-- Invariant of the fold in `tlbr_of`. -/
private theorem tlbr_fold (rest : List (Int × Int)) (tl br : Int × Int) :
    ∃ tl' br' : Int × Int, rest.foldl
      (fun (acc : (Int × Int) × (Int × Int)) t =>
        ((if t.1 < acc.1.1 then t.1 else acc.1.1, if t.2 < acc.1.2 then t.2 else acc.1.2),
         (if t.1 > acc.2.1 then t.1 else acc.2.1, if t.2 > acc.2.2 then t.2 else acc.2.2)))
      (tl, br) = (tl', br') ∧
      (∀ p ∈ rest, tl'.1 ≤ p.1 ∧ tl'.2 ≤ p.2 ∧ p.1 ≤ br'.1 ∧ p.2 ≤ br'.2) ∧
      tl'.1 ≤ tl.1 ∧ tl'.2 ≤ tl.2 ∧ br.1 ≤ br'.1 ∧ br.2 ≤ br'.2 ∧
      (tl'.1 = tl.1 ∨ ∃ p ∈ rest, p.1 = tl'.1) ∧ (tl'.2 = tl.2 ∨ ∃ p ∈ rest, p.2 = tl'.2) ∧
      (br'.1 = br.1 ∨ ∃ p ∈ rest, p.1 = br'.1) ∧ (br'.2 = br.2 ∨ ∃ p ∈ rest, p.2 = br'.2) := by
  induction rest generalizing tl br with
  | nil => exact ⟨tl, br, rfl, by simp, by omega, by omega, by omega, by omega, .inl rfl, .inl rfl, .inl rfl, .inl rfl⟩
  | cons t rest ih =>
    obtain ⟨tl', br', he, hm, h1, h2, h3, h4, h5, h6, h7, h8⟩ := ih
      (if t.1 < tl.1 then t.1 else tl.1, if t.2 < tl.2 then t.2 else tl.2)
      (if t.1 > br.1 then t.1 else br.1, if t.2 > br.2 then t.2 else br.2)
    simp only at h1 h2 h3 h4 h5 h6 h7 h8
    refine ⟨tl', br', he, ?_, ?_, ?_, ?_, ?_, ?_, ?_, ?_, ?_⟩
    · intro p hp
      rcases List.mem_cons.1 hp with rfl | hp
      · split at h1 <;> split at h2 <;> split at h3 <;> split at h4 <;> omega
      · exact hm p hp
    · split at h1 <;> omega
    · split at h2 <;> omega
    · split at h3 <;> omega
    · split at h4 <;> omega
    · rcases h5 with h5 | ⟨p, hp, h5⟩
      · split at h5
        · exact .inr ⟨t, List.mem_cons_self, h5.symm⟩
        · exact .inl h5
      · exact .inr ⟨p, List.mem_cons_of_mem _ hp, h5⟩
    · rcases h6 with h6 | ⟨p, hp, h6⟩
      · split at h6
        · exact .inr ⟨t, List.mem_cons_self, h6.symm⟩
        · exact .inl h6
      · exact .inr ⟨p, List.mem_cons_of_mem _ hp, h6⟩
    · rcases h7 with h7 | ⟨p, hp, h7⟩
      · split at h7
        · exact .inr ⟨t, List.mem_cons_self, h7.symm⟩
        · exact .inl h7
      · exact .inr ⟨p, List.mem_cons_of_mem _ hp, h7⟩
    · rcases h8 with h8 | ⟨p, hp, h8⟩
      · split at h8
        · exact .inr ⟨t, List.mem_cons_self, h8.symm⟩
        · exact .inl h8
      · exact .inr ⟨p, List.mem_cons_of_mem _ hp, h8⟩

/-- C14. `tlbr_of` fails with `Empty` exactly on an empty iterator; otherwise it returns corners that
contain every item, and each side of the box is touched by an item (so the box is the smallest one). -/
theorem C14_tlbr_of (items : List (Int × Int)) :
    (items = [] → PosTy.tlbrOf items = .error .empty) ∧
    (items ≠ [] → ∃ tl br, PosTy.tlbrOf items = .ok (tl, br) ∧
      (∀ p ∈ items, tl.1 ≤ p.1 ∧ p.1 ≤ br.1 ∧ tl.2 ≤ p.2 ∧ p.2 ≤ br.2) ∧
      (∃ p ∈ items, p.1 = tl.1) ∧ (∃ p ∈ items, p.2 = tl.2) ∧
      (∃ p ∈ items, p.1 = br.1) ∧ (∃ p ∈ items, p.2 = br.2)) := by
  constructor
  · rintro rfl; rfl
  · intro hne
    cases items with
    | nil => exact absurd rfl hne
    | cons f rest =>
      obtain ⟨tl', br', he, hm, h1, h2, h3, h4, h5, h6, h7, h8⟩ := tlbr_fold rest f f
      refine ⟨tl', br', by rw [PosTy.tlbrOf, he], ?_, ?_, ?_, ?_, ?_⟩
      · intro p hp
        rcases List.mem_cons.1 hp with rfl | hp
        · omega
        · have := hm p hp; omega
      all_goals first
        | (rcases h5 with h | ⟨p, hp, h⟩
           · exact ⟨f, List.mem_cons_self, h.symm⟩
           · exact ⟨p, List.mem_cons_of_mem _ hp, h⟩)
        | (rcases h6 with h | ⟨p, hp, h⟩
           · exact ⟨f, List.mem_cons_self, h.symm⟩
           · exact ⟨p, List.mem_cons_of_mem _ hp, h⟩)
        | (rcases h7 with h | ⟨p, hp, h⟩
           · exact ⟨f, List.mem_cons_self, h.symm⟩
           · exact ⟨p, List.mem_cons_of_mem _ hp, h⟩)
        | (rcases h8 with h | ⟨p, hp, h⟩
           · exact ⟨f, List.mem_cons_self, h.symm⟩
           · exact ⟨p, List.mem_cons_of_mem _ hp, h⟩)

/-- C14. If all the items are in the grid, so are the two corners. -/
theorem C14_tlbr_in_grid (T : PosTy) (items : List (Int × Int)) (hi : ∀ p ∈ items, InGrid T p)
    (tl br : Int × Int) (h : PosTy.tlbrOf items = .ok (tl, br)) : InGrid T tl ∧ InGrid T br := by
  cases items with
  | nil => simp [PosTy.tlbrOf] at h
  | cons f rest =>
    obtain ⟨tl', br', h1, _, ⟨a, ha, ea⟩, ⟨b, hb, eb⟩, ⟨c, hc, ec⟩, ⟨d, hd, ed⟩⟩ := (C14_tlbr_of (f :: rest)).2 (by simp)
    rw [h1] at h
    simp only [Except.ok.injEq, Prod.mk.injEq] at h
    obtain ⟨rfl, rfl⟩ := h
    have := hi a ha; have := hi b hb; have := hi c hc; have := hi d hd
    simp only [InGrid] at *
    omega

example : PosTy.tlbrOf [(3, 4), (1, 5), (2, 0)] = .ok ((1, 0), (3, 5)) := by decide

/-! ## C15 -/

/-- C15, full statement: in every position type `manhattan` never panics and is the L1 distance. -/
def C15_claim [Target] : Prop :=
  ∀ (T : PosTy), T.WF → ∀ p q : Int × Int, InGrid T p → InGrid T q → T.manhattan p q = .ok (l1 p q)

/-- C15 is false: `(i8, i8)` positions far apart overflow the type of the coordinates. -/
theorem C15_refuted [Target] : ¬ C15_claim := by
  intro h
  have := h (PosTy.tuple .i8) (by decide) (-128, 0) (127, 0) (by unfold InGrid; decide) (by unfold InGrid; decide)
  clear h
  revert this
  decide_target

/-- `manhattan` in every position type and build, up to the last sum. -/
theorem manhattan_eq [Target] {T : PosTy} (hT : T.WF) {p q : Int × Int} (hp : InGrid T p) (hq : InGrid T q) :
    T.manhattan p q = if T.X.Valid |p.1 - q.1| ∧ T.Y.Valid |p.2 - q.2| ∧ |p.1 - q.1| ≤ limit ∧ |p.2 - q.2| ≤ limit
      then IntTy.usize.add |p.1 - q.1| |p.2 - q.2| else .panic := by
  have key : ∀ (B : BTy) (a b : Int), B.WF → B.Valid a → B.Valid b →
      Out.unwrap (if a > b then B.checkedSub a b else B.checkedSub b a) = if B.Valid |a - b| then .ok |a - b| else .panic := by
    intro B a b hB ha hb
    rw [BTy.checkedSub_eq hB, BTy.checkedSub_eq hB]
    rcases lt_or_ge b a with h | h
    · rw [if_pos h, abs_of_pos (by omega)]
      split <;> rfl
    · rw [if_neg (by omega), abs_of_nonpos (by omega), Int.neg_sub]
      split <;> rfl
  have hu : ∀ (B : BTy) (v : Int), 0 ≤ v → PosTy.intoUsize B v = if v ≤ limit then .ok v else .panic := by
    intro B v hv
    split
    · exact PosTy.intoUsize_eq ⟨hv, by assumption⟩
    · rename_i h
      simp only [PosTy.intoUsize, BTy.toUsize, IntTy.tryFrom]
      rw [if_neg (by rw [IntTy.usize_has]; omega)]
      rfl
  have hx := abs_nonneg (p.1 - q.1)
  have hy := abs_nonneg (p.2 - q.2)
  simp only [PosTy.manhattan]
  rw [key T.X _ _ hT.1 hp.1 hq.1, key T.Y _ _ hT.2 hp.2 hq.2]
  generalize |p.1 - q.1| = dx at *
  generalize |p.2 - q.2| = dy at *
  by_cases h1 : T.X.Valid dx
  · by_cases h2 : T.Y.Valid dy
    · rw [if_pos h1, if_pos h2, Out.ok_bind, Out.ok_bind]
      simp only [h1, h2, true_and]
      rw [hu _ _ hx, hu _ _ hy]
      by_cases h4 : dx ≤ limit
      · by_cases h5 : dy ≤ limit
        · rw [if_pos h4, if_pos h5, if_pos ⟨h4, h5⟩, Out.ok_bind, Out.ok_bind]
        · rw [if_pos h4, if_neg h5, if_neg (c := _ ∧ _) (fun h => h5 h.2)]; rfl
      · rw [if_neg h4, if_neg (c := _ ∧ _) (fun h => h4 h.1)]; rfl
    · rw [if_pos h1, if_neg h2, if_neg (fun h => h2 h.2.1)]; rfl
  · rw [if_neg h1, Out.panic_bind, if_neg (fun h => h1 h.1)]

theorem l1_eq_abs (p q : Int × Int) : l1 p q = |p.1 - q.1| + |p.2 - q.2| := by simp only [l1, Int.abs_eq_natAbs]

/-- C15. What `manhattan` does in every position type: it gives the L1 distance if the two differences of coordinates are themselves values of the
types of the coordinates and the result fits in `usize`, and it panics otherwise (with overflow checks). -/
theorem C15_manhattan_exact [Target] (hc : Target.checks = true) (T : PosTy) (hT : T.WF) (p q : Int × Int) (hp : InGrid T p) (hq : InGrid T q) :
    T.manhattan p q =
      if T.X.Valid |p.1 - q.1| ∧ T.Y.Valid |p.2 - q.2| ∧ l1 p q ≤ limit then .ok (l1 p q) else .panic := by
  have hx := abs_nonneg (p.1 - q.1)
  have hy := abs_nonneg (p.2 - q.2)
  rw [manhattan_eq hT hp hq, l1_eq_abs]
  generalize |p.1 - q.1| = dx at *
  generalize |p.2 - q.2| = dy at *
  by_cases h : T.X.Valid dx ∧ T.Y.Valid dy ∧ dx ≤ limit ∧ dy ≤ limit
  · rw [if_pos h, IntTy.add, IntTy.arith_checks hc]
    by_cases h3 : dx + dy ≤ limit
    · rw [if_pos (by rw [IntTy.usize_has]; omega), if_pos ⟨h.1, h.2.1, h3⟩]
    · rw [if_neg (by rw [IntTy.usize_has]; omega), if_neg (fun h' => h3 h'.2.2)]
  · rw [if_neg h, if_neg (fun h' => h ⟨h'.1, h'.2.1, by omega, by omega⟩)]

/-- C15. Where the differences of the coordinates are values of their types and the distance fits in `usize`, `manhattan` is the L1 distance, in every
position type and build. -/
theorem C15_manhattan_fits [Target] (T : PosTy) (hT : T.WF) (p q : Int × Int) (hp : InGrid T p) (hq : InGrid T q)
    (hx : T.X.Valid |p.1 - q.1|) (hy : T.Y.Valid |p.2 - q.2|) (hl : l1 p q ≤ limit) : T.manhattan p q = .ok (l1 p q) := by
  have h1 := abs_nonneg (p.1 - q.1)
  have h2 := abs_nonneg (p.2 - q.2)
  rw [l1_eq_abs] at hl ⊢
  rw [manhattan_eq hT hp hq, if_pos ⟨hx, hy, by omega, by omega⟩, IntTy.usize_add (by omega)]

example : (PosTy.tuple .i8).WF ∧ (PosTy.tuple .i8).manhattan (-100, 20) (20, 10) = .ok 130 ∧
    (PosTy.tuple .i8).manhattan (-100, 20) (28, 20) = .panic := by decide

/-- C15, proved part: in the types with coordinates from 0 and dimensions that fit in `usize` (every `Pos<XMAX, YMAX>`, `(u8, u8)`, `(u16, u16)`),
`manhattan` never panics and is the L1 distance. Missing: the other types, see `C15_manhattan_exact`. -/
theorem C15_manhattan_partial [Target] (T : PosTy) (hT : T.IsGrid) (p q : Int × Int) (hp : InGrid T p) (hq : InGrid T q) :
    T.manhattan p q = .ok (l1 p q) := by
  have hp := hT.valid_iff'.1 hp
  have hq := hT.valid_iff'.1 hq
  have h1 := hT.x_fits; have h2 := hT.y_fits; have hf := hT.fits
  have h3 := hT.xmax0; have h4 := hT.ymax0
  have h0 := hT.x0; have h0' := hT.y0
  have hs : T.X.MAX + T.Y.MAX ≤ limit := by nlinarith
  have key : ∀ (B : BTy) (a b : Int), B.WF → B.MIN = 0 → 0 ≤ a → a ≤ B.MAX → 0 ≤ b → b ≤ B.MAX →
      Out.unwrap (if a > b then B.checkedSub a b else B.checkedSub b a)
        = .ok ((a - b).natAbs : Int) := by
    intro B a b hB hm h1 h2 h3 h4
    split
    · rw [BTy.checkedSub_eq hB, if_pos (show B.Valid _ by simp only [BTy.Valid]; omega)]
      simp only [Out.unwrap_some, Out.ok.injEq]; omega
    · rw [BTy.checkedSub_eq hB, if_pos (show B.Valid _ by simp only [BTy.Valid]; omega)]
      simp only [Out.unwrap_some, Out.ok.injEq]; omega
  simp only [PosTy.manhattan]
  rw [key T.X p.1 q.1 hT.wf.1 h0 (by omega) (by omega) (by omega) (by omega),
    key T.Y p.2 q.2 hT.wf.2 h0' (by omega) (by omega) (by omega) (by omega)]
  simp only [Out.ok_bind]
  rw [PosTy.intoUsize_eq (by omega), PosTy.intoUsize_eq (by omega)]
  simp only [Out.ok_bind]
  rw [IntTy.usize_add (by omega)]
  rfl

/-- C15, proved part: metric laws of `manhattan`. -/
theorem C15_metric_partial [Target] (T : PosTy) (hT : T.IsGrid) (p q r : Int × Int)
    (hp : InGrid T p) (hq : InGrid T q) (hr : InGrid T r) :
    ∃ pq qp pr qr, T.manhattan p q = .ok pq ∧ T.manhattan q p = .ok qp ∧ T.manhattan p r = .ok pr ∧
      T.manhattan q r = .ok qr ∧ 0 ≤ pq ∧ (pq = 0 ↔ p = q) ∧ pq = qp ∧ pr ≤ pq + qr := by
  refine ⟨_, _, _, _, C15_manhattan_partial T hT p q hp hq, C15_manhattan_partial T hT q p hq hp,
    C15_manhattan_partial T hT p r hp hr, C15_manhattan_partial T hT q r hq hr, ?_, ?_, ?_, ?_⟩
  all_goals simp only [l1, Prod.ext_iff]; omega

example : (PosTy.pos 6 4).IsGrid ∧ InGrid (PosTy.pos 6 4) (5, 3) ∧ InGrid (PosTy.pos 6 4) (1, 4) ∧
    (PosTy.pos 6 4).manhattan (5, 3) (1, 4) = .ok 5 :=
  ⟨PosTy.pos_isGrid (by decide) (by decide) (.inl rfl), by unfold InGrid; decide, by unfold InGrid; decide, by decide⟩

/-! ## C16 -/

/-- C16. `inside` tests membership of the rectangle spanned by two corners, in any order. -/
theorem C16_inside (p a b : Int × Int) :
    (PosTy.inside p a b = true ↔
      (min a.1 b.1 ≤ p.1 ∧ p.1 ≤ max a.1 b.1) ∧ (min a.2 b.2 ≤ p.2 ∧ p.2 ≤ max a.2 b.2)) ∧
    PosTy.inside p a b = PosTy.inside p b a := by
  have h : ∀ p a b : Int × Int, PosTy.inside p a b = true ↔
      (min a.1 b.1 ≤ p.1 ∧ p.1 ≤ max a.1 b.1) ∧ (min a.2 b.2 ≤ p.2 ∧ p.2 ≤ max a.2 b.2) := by
    intro p a b
    simp only [PosTy.inside]
    split <;> split <;> simp only [Bool.and_eq_true, decide_eq_true_eq] <;> omega
  refine ⟨h p a b, ?_⟩
  rw [Bool.eq_iff_iff, h, h]
  omega

example : PosTy.inside (2, 3) (4, 1) (0, 3) = true ∧ PosTy.inside (2, 4) (4, 1) (0, 3) = false := by decide

/-! ## C17 -/

private theorem isCorner_iff (T : PosTy) (p : Int × Int) : T.isCorner p = true ↔
    (p.1 = T.X.MIN ∨ p.1 = T.X.MAX) ∧ (p.2 = T.Y.MIN ∨ p.2 = T.Y.MAX) := by
  simp only [PosTy.isCorner, Bool.and_eq_true, Bool.or_eq_true, beq_iff_eq]

private theorem isSide_iff (T : PosTy) (p : Int × Int) : T.isSide p = true ↔
    ((p.1 = T.X.MIN ∨ p.1 = T.X.MAX) ∨ p.2 = T.Y.MIN) ∨ p.2 = T.Y.MAX := by
  simp only [PosTy.isSide, Bool.or_eq_true, beq_iff_eq]

/-- C17. `flip_h` maps `(x, y)` to `(XMAX - x, y)`, without panic, inside the grid. -/
theorem C17_flip_h_exact [Target] (T : PosTy) (hT : T.IsGrid) (p : Int × Int) (hp : InGrid T p) :
    T.flipH p = .ok (T.X.MAX - p.1, p.2) ∧ InGrid T (T.X.MAX - p.1, p.2) := by
  have h := hT.valid_iff'.1 hp
  have h0 := hT.x0
  simp only [PosTy.flipH]
  rw [BTy.checkedSub_eq hT.wf.1, if_pos (show T.X.Valid _ by simp only [BTy.Valid]; omega)]
  refine ⟨rfl, ?_⟩
  rw [PosTy.inGrid_iff, hT.valid_iff']; simp only; omega

/-- C17. `flip_v` maps `(x, y)` to `(x, YMAX - y)`, without panic, inside the grid. -/
theorem C17_flip_v_exact [Target] (T : PosTy) (hT : T.IsGrid) (p : Int × Int) (hp : InGrid T p) :
    T.flipV p = .ok (p.1, T.Y.MAX - p.2) ∧ InGrid T (p.1, T.Y.MAX - p.2) := by
  have h := hT.valid_iff'.1 hp
  have h0 := hT.y0
  simp only [PosTy.flipV]
  rw [BTy.checkedSub_eq hT.wf.2, if_pos (show T.Y.Valid _ by simp only [BTy.Valid]; omega)]
  refine ⟨rfl, ?_⟩
  rw [PosTy.inGrid_iff, hT.valid_iff']; simp only; omega

/-- C17. The flips are involutions, they commute, and they preserve corners, sides and distances. -/
theorem C17_flip_laws [Target] (T : PosTy) (hT : T.IsGrid) (p q : Int × Int) (hp : InGrid T p) (hq : InGrid T q) :
    (T.flipH p >>= T.flipH) = .ok p ∧ (T.flipV p >>= T.flipV) = .ok p ∧
    (T.flipH p >>= T.flipV) = (T.flipV p >>= T.flipH) ∧
    (T.flipH p >>= fun p' => .ok (T.isCorner p')) = .ok (T.isCorner p) ∧
    (T.flipV p >>= fun p' => .ok (T.isCorner p')) = .ok (T.isCorner p) ∧
    (T.flipH p >>= fun p' => .ok (T.isSide p')) = .ok (T.isSide p) ∧
    (T.flipV p >>= fun p' => .ok (T.isSide p')) = .ok (T.isSide p) ∧
    (T.flipH p >>= fun p' => T.flipH q >>= fun q' => T.manhattan p' q') = T.manhattan p q ∧
    (T.flipV p >>= fun p' => T.flipV q >>= fun q' => T.manhattan p' q') = T.manhattan p q := by
  obtain ⟨h1, v1⟩ := C17_flip_h_exact T hT p hp
  obtain ⟨h2, v2⟩ := C17_flip_v_exact T hT p hp
  obtain ⟨h3, v3⟩ := C17_flip_h_exact T hT q hq
  obtain ⟨h4, v4⟩ := C17_flip_v_exact T hT q hq
  rw [h1, h2, h3, h4]
  simp only [Out.ok_bind]
  rw [(C17_flip_h_exact T hT _ v1).1, (C17_flip_v_exact T hT _ v2).1, (C17_flip_v_exact T hT _ v1).1,
    (C17_flip_h_exact T hT _ v2).1, C15_manhattan_partial T hT _ _ v1 v3, C15_manhattan_partial T hT _ _ v2 v4,
    C15_manhattan_partial T hT _ _ hp hq]
  have h := hT.valid_iff'.1 hp
  have hx0 := hT.x0; have hy0 := hT.y0
  refine ⟨?_, ?_, rfl, ?_, ?_, ?_, ?_, ?_, ?_⟩
  · simp
  · simp
  · rw [Out.ok.injEq, Bool.eq_iff_iff, isCorner_iff, isCorner_iff]; simp only; omega
  · rw [Out.ok.injEq, Bool.eq_iff_iff, isCorner_iff, isCorner_iff]; simp only; omega
  · rw [Out.ok.injEq, Bool.eq_iff_iff, isSide_iff, isSide_iff]; simp only; omega
  · rw [Out.ok.injEq, Bool.eq_iff_iff, isSide_iff, isSide_iff]; simp only; omega
  · simp only [l1, Out.ok.injEq]; omega
  · simp only [l1, Out.ok.injEq]; omega

example : (PosTy.pos 6 4).IsGrid ∧ InGrid (PosTy.pos 6 4) (5, 3) ∧
    (PosTy.pos 6 4).flipH (5, 3) = .ok (1, 3) ∧ (PosTy.pos 6 4).flipV (5, 3) = .ok (5, 1) :=
  ⟨PosTy.pos_isGrid (by decide) (by decide) (.inl rfl), by unfold InGrid; decide, by decide, by decide⟩

/-! ## C18 -/

/-- C18. On a square grid `rotate_cw` maps `(x, y)` to `(MAX - y, x)` and `rotate_cc` maps it to `(y, MAX - x)`;
neither panics and both stay in the grid. -/
theorem C18_rotate_exact [Target] (T : PosTy) (hT : T.IsGrid) (hsq : T.X.MAX = T.Y.MAX) (p : Int × Int) (hp : InGrid T p) :
    T.rotateCw p = .ok (T.Y.MAX - p.2, p.1) ∧ InGrid T (T.Y.MAX - p.2, p.1) ∧
    T.rotateCc p = .ok (p.2, T.X.MAX - p.1) ∧ InGrid T (p.2, T.X.MAX - p.1) := by
  have h := hT.valid_iff'.1 hp
  have hx0 := hT.x0; have hy0 := hT.y0
  have hbX : T.X.base.Has (T.X.MAX - p.1) := hT.wf.1.valid_rep ⟨by omega, by omega⟩
  have hbY : T.Y.base.Has (T.Y.MAX - p.2) := hT.wf.2.valid_rep ⟨by omega, by omega⟩
  refine ⟨?_, ?_, ?_, ?_⟩
  · simp only [PosTy.rotateCw, IntTy.sub]
    rw [IntTy.arith_eq hbY, Out.ok_bind, BTy.tryFrom_eq hT.wf.1,
      if_pos (show T.X.Valid _ by simp only [BTy.Valid]; omega), Out.unwrapRes_ok, Out.ok_bind,
      BTy.tryFrom_eq hT.wf.2, if_pos (show T.Y.Valid _ by simp only [BTy.Valid]; omega)]
    rfl
  · rw [PosTy.inGrid_iff, hT.valid_iff']; simp only; omega
  · simp only [PosTy.rotateCc, IntTy.sub]
    rw [BTy.tryFrom_eq hT.wf.1, if_pos (show T.X.Valid _ by simp only [BTy.Valid]; omega), Out.unwrapRes_ok,
      Out.ok_bind, IntTy.arith_eq hbX, Out.ok_bind,
      BTy.tryFrom_eq hT.wf.2, if_pos (show T.Y.Valid _ by simp only [BTy.Valid]; omega)]
    rfl
  · rw [PosTy.inGrid_iff, hT.valid_iff']; simp only; omega

/-- C18. `rotate_cw` and `rotate_cc` are inverse, of order 4, and preserve corners, sides and distances. -/
theorem C18_rotate_laws [Target] (T : PosTy) (hT : T.IsGrid) (hsq : T.X.MAX = T.Y.MAX) (p q : Int × Int)
    (hp : InGrid T p) (hq : InGrid T q) :
    (T.rotateCw p >>= T.rotateCc) = .ok p ∧ (T.rotateCc p >>= T.rotateCw) = .ok p ∧
    (T.rotateCw p >>= T.rotateCw >>= T.rotateCw >>= T.rotateCw) = .ok p ∧
    (T.rotateCw p >>= T.rotateCw) = (T.flipH p >>= T.flipV) ∧
    (T.rotateCw p >>= fun p' => .ok (T.isCorner p')) = .ok (T.isCorner p) ∧
    (T.rotateCw p >>= fun p' => .ok (T.isSide p')) = .ok (T.isSide p) ∧
    (T.rotateCw p >>= fun p' => T.rotateCw q >>= fun q' => T.manhattan p' q') = T.manhattan p q := by
  obtain ⟨a1, v1, a2, v2⟩ := C18_rotate_exact T hT hsq p hp
  obtain ⟨b1, w1, _, _⟩ := C18_rotate_exact T hT hsq q hq
  obtain ⟨c1, x1, c2, _⟩ := C18_rotate_exact T hT hsq _ v1
  obtain ⟨d1, _, _, _⟩ := C18_rotate_exact T hT hsq _ v2
  obtain ⟨e1, y1, _, _⟩ := C18_rotate_exact T hT hsq _ x1
  obtain ⟨f1, _, _, _⟩ := C18_rotate_exact T hT hsq _ y1
  obtain ⟨g1, z1⟩ := C17_flip_h_exact T hT p hp
  obtain ⟨g2, _⟩ := C17_flip_v_exact T hT _ z1
  rw [a1, a2, b1, g1]
  simp only [Out.ok_bind]
  rw [c1, c2, d1, g2]
  simp only [Out.ok_bind]
  rw [e1, Out.ok_bind, f1, C15_manhattan_partial T hT _ _ v1 w1, C15_manhattan_partial T hT _ _ hp hq]
  have h := hT.valid_iff'.1 hp
  have hx0 := hT.x0; have hy0 := hT.y0
  refine ⟨?_, ?_, ?_, ?_, ?_, ?_, ?_⟩
  · rw [Out.ok.injEq]; apply Prod.ext <;> simp only <;> omega
  · rw [Out.ok.injEq]; apply Prod.ext <;> simp only <;> omega
  · rw [Out.ok.injEq]; apply Prod.ext <;> simp only <;> omega
  · rw [Out.ok.injEq]; apply Prod.ext <;> simp only <;> omega
  · rw [Out.ok.injEq, Bool.eq_iff_iff, isCorner_iff, isCorner_iff]; simp only; omega
  · rw [Out.ok.injEq, Bool.eq_iff_iff, isSide_iff, isSide_iff]; simp only; omega
  · simp only [l1, Out.ok.injEq]; omega

example : (PosTy.pos 4 4).IsGrid ∧ (PosTy.pos 4 4).X.MAX = (PosTy.pos 4 4).Y.MAX ∧ InGrid (PosTy.pos 4 4) (3, 1) ∧
    (PosTy.pos 4 4).rotateCw (3, 1) = .ok (3, 3) ∧ (PosTy.pos 4 4).rotateCc (3, 1) = .ok (1, 1) :=
  ⟨PosTy.pos_isGrid (by decide) (by decide) (.inl rfl), rfl, by unfold InGrid; decide, by decide, by decide⟩

/-- C18 needs a square grid: on `Pos<4, 2>`, rotating the position (4, 0) panics. -/
theorem C18_non_square_panics [Target] : (PosTy.pos 4 2).rotateCw (4, 0) = .panic := by decide_target

/-! ## C19 -/

/-- C19. `is_side` holds exactly when some cardinal neighbour falls outside of the grid. -/
theorem C19_is_side (T : PosTy) (p : Int × Int) (hp : InGrid T p) :
    T.isSide p = true ↔ ∃ d, d ∈ [Dir.N, Dir.E, Dir.S, Dir.W] ∧ ¬ InGrid T (neighbour p d) := by
  simp only [List.mem_cons, List.not_mem_nil, or_false, exists_eq_or_imp, exists_eq_left, neighbour, unit, InGrid,
    PosTy.isSide, Bool.or_eq_true, beq_iff_eq] at *
  omega

/-- C19. `is_corner` holds exactly when a vertical and a horizontal neighbour fall outside of the grid. -/
theorem C19_is_corner (T : PosTy) (p : Int × Int) (hp : InGrid T p) :
    T.isCorner p = true ↔
      (¬ InGrid T (neighbour p .N) ∨ ¬ InGrid T (neighbour p .S)) ∧
      (¬ InGrid T (neighbour p .E) ∨ ¬ InGrid T (neighbour p .W)) := by
  simp only [neighbour, unit, InGrid, PosTy.isCorner, Bool.and_eq_true, Bool.or_eq_true, beq_iff_eq] at *
  omega

/-- C19. A corner is exactly one of the four extreme positions of the grid. -/
theorem C19_is_corner_positions (T : PosTy) (p : Int × Int) :
    T.isCorner p = true ↔ p ∈ [(T.X.MIN, T.Y.MIN), (T.X.MAX, T.Y.MIN), (T.X.MIN, T.Y.MAX), (T.X.MAX, T.Y.MAX)] := by
  simp only [PosTy.isCorner, Bool.and_eq_true, Bool.or_eq_true, beq_iff_eq, List.mem_cons, List.not_mem_nil, or_false,
    Prod.ext_iff]
  omega

example : InGrid (PosTy.pos 4 2) (3, 2) ∧ (PosTy.pos 4 2).isSide (3, 2) = true ∧
    (PosTy.pos 4 2).isCorner (3, 2) = false ∧ (PosTy.pos 4 2).isCorner (4, 0) = true ∧
    (PosTy.pos 4 2).isSide (3, 1) = false := by unfold InGrid; decide

end Sqrid
