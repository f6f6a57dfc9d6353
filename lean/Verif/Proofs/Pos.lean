import Verif.Spec.Pos
import Verif.Proofs.BoundedInt
import Mathlib.Tactic.Ring
import Mathlib.Tactic.Linarith
/-! Lemmas about positions. -/

namespace Sqrid

open Spec

theorem Out.bind_ok {x : Out α} {f : α → Out β} {b : β} (h : x >>= f = .ok b) : ∃ a, x = .ok a ∧ f a = .ok b := by
  cases x with
  | ok a => exact ⟨a, rfl, h⟩
  | panic => cases h
  | ub => cases h
  | timeout => cases h

theorem limit_pos [Target] : 4294967295 ≤ (limit : Int) := by unfold limit; split <;> decide

/-- `decide`, for each of the targets. -/
macro "decide_target" : tactic => `(tactic| first
  | decide
  | (rename Target => t; obtain ⟨c, w⟩ := t; cases c <;> cases w <;> decide +kernel))

/-- Small grids fit every target. -/
macro "fits_small" : tactic => `(tactic| first
  | exact Or.inr (Or.inl (by decide))
  | exact Or.inr ⟨by decide, by decide⟩)

theorem fits_iff [Target] {xmax ymax : Int} (hx : 0 ≤ xmax ∧ xmax ≤ 65535) (hy : 0 ≤ ymax ∧ ymax ≤ 65535) :
    Fits xmax ymax ↔ (xmax + 1) * (ymax + 1) ≤ limit := by
  unfold Fits limit
  cases Target.wide
  · simp only [Bool.false_eq_true, false_or, if_false]
    constructor
    · rintro (h | h) <;> nlinarith [hx.1, hx.2, hy.1, hy.2]
    · intro h
      by_contra hc
      have h1 : xmax = 65535 := by omega
      have h2 : ymax = 65535 := by omega
      subst h1 h2
      omega
  · simp only [true_or, if_true, true_iff]
    nlinarith [hx.1, hx.2, hy.1, hy.2]

theorem fits_room [Target] {xmax ymax : Int} (hx : 0 ≤ xmax ∧ xmax ≤ 65535) (hy : 0 ≤ ymax ∧ ymax ≤ 65535) (h : Fits xmax ymax) :
    (xmax + 1) * (ymax + 1) + 65535 ≤ limit := by
  revert h
  unfold Fits limit
  cases Target.wide
  · simp only [Bool.false_eq_true, false_or, if_false]
    intro h
    rcases h with h | h <;> nlinarith [hx.1, hx.2, hy.1, hy.2]
  · simp only [true_or, if_true, true_imp_iff]
    nlinarith [hx.1, hx.2, hy.1, hy.2]

namespace PosTy

theorem valid_iff {T : PosTy} {p : Int × Int} : T.Valid p ↔
    (T.X.MIN ≤ p.1 ∧ p.1 ≤ T.X.MAX) ∧ (T.Y.MIN ≤ p.2 ∧ p.2 ≤ T.Y.MAX) := Iff.rfl

theorem inGrid_iff {T : PosTy} {p : Int × Int} : InGrid T p ↔ T.Valid p := Iff.rfl

theorem pos_isGrid [Target] {xmax ymax : Int} (hx : 0 ≤ xmax ∧ xmax ≤ 65535) (hy : 0 ≤ ymax ∧ ymax ≤ 65535) (hf : Fits xmax ymax) :
    (PosTy.pos xmax ymax).IsGrid where
  wf := by
    exact ⟨⟨by decide, Int.le_refl 0, hx.1, hx.2⟩, ⟨by decide, Int.le_refl 0, hy.1, hy.2⟩⟩
  x0 := rfl
  y0 := rfl
  fits := (fits_iff hx hy).1 hf

theorem u8_isGrid [Target] : (PosTy.tuple .u8).IsGrid := ⟨by decide, rfl, rfl, by have := limit_pos; simp only [tuple, BTy.MAX, IntTy.u8]; omega⟩
theorem u16_isGrid [Target] (hw : Target.wide = true) : (PosTy.tuple .u16).IsGrid :=
  ⟨by decide, rfl, rfl, by simp only [limit, hw, if_true, tuple, BTy.MAX, IntTy.u16]; omega⟩

namespace IsGrid

variable [Target] {T : PosTy} (h : T.IsGrid)
include h

theorem xmax0 : 0 ≤ T.X.MAX := by have := h.wf.1.min_le_max; rw [h.x0] at this; exact this
theorem ymax0 : 0 ≤ T.Y.MAX := by have := h.wf.2.min_le_max; rw [h.y0] at this; exact this

theorem valid_iff' {p : Int × Int} : T.Valid p ↔
    (0 ≤ p.1 ∧ p.1 ≤ T.X.MAX) ∧ (0 ≤ p.2 ∧ p.2 ≤ T.Y.MAX) := by
  rw [valid_iff, h.x0, h.y0]

theorem x_fits : T.X.MAX + 1 ≤ limit := by
  have := h.fits; have := h.xmax0; have := h.ymax0; nlinarith

theorem y_fits : T.Y.MAX + 1 ≤ limit := by
  have := h.fits; have := h.xmax0; have := h.ymax0; nlinarith

end IsGrid

end PosTy

theorem IntTy.usize_lo [Target] : IntTy.usize.lo = 0 := by unfold IntTy.usize; split <;> rfl

theorem IntTy.usize_hi [Target] : IntTy.usize.hi = limit := by unfold IntTy.usize limit; split <;> rfl

theorem IntTy.usize_has [Target] {v : Int} : IntTy.usize.Has v ↔ 0 ≤ v ∧ v ≤ limit := by
  rw [IntTy.Has, IntTy.usize_lo, IntTy.usize_hi]

theorem IntTy.arith_eq [Target] {t : IntTy} {v : Int} (h : t.Has v) : t.arith v = .ok v := if_pos h

theorem IntTy.arith_checks [Target] (hc : Target.checks = true) (t : IntTy) (v : Int) : t.arith v = if t.Has v then .ok v else .panic := by
  rw [IntTy.arith, if_pos hc]

theorem IntTy.usize_add [Target] {a b : Int} (h : 0 ≤ a + b ∧ a + b ≤ limit) : IntTy.usize.add a b = .ok (a + b) :=
  IntTy.arith_eq (IntTy.usize_has.2 h)

theorem IntTy.usize_mul [Target] {a b : Int} (h : 0 ≤ a * b ∧ a * b ≤ limit) : IntTy.usize.mul a b = .ok (a * b) :=
  IntTy.arith_eq (IntTy.usize_has.2 h)

theorem IntTy.usize_sub [Target] {a b : Int} (h : 0 ≤ a - b ∧ a - b ≤ limit) : IntTy.usize.sub a b = .ok (a - b) :=
  IntTy.arith_eq (IntTy.usize_has.2 h)

theorem IntTy.usize_cast [Target] {a : Int} (h : 0 ≤ a ∧ a ≤ limit) : IntTy.usize.cast a = a := by
  rw [IntTy.cast, IntTy.usize_lo, IntTy.usize_hi, Int.sub_zero, Int.sub_zero, Int.add_zero, Int.emod_eq_of_lt h.1 (by omega)]

namespace PosTy

theorem intoUsize_eq [Target] {B : BTy} {v : Int} (h : 0 ≤ v ∧ v ≤ limit) :
    intoUsize B v = .ok v := by
  simp [intoUsize, BTy.toUsize, IntTy.tryFrom, IntTy.usize_has, h]

theorem pos_width [Target] {xmax ymax : Int} (hx : 0 ≤ xmax ∧ xmax ≤ 65535) : (PosTy.pos xmax ymax).width = .ok (xmax + 1) := by
  have := limit_pos
  show (intoUsize _ xmax >>= fun x => IntTy.usize.add x 1) = _
  rw [intoUsize_eq ⟨by omega, by omega⟩, Out.ok_bind, IntTy.usize_add ⟨by omega, by omega⟩]

theorem pos_height [Target] {xmax ymax : Int} (hy : 0 ≤ ymax ∧ ymax ≤ 65535) : (PosTy.pos xmax ymax).height = .ok (ymax + 1) := by
  have := limit_pos
  show (intoUsize _ ymax >>= fun x => IntTy.usize.add x 1) = _
  rw [intoUsize_eq ⟨by omega, by omega⟩, Out.ok_bind, IntTy.usize_add ⟨by omega, by omega⟩]

theorem new_eq {T : PosTy} (hT : T.WF) (x y : Int) :
    T.new x y = if T.Valid (x, y) then .ok (x, y) else .error .outOfBounds := by
  rw [new, BTy.tryFrom_eq hT.1, BTy.tryFrom_eq hT.2]
  by_cases hx : T.X.Valid x
  · by_cases hy : T.Y.Valid y
    · simp [hx, hy, Valid]
    · simp [hx, hy, Valid]
  · simp [hx, Valid]

namespace IsGrid

variable [Target] {T : PosTy} (h : T.IsGrid)
include h

theorem width_eq : T.width = .ok (T.X.MAX + 1) := by
  have := h.xmax0; have := h.x_fits
  simp only [width]
  rw [intoUsize_eq ⟨by omega, by omega⟩, Out.ok_bind, IntTy.usize_add ⟨by omega, by omega⟩]

theorem height_eq : T.height = .ok (T.Y.MAX + 1) := by
  have := h.ymax0; have := h.y_fits
  simp only [height]
  rw [intoUsize_eq ⟨by omega, by omega⟩, Out.ok_bind, IntTy.usize_add ⟨by omega, by omega⟩]

theorem dimensions_eq : T.dimensions = .ok ((T.X.MAX + 1) * (T.Y.MAX + 1)) := by
  have h1 := h.xmax0; have h2 := h.ymax0
  simp only [dimensions]
  rw [h.width_eq, h.height_eq, Out.ok_bind, Out.ok_bind, IntTy.usize_mul ⟨by positivity, h.fits⟩]

/-- The index of a valid position is below the number of positions. -/
theorem index_lt {p : Int × Int} (hp : T.Valid p) :
    0 ≤ p.2 * (T.X.MAX + 1) + p.1 ∧ p.2 * (T.X.MAX + 1) + p.1 < (T.X.MAX + 1) * (T.Y.MAX + 1) := by
  rw [h.valid_iff'] at hp
  have h1 := h.xmax0; have h2 := h.ymax0
  constructor
  · nlinarith
  · nlinarith

theorem toUsize_eq {p : Int × Int} (hp : T.Valid p) :
    T.toUsize p = .ok (p.2 * (T.X.MAX + 1) + p.1) := by
  have hi := h.index_lt hp
  have hf := h.fits
  rw [h.valid_iff'] at hp
  have h1 := h.x_fits; have h2 := h.y_fits; have h3 := h.xmax0
  have hm : 0 ≤ p.2 * (T.X.MAX + 1) := by nlinarith
  simp only [toUsize]
  rw [intoUsize_eq ⟨by omega, by omega⟩, intoUsize_eq ⟨by omega, by omega⟩, h.width_eq]
  simp only [Out.ok_bind]
  rw [IntTy.usize_mul ⟨hm, by omega⟩, Out.ok_bind, IntTy.usize_add ⟨hi.1, by omega⟩]

theorem tryFromUsize_eq {i : Int} (hi : 0 ≤ i) :
    T.tryFromUsize i = .ok (if i < (T.X.MAX + 1) * (T.Y.MAX + 1)
      then .ok (i % (T.X.MAX + 1), i / (T.X.MAX + 1)) else .error .outOfBounds) := by
  have h1 := h.xmax0
  have hd : i / (T.X.MAX + 1) < T.Y.MAX + 1 ↔ i < (T.X.MAX + 1) * (T.Y.MAX + 1) := by
    rw [Int.ediv_lt_iff_lt_mul (by omega), Int.mul_comm]
  have hd0 : 0 ≤ i / (T.X.MAX + 1) := Int.ediv_nonneg hi (by omega)
  have hm0 := Int.emod_nonneg i (show T.X.MAX + 1 ≠ 0 by omega)
  have hm1 := Int.emod_lt_of_pos i (show 0 < T.X.MAX + 1 by omega)
  have hw : T.X.MAX + 1 ≠ 0 := by omega
  simp only [tryFromUsize]
  rw [h.width_eq, Out.ok_bind, IntTy.rem, IntTy.div, if_neg hw, if_neg hw, Out.ok_bind, Out.ok_bind, new_eq h.wf]
  congr 1
  by_cases hlt : i < (T.X.MAX + 1) * (T.Y.MAX + 1)
  · rw [if_pos hlt, if_pos]
    rw [h.valid_iff']; have := hd.2 hlt; simp only; omega
  · rw [if_neg hlt, if_neg]
    rw [h.valid_iff']; have := mt hd.1 hlt; simp only; omega

end IsGrid

/-! ### Enumerations -/

/-- Number of columns / lines as naturals. -/
def nx (T : PosTy) : Nat := (T.X.MAX - T.X.MIN + 1).toNat
/-- Number of lines as a natural. -/
def ny (T : PosTy) : Nat := (T.Y.MAX - T.Y.MIN + 1).toNat

theorem WF.nx_pos {T : PosTy} (h : T.WF) : 0 < T.nx := by
  have := h.1.min_le_max; simp only [nx]; omega
theorem WF.ny_pos {T : PosTy} (h : T.WF) : 0 < T.ny := by
  have := h.2.min_le_max; simp only [ny]; omega

theorem divmod_succ (w i : Nat) (hw : 0 < w) :
    ((i % w + 1 < w) ∧ (i + 1) % w = i % w + 1 ∧ (i + 1) / w = i / w) ∨
    ((i % w + 1 = w) ∧ (i + 1) % w = 0 ∧ (i + 1) / w = i / w + 1) := by
  have hm := Nat.mod_lt i hw
  have hd := Nat.div_add_mod i w
  rcases Nat.lt_or_ge (i % w + 1) w with hlt | hge
  · left
    have e : i + 1 = w * (i / w) + (i % w + 1) := by omega
    refine ⟨hlt, ?_, ?_⟩
    · rw [e, Nat.mul_add_mod, Nat.mod_eq_of_lt hlt]
    · rw [e, Nat.mul_add_div hw, Nat.div_eq_of_lt hlt, Nat.add_zero]
  · right
    have e : i + 1 = w * (i / w + 1) := by rw [Nat.mul_add, Nat.mul_one]; omega
    refine ⟨by omega, ?_, ?_⟩
    · rw [e, Nat.mul_mod_right]
    · rw [e, Nat.mul_div_cancel_left _ hw]

theorem div_lt_of_lt {w h i : Nat} (hi : i < w * h) : i / w < h := by
  exact Nat.div_lt_of_lt_mul hi

/-- The `i`-th position in reading order. -/
def rowAt (T : PosTy) (i : Nat) : Int × Int :=
  (T.X.MIN + ((i % T.nx : Nat) : Int), T.Y.MIN + ((i / T.nx : Nat) : Int))

/-- The `i`-th position in column order. -/
def colAt (T : PosTy) (i : Nat) : Int × Int :=
  (T.X.MIN + ((i / T.ny : Nat) : Int), T.Y.MIN + ((i % T.ny : Nat) : Int))

theorem rowAt_valid {T : PosTy} (h : T.WF) {i : Nat} (hi : i < T.nx * T.ny) : T.Valid (T.rowAt i) := by
  have h1 := Nat.mod_lt i h.nx_pos
  have h2 := div_lt_of_lt hi
  have h3 := h.1.min_le_max
  have h4 := h.2.min_le_max
  rw [valid_iff]; simp only [rowAt]
  generalize i / T.nx = q at *
  generalize i % T.nx = r at *
  simp only [nx, ny] at *; omega

theorem colAt_valid {T : PosTy} (h : T.WF) {i : Nat} (hi : i < T.nx * T.ny) : T.Valid (T.colAt i) := by
  have h1 := Nat.mod_lt i h.ny_pos
  have h2 : i / T.ny < T.nx := div_lt_of_lt (by rw [Nat.mul_comm]; exact hi)
  have h3 := h.1.min_le_max
  have h4 := h.2.min_le_max
  rw [valid_iff]; simp only [colAt]
  generalize i / T.ny = q at *
  generalize i % T.ny = r at *
  simp only [nx, ny] at *; omega

theorem rowAt_inj {T : PosTy} {i j : Nat} (h : T.rowAt i = T.rowAt j) : i = j := by
  simp only [rowAt, Prod.mk.injEq] at h
  have h1 := Nat.div_add_mod i T.nx
  have h2 := Nat.div_add_mod j T.nx
  have e1 : i % T.nx = j % T.nx := by omega
  have e2 : i / T.nx = j / T.nx := by omega
  rw [e1, e2] at h1; omega

theorem colAt_inj {T : PosTy} {i j : Nat} (h : T.colAt i = T.colAt j) : i = j := by
  simp only [colAt, Prod.mk.injEq] at h
  have h1 := Nat.div_add_mod i T.ny
  have h2 := Nat.div_add_mod j T.ny
  have e1 : i % T.ny = j % T.ny := by omega
  have e2 : i / T.ny = j / T.ny := by omega
  rw [e1, e2] at h1; omega

theorem next_in_row {T : PosTy} (h : T.WF) {p : Int × Int} (h1 : T.X.MIN ≤ p.1) (h2 : p.1 < T.X.MAX) :
    T.next p = some (p.1 + 1, p.2) := by
  simp only [next]; rw [BTy.inc_some h.1 (by omega) (by omega)]

theorem next_row {T : PosTy} (h : T.WF) {p : Int × Int} (h1 : p.1 = T.X.MAX) (h2 : T.Y.MIN ≤ p.2)
    (h3 : p.2 < T.Y.MAX) : T.next p = some (T.X.MIN, p.2 + 1) := by
  simp only [next]; rw [BTy.inc_none h.1 (by omega), BTy.inc_some h.2 (by omega) (by omega)]; rfl

theorem next_last {T : PosTy} (h : T.WF) : T.next T.last = none := by
  simp only [next, last]; rw [BTy.inc_none h.1 (by omega), BTy.inc_none h.2 (by omega)]; rfl

theorem prev_in_row {T : PosTy} (h : T.WF) {p : Int × Int} (h1 : T.X.MIN < p.1) (h2 : p.1 ≤ T.X.MAX) :
    T.prev p = some (p.1 - 1, p.2) := by
  simp only [prev]; rw [BTy.dec_some h.1 (by omega) (by omega)]

theorem prev_row {T : PosTy} (h : T.WF) {p : Int × Int} (h1 : p.1 = T.X.MIN) (h2 : T.Y.MIN < p.2)
    (h3 : p.2 ≤ T.Y.MAX) : T.prev p = some (T.X.MAX, p.2 - 1) := by
  simp only [prev]; rw [BTy.dec_none h.1 (by omega), BTy.dec_some h.2 (by omega) (by omega)]; rfl

theorem prev_first {T : PosTy} (h : T.WF) : T.prev T.first = none := by
  simp only [prev, first]; rw [BTy.dec_none h.1 (by omega), BTy.dec_none h.2 (by omega)]; rfl

theorem nextY_in_col {T : PosTy} (h : T.WF) {p : Int × Int} (h1 : T.Y.MIN ≤ p.2) (h2 : p.2 < T.Y.MAX) :
    T.nextY p = some (p.1, p.2 + 1) := by
  simp only [nextY]; rw [BTy.inc_some h.2 (by omega) (by omega)]

theorem nextY_col {T : PosTy} (h : T.WF) {p : Int × Int} (h1 : p.2 = T.Y.MAX) (h2 : T.X.MIN ≤ p.1)
    (h3 : p.1 < T.X.MAX) : T.nextY p = some (p.1 + 1, T.Y.MIN) := by
  simp only [nextY]; rw [BTy.inc_none h.2 (by omega), BTy.inc_some h.1 (by omega) (by omega)]; rfl

theorem nextY_last {T : PosTy} (h : T.WF) : T.nextY T.last = none := by
  simp only [nextY, last]; rw [BTy.inc_none h.2 (by omega), BTy.inc_none h.1 (by omega)]; rfl

theorem prevY_in_col {T : PosTy} (h : T.WF) {p : Int × Int} (h1 : T.Y.MIN < p.2) (h2 : p.2 ≤ T.Y.MAX) :
    T.prevY p = some (p.1, p.2 - 1) := by
  simp only [prevY]; rw [BTy.dec_some h.2 (by omega) (by omega)]

theorem prevY_col {T : PosTy} (h : T.WF) {p : Int × Int} (h1 : p.2 = T.Y.MIN) (h2 : T.X.MIN < p.1)
    (h3 : p.1 ≤ T.X.MAX) : T.prevY p = some (p.1 - 1, T.Y.MAX) := by
  simp only [prevY]; rw [BTy.dec_none h.2 (by omega), BTy.dec_some h.1 (by omega) (by omega)]; rfl

theorem prevY_first {T : PosTy} (h : T.WF) : T.prevY T.first = none := by
  simp only [prevY, first]; rw [BTy.dec_none h.2 (by omega), BTy.dec_none h.1 (by omega)]; rfl

theorem next_rowAt {T : PosTy} (h : T.WF) {i : Nat} (hi : i + 1 < T.nx * T.ny) :
    T.next (T.rowAt i) = some (T.rowAt (i + 1)) := by
  have hv := rowAt_valid h hi
  have hv0 := rowAt_valid h (i := i) (by omega)
  rw [valid_iff] at hv hv0
  have h3 := h.1.min_le_max
  have hn : (T.nx : Int) = T.X.MAX - T.X.MIN + 1 := by simp only [nx]; omega
  rcases divmod_succ T.nx i h.nx_pos with ⟨ha, hb, hc⟩ | ⟨ha, hb, hc⟩
  · simp only [rowAt, hb, hc] at hv hv0 ⊢
    rw [next_in_row h (by simp only; omega) (by simp only; omega)]
    simp; omega
  · simp only [rowAt, hb, hc] at hv hv0 ⊢
    rw [next_row h (by simp only; omega) (by simp only; omega) (by simp only; omega)]
    simp; omega

theorem prev_rowAt {T : PosTy} (h : T.WF) {i : Nat} (hi : i + 1 < T.nx * T.ny) :
    T.prev (T.rowAt (i + 1)) = some (T.rowAt i) := by
  have hv := rowAt_valid h hi
  have hv0 := rowAt_valid h (i := i) (by omega)
  rw [valid_iff] at hv hv0
  have h3 := h.1.min_le_max
  have hn : (T.nx : Int) = T.X.MAX - T.X.MIN + 1 := by simp only [nx]; omega
  rcases divmod_succ T.nx i h.nx_pos with ⟨ha, hb, hc⟩ | ⟨ha, hb, hc⟩
  · simp only [rowAt, hb, hc] at hv hv0 ⊢
    rw [prev_in_row h (by simp only; omega) (by simp only; omega)]
    simp; omega
  · simp only [rowAt, hb, hc] at hv hv0 ⊢
    rw [prev_row h (by simp) (by simp only; omega) (by simp only; omega)]
    simp only [Option.some.injEq, Prod.mk.injEq]; omega

theorem nextY_colAt {T : PosTy} (h : T.WF) {i : Nat} (hi : i + 1 < T.nx * T.ny) :
    T.nextY (T.colAt i) = some (T.colAt (i + 1)) := by
  have hv := colAt_valid h hi
  have hv0 := colAt_valid h (i := i) (by omega)
  rw [valid_iff] at hv hv0
  have h3 := h.2.min_le_max
  have hn : (T.ny : Int) = T.Y.MAX - T.Y.MIN + 1 := by simp only [ny]; omega
  rcases divmod_succ T.ny i h.ny_pos with ⟨ha, hb, hc⟩ | ⟨ha, hb, hc⟩
  · simp only [colAt, hb, hc] at hv hv0 ⊢
    rw [nextY_in_col h (by simp only; omega) (by simp only; omega)]
    simp; omega
  · simp only [colAt, hb, hc] at hv hv0 ⊢
    rw [nextY_col h (by simp only; omega) (by simp only; omega) (by simp only; omega)]
    simp; omega

theorem prevY_colAt {T : PosTy} (h : T.WF) {i : Nat} (hi : i + 1 < T.nx * T.ny) :
    T.prevY (T.colAt (i + 1)) = some (T.colAt i) := by
  have hv := colAt_valid h hi
  have hv0 := colAt_valid h (i := i) (by omega)
  rw [valid_iff] at hv hv0
  have h3 := h.2.min_le_max
  have hn : (T.ny : Int) = T.Y.MAX - T.Y.MIN + 1 := by simp only [ny]; omega
  rcases divmod_succ T.ny i h.ny_pos with ⟨ha, hb, hc⟩ | ⟨ha, hb, hc⟩
  · simp only [colAt, hb, hc] at hv hv0 ⊢
    rw [prevY_in_col h (by simp only; omega) (by simp only; omega)]
    simp; omega
  · simp only [colAt, hb, hc] at hv hv0 ⊢
    rw [prevY_col h (by simp) (by simp only; omega) (by simp only; omega)]
    simp only [Option.some.injEq, Prod.mk.injEq]; omega

/-- The position enumeration in either orientation. -/
def enumAt (T : PosTy) (horizontal : Bool) (i : Nat) : Int × Int :=
  if horizontal then T.rowAt i else T.colAt i

/-- `PosTIter` as an enumeration machine. -/
def machine (T : PosTy) (h : T.WF) (XF : Bool) : EnumMachine PosIter (Int × Int) where
  st a b := ⟨a, b⟩
  next := PosIter.next T XF
  nextBack := PosIter.nextBack T XF
  P := T.enumAt XF
  N := T.nx * T.ny - 1
  next_eq i j hij hj := by
    have hpos : 0 < T.nx * T.ny := Nat.mul_pos h.nx_pos h.ny_pos
    by_cases e : i = j
    · subst e; simp [PosIter.next]
    · have hne : T.enumAt XF i ≠ T.enumAt XF j := by
        intro he; apply e
        cases XF
        · exact colAt_inj he
        · exact rowAt_inj he
      have hs : (if XF then T.next (T.enumAt XF i) else T.nextY (T.enumAt XF i))
          = some (T.enumAt XF (i + 1)) := by
        cases XF
        · exact nextY_colAt h (by omega)
        · exact next_rowAt h (by omega)
      simp only [PosIter.next, Option.some.injEq, hne, if_false, e, hs]
  nextBack_eq i j hij hj := by
    have hpos : 0 < T.nx * T.ny := Nat.mul_pos h.nx_pos h.ny_pos
    by_cases e : i = j
    · subst e; simp [PosIter.nextBack]
    · have hne : T.enumAt XF i ≠ T.enumAt XF j := by
        intro he; apply e
        cases XF
        · exact colAt_inj he
        · exact rowAt_inj he
      obtain ⟨k, rfl⟩ : ∃ k, j = k + 1 := ⟨j - 1, by omega⟩
      have hs : (if XF then T.prev (T.enumAt XF (k + 1)) else T.prevY (T.enumAt XF (k + 1)))
          = some (T.enumAt XF k) := by
        cases XF
        · exact prevY_colAt h (by omega)
        · exact prev_rowAt h (by omega)
      simp only [PosIter.nextBack, Option.some.injEq, hne, if_false, e, hs, Nat.add_sub_cancel]
  next_none := rfl
  nextBack_none := rfl

/-- Flattening a double enumeration. -/
theorem flatMap_range (f : Nat → Nat → β) (w h : Nat) :
    ((List.range h).flatMap fun y => (List.range w).map fun x => f x y)
      = (List.range (w * h)).map fun i => f (i % w) (i / w) := by
  induction h with
  | zero => simp
  | succ h ih =>
    rw [List.range_succ, List.flatMap_append, ih, Nat.mul_succ, List.range_add, List.map_append]
    congr 1
    simp only [List.flatMap_cons, List.flatMap_nil, List.append_nil, List.map_map]
    apply List.map_congr_left
    intro x hx
    have hx := List.mem_range.1 hx
    simp only [Function.comp]
    rw [Nat.mul_add_mod, Nat.mod_eq_of_lt hx, Nat.mul_add_div (by omega), Nat.div_eq_of_lt hx, Nat.add_zero]

theorem seg_enumAt {T : PosTy} (XF : Bool) :
    seg (T.enumAt XF) 0 (T.nx * T.ny) = allPositions T XF := by
  cases XF
  · simp only [seg, Nat.zero_add, enumAt, allPositions, Bool.false_eq_true, if_false, rectCols, intsFromTo,
      List.map_map, List.flatMap_map]
    have := flatMap_range (fun y x => (T.X.MIN + (x : Int), T.Y.MIN + (y : Int))) T.ny T.nx
    rw [Nat.mul_comm] at this
    exact this.symm
  · simp only [seg, Nat.zero_add, enumAt, allPositions, if_true, rectRows, intsFromTo,
      List.map_map, List.flatMap_map]
    exact (flatMap_range (fun x y => (T.X.MIN + (x : Int), T.Y.MIN + (y : Int))) T.nx T.ny).symm

theorem machine_init {T : PosTy} (h : T.WF) (XF : Bool) :
    (T.machine h XF).st (some ((T.machine h XF).P 0)) (some ((T.machine h XF).P (T.machine h XF).N))
      = PosIter.default T := by
  show (⟨some (T.enumAt XF 0), some (T.enumAt XF (T.nx * T.ny - 1))⟩ : PosIter) = _
  have hx := h.nx_pos
  have hy := h.ny_pos
  have hX := h.1.min_le_max
  have hY := h.2.min_le_max
  have hp : 0 < T.nx * T.ny := Nat.mul_pos hx hy
  simp only [PosIter.default, PosIter.mk.injEq, Option.some.injEq]
  have key : ∀ w k : Nat, 0 < w → 0 < k → (w * k - 1) % w = w - 1 ∧ (w * k - 1) / w = k - 1 := by
    intro w k hw hk
    obtain ⟨k, rfl⟩ : ∃ k', k = k' + 1 := ⟨k - 1, by omega⟩
    have e : w * (k + 1) - 1 = w * k + (w - 1) := by rw [Nat.mul_succ]; omega
    rw [e, Nat.mul_add_mod, Nat.mul_add_div hw, Nat.mod_eq_of_lt (by omega), Nat.div_eq_of_lt (by omega)]
    omega
  cases XF
  · have hk := key T.ny T.nx hy hx
    rw [Nat.mul_comm] at hk
    simp only [enumAt, colAt, first, last, Bool.false_eq_true, if_false, hk, Prod.mk.injEq]
    simp only [nx, ny] at *
    simp; omega
  · have hk := key T.nx T.ny hx hy
    simp only [enumAt, rowAt, first, last, if_true, hk, Prod.mk.injEq]
    simp only [nx, ny] at *
    simp; omega

theorem machine_N {T : PosTy} (h : T.WF) (XF : Bool) : (T.machine h XF).N + 1 = T.nx * T.ny := by
  have := Nat.mul_pos h.nx_pos h.ny_pos
  show T.nx * T.ny - 1 + 1 = _
  omega

theorem dims_eq {T : PosTy} (h : T.WF) :
    ((T.X.MAX - T.X.MIN + 1) * (T.Y.MAX - T.Y.MIN + 1)).toNat = T.nx * T.ny := by
  have hX := h.1.min_le_max
  have hY := h.2.min_le_max
  rw [Int.toNat_mul (by omega) (by omega)]; rfl

theorem toList_eq {T : PosTy} (h : T.WF) (XF : Bool) :
    PosIter.toList T XF = .ok (allPositions T XF) := by
  have hc := (T.machine h XF).collect
    (((T.X.MAX - T.X.MIN + 1) * (T.Y.MAX - T.Y.MIN + 1)).toNat + 1)
    (by rw [machine_N h XF, dims_eq h]; omega)
  rw [machine_init h XF, machine_N h XF] at hc
  rw [PosIter.toList, ← seg_enumAt]
  exact hc

theorem mem_allPositions {T : PosTy} {XF : Bool} {p : Int × Int} :
    p ∈ allPositions T XF ↔ T.Valid p := by
  rw [valid_iff]
  cases XF <;> simp only [allPositions, rectCols, rectRows, intsFromTo, List.mem_flatMap, List.mem_map,
    List.mem_range, Bool.false_eq_true, if_false, if_true]
  · constructor
    · rintro ⟨x, ⟨i, hi, rfl⟩, y, ⟨j, hj, rfl⟩, rfl⟩; simp only; omega
    · rintro ⟨⟨h1, h2⟩, h3, h4⟩
      exact ⟨p.1, ⟨(p.1 - T.X.MIN).toNat, by omega, by omega⟩, p.2,
        ⟨(p.2 - T.Y.MIN).toNat, by omega, by omega⟩, rfl⟩
  · constructor
    · rintro ⟨x, ⟨i, hi, rfl⟩, y, ⟨j, hj, rfl⟩, rfl⟩; simp only; omega
    · rintro ⟨⟨h1, h2⟩, h3, h4⟩
      exact ⟨p.2, ⟨(p.2 - T.Y.MIN).toNat, by omega, by omega⟩, p.1,
        ⟨(p.1 - T.X.MIN).toNat, by omega, by omega⟩, rfl⟩

theorem allPositions_length {T : PosTy} (XF : Bool) :
    (allPositions T XF).length = T.nx * T.ny := by
  rw [← seg_enumAt]; simp

theorem enumAt_inj {T : PosTy} {XF : Bool} {i j : Nat} (h : T.enumAt XF i = T.enumAt XF j) : i = j := by
  cases XF
  · exact colAt_inj h
  · exact rowAt_inj h

theorem allPositions_nodup {T : PosTy} (XF : Bool) : (allPositions T XF).Nodup := by
  rw [← seg_enumAt, seg, List.Nodup, List.pairwise_map]
  refine List.Pairwise.imp ?_ List.nodup_range
  intro a b hab he
  simp only [Nat.zero_add] at he
  exact hab (enumAt_inj he)

/-- Every valid position is enumerated. -/
theorem exists_rowAt {T : PosTy} {p : Int × Int} (hp : T.Valid p) :
    ∃ i, i < T.nx * T.ny ∧ p = T.rowAt i := by
  have : p ∈ allPositions T true := mem_allPositions.2 hp
  rw [← seg_enumAt, seg] at this
  simp only [List.mem_map, List.mem_range, Nat.zero_add] at this
  obtain ⟨i, hi, rfl⟩ := this
  exact ⟨i, hi, rfl⟩

theorem exists_colAt {T : PosTy} {p : Int × Int} (hp : T.Valid p) :
    ∃ i, i < T.nx * T.ny ∧ p = T.colAt i := by
  have : p ∈ allPositions T false := mem_allPositions.2 hp
  rw [← seg_enumAt, seg] at this
  simp only [List.mem_map, List.mem_range, Nat.zero_add] at this
  obtain ⟨i, hi, rfl⟩ := this
  exact ⟨i, hi, rfl⟩

end PosTy

end Sqrid
