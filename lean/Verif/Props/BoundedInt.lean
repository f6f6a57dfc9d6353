import Verif.Proofs.BoundedInt
/-!
# Properties C01-C04: bounded integers
-/

namespace Sqrid

open Spec

/-- C01. For every type implementing `BoundedInt` and every integer `v` (of whatever source type),
`try_from` returns exactly `v` when `v` is within MIN..=MAX and `OutOfBounds` otherwise. -/
theorem C01_try_from_exact (B : BTy) (hB : B.WF) (v : Int) :
    ((B.MIN ≤ v ∧ v ≤ B.MAX) → B.tryFrom v = .ok v) ∧
    (¬ (B.MIN ≤ v ∧ v ≤ B.MAX) → B.tryFrom v = .error .outOfBounds) := by
  rw [BTy.tryFrom_eq hB]
  exact ⟨fun h => if_pos h, fun h => if_neg h⟩

/-- C01. `BoundedX::new` on a value of the base type. -/
theorem C01_new_exact (t : IntTy) (lo hi v : Int) :
    ((lo ≤ v ∧ v ≤ hi) → (BTy.bounded t lo hi).new v = .ok v) ∧
    (¬ (lo ≤ v ∧ v ≤ hi) → (BTy.bounded t lo hi).new v = .error .outOfBounds) := by
  rw [BTy.new_eq]
  exact ⟨fun h => if_pos h, fun h => if_neg h⟩

/-- C01. `new_unwrap` returns the value, or panics exactly when `new` fails. -/
theorem C01_new_unwrap_exact (t : IntTy) (lo hi v : Int) :
    ((lo ≤ v ∧ v ≤ hi) → (BTy.bounded t lo hi).newUnwrap v = .ok v) ∧
    (¬ (lo ≤ v ∧ v ≤ hi) → (BTy.bounded t lo hi).newUnwrap v = .panic) := by
  rw [BTy.newUnwrap]
  exact ⟨fun h => if_pos h, fun h => if_neg h⟩

example : (BTy.bounded .u8 3 7).WF ∧ (BTy.bounded .u8 3 7).tryFrom 5 = .ok 5 ∧
    (BTy.bounded .u8 3 7).tryFrom 261 = .error .outOfBounds ∧
    (BTy.bounded .u8 3 7).newUnwrap 8 = .panic := by decide

theorem ite_iff {α : Type _} {p q : Prop} [Decidable p] [Decidable q] (h : p ↔ q) (a b : α) : (if p then a else b) = if q then a else b := by
  by_cases hp : p
  · rw [if_pos hp, if_pos (h.1 hp)]
  · rw [if_neg hp, if_neg (fun hq => hp (h.2 hq))]

/-- C01. The bounds of the builtin integers: those of an unsigned type with `n` bits are 0 and 2^n - 1, those of a signed type -2^(n-1) and
2^(n-1) - 1. -/
theorem C01_builtin_bounds (v : Int) :
    (∀ b ∈ [(8, IntTy.u8), (16, .u16), (32, .u32), (64, .u64), (128, .u128)],
      (BTy.prim b.2).tryFrom v = if 0 ≤ v ∧ v < 2 ^ b.1 then .ok v else .error .outOfBounds) ∧
    (∀ b ∈ [(7, IntTy.i8), (15, .i16), (31, .i32), (63, .i64), (127, .i128)],
      (BTy.prim b.2).tryFrom v = if -2 ^ b.1 ≤ v ∧ v < 2 ^ b.1 then .ok v else .error .outOfBounds) := by
  constructor <;> intro b hb <;> simp only [List.mem_cons, List.not_mem_nil, or_false] at hb <;>
    rcases hb with rfl | rfl | rfl | rfl | rfl <;>
    · rw [BTy.tryFrom_eq (by decide)]
      refine ite_iff ?_ _ _
      simp only [BTy.Valid, BTy.MIN, BTy.MAX, IntTy.u8, IntTy.u16, IntTy.u32, IntTy.u64, IntTy.u128, IntTy.i8, IntTy.i16, IntTy.i32, IntTy.i64,
        IntTy.i128]
      omega

example : (BTy.prim .i8).tryFrom (-128) = .ok (-128) ∧ (BTy.prim .i8).tryFrom 128 = .error .outOfBounds ∧
    (BTy.prim .u128).tryFrom (2 ^ 128 - 1) = .ok (2 ^ 128 - 1) := by decide

/-- C02. `checked_add` is exact: `Some(a + b)` when the sum is within bounds, `None` otherwise. -/
theorem C02_checked_add_exact (B : BTy) (hB : B.WF) (a b : Int) :
    ((B.MIN ≤ a + b ∧ a + b ≤ B.MAX) → B.checkedAdd a b = some (a + b)) ∧
    (¬ (B.MIN ≤ a + b ∧ a + b ≤ B.MAX) → B.checkedAdd a b = none) := by
  rw [BTy.checkedAdd_eq hB]
  exact ⟨fun h => if_pos h, fun h => if_neg h⟩

/-- C02. `checked_sub` is exact. -/
theorem C02_checked_sub_exact (B : BTy) (hB : B.WF) (a b : Int) :
    ((B.MIN ≤ a - b ∧ a - b ≤ B.MAX) → B.checkedSub a b = some (a - b)) ∧
    (¬ (B.MIN ≤ a - b ∧ a - b ≤ B.MAX) → B.checkedSub a b = none) := by
  rw [BTy.checkedSub_eq hB]
  exact ⟨fun h => if_pos h, fun h => if_neg h⟩

/-- C02. `inc` and `dec` move by exactly one within the bounds, and fail exactly at the ends. -/
theorem C02_inc_dec_exact (B : BTy) (hB : B.WF) (a : Int) (ha : B.MIN ≤ a ∧ a ≤ B.MAX) :
    (a < B.MAX → B.inc a = some (a + 1)) ∧ (a = B.MAX → B.inc a = none) ∧
    (B.MIN < a → B.dec a = some (a - 1)) ∧ (a = B.MIN → B.dec a = none) := by
  rw [BTy.inc_eq hB, BTy.dec_eq hB]
  refine ⟨fun h => if_pos ?_, fun h => if_neg ?_, fun h => if_pos ?_, fun h => if_neg ?_⟩ <;>
    simp only [BTy.Valid] <;> omega

example : (BTy.bounded .i8 (-100) 100).WF ∧
    (BTy.bounded .i8 (-100) 100).checkedAdd 100 100 = none ∧
    (BTy.bounded .i8 (-100) 100).checkedSub (-50) 50 = some (-100) ∧
    (BTy.prim .u8).inc 255 = none ∧ (BTy.bounded .u16 0 4).inc 4 = none ∧
    (BTy.bounded .u16 5 9).dec 7 = some 6 := by decide

/-- C03, full statement (false of the code): values produced by `Default` and `From<bool>` are in
bounds. -/
def C03_statement : Prop :=
  ∀ B : BTy, B.WF → (B.MIN ≤ B.default ∧ B.default ≤ B.MAX) ∧
    ∀ b : Bool, B.MIN ≤ B.ofBool b ∧ B.ofBool b ≤ B.MAX

/-- C03 is violated: `BoundedU16::<5, 10>::default()` holds 0. -/
theorem C03_bounds_refuted : ¬ C03_statement := by
  intro h
  have := (h (.bounded .u16 5 10) (by decide)).1
  revert this
  decide

/-- C03 is violated by `From<bool>` even for a zero-based type: `BoundedU16::<0, 0>::from(true)` holds 1. -/
theorem C03_from_bool_refuted :
    (BTy.bounded .u16 0 0).WF ∧ ¬ (BTy.bounded .u16 0 0).Valid ((BTy.bounded .u16 0 0).ofBool true) := by
  decide

/-- C03, partial: `Default` is in bounds exactly when 0 is, and `From<bool>` exactly when the
converted value (0 or 1) is. Missing: the bounds check that would make it hold for every type. -/
theorem C03_bounds_partial (B : BTy) :
    ((B.MIN ≤ B.default ∧ B.default ≤ B.MAX) ↔ (B.MIN ≤ 0 ∧ 0 ≤ B.MAX)) ∧
    ((B.MIN ≤ B.ofBool true ∧ B.ofBool true ≤ B.MAX) ↔ (B.MIN ≤ 1 ∧ 1 ≤ B.MAX)) ∧
    ((B.MIN ≤ B.ofBool false ∧ B.ofBool false ≤ B.MAX) ↔ (B.MIN ≤ 0 ∧ 0 ≤ B.MAX)) := by
  simp [BTy.default, BTy.ofBool]

/-- C04. For every schedule of `next`/`next_back` calls, `BoundedInt::iter()` answers like an ideal
double-ended iterator over MIN, MIN+1, ..., MAX. -/
theorem C04_iter_double_ended (B : BTy) (hB : B.WF) (es : List End) :
    (runSchedule (BIter.next B) (BIter.nextBack B) es (BIter.iter B)).1
      = dequeRun es (intsFromTo B.MIN B.MAX) := by
  have h := (B.machine hB).schedule es
  have hle := hB.min_le_max
  have e1 : (B.machine hB).st (some ((B.machine hB).P 0)) (some ((B.machine hB).P (B.machine hB).N))
      = BIter.iter B := by
    show (⟨some (B.MIN + ((0 : Nat) : Int)), some (B.MIN + (((B.MAX - B.MIN).toNat : Nat) : Int))⟩ : BIter) = _
    simp only [BIter.iter, BIter.new, BIter.mk.injEq, Option.some.injEq]; omega
  have e2 : seg (B.machine hB).P 0 ((B.machine hB).N + 1) = intsFromTo B.MIN B.MAX := by
    show seg (fun i : Nat => B.MIN + (i : Int)) 0 ((B.MAX - B.MIN).toNat + 1) = _
    simp only [seg, intsFromTo, Nat.zero_add]
    congr 2
    omega
  rw [e1, e2] at h
  exact h

example : (BTy.bounded .i8 (-1) 2).WF ∧
    (runSchedule (BIter.next (.bounded .i8 (-1) 2)) (BIter.nextBack (.bounded .i8 (-1) 2))
      [.front, .back, .back, .front, .front, .back] (BIter.iter (.bounded .i8 (-1) 2))).1
    = [some (-1), some 2, some 1, some 0, none, none] := by decide

end Sqrid
