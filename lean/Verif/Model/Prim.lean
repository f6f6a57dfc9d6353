/-!
# Primitive vocabulary of the model

Outcomes of Rust code, the crate's error type and the builtin integer types.
-/

namespace Sqrid

/-- `sqrid::Error`, /repo/src/sqrid/error.rs:13-29. -/
inductive Error where
  | outOfBounds
  | invalidDirection
  | dirParseError
  | invalidMovement
  | loop
  | destinationUnreachable
  | empty
  deriving DecidableEq, Repr

/-- A Rust `Result<α, sqrid::Error>`. -/
abbrev Res (α : Type u) := Except Error α

instance [DecidableEq α] : DecidableEq (Res α)
  | .ok a, .ok b => if h : a = b then isTrue (by rw [h]) else isFalse (by intro h'; cases h'; exact h rfl)
  | .error a, .error b => if h : a = b then isTrue (by rw [h]) else isFalse (by intro h'; cases h'; exact h rfl)
  | .ok _, .error _ => isFalse (by intro h; cases h)
  | .error _, .ok _ => isFalse (by intro h; cases h)

/-- Outcome of running a piece of Rust code.

* `ok a`: the code returns `a`;
* `panic`: the code panics (failed `unwrap`/`expect`/`assert!`, slice index out of range,
  arithmetic overflow with overflow checks enabled, division by zero);
* `ub`: the code does an out-of-range `get_unchecked` (undefined behaviour);
* `timeout`: only produced by the model, when the fuel given to an unbounded loop runs out. -/
inductive Out (α : Type u) where
  | ok (a : α)
  | panic
  | ub
  | timeout
  deriving DecidableEq, Repr

namespace Out

/-- Sequencing: a non-`ok` outcome ends the computation. -/
def bind (x : Out α) (f : α → Out β) : Out β :=
  match x with
  | ok a => f a
  | panic => panic
  | ub => ub
  | timeout => timeout

instance : Monad Out where
  pure := Out.ok
  bind := Out.bind

@[simp] theorem pure_eq (a : α) : (pure a : Out α) = Out.ok a := rfl
@[simp] theorem ok_bind (a : α) (f : α → Out β) : (Out.ok a >>= f) = f a := rfl
@[simp] theorem panic_bind (f : α → Out β) : ((Out.panic : Out α) >>= f) = Out.panic := rfl
@[simp] theorem ub_bind (f : α → Out β) : ((Out.ub : Out α) >>= f) = Out.ub := rfl
@[simp] theorem timeout_bind (f : α → Out β) : ((Out.timeout : Out α) >>= f) = Out.timeout := rfl

instance : LawfulMonad Out := LawfulMonad.mk'
  (id_map := by intro α x; cases x <;> rfl)
  (pure_bind := by intros; rfl)
  (bind_assoc := by intro α β γ x f g; cases x <;> rfl)

/-- `Option::unwrap` / `expect`. -/
def unwrap : Option α → Out α
  | some a => ok a
  | none => panic

/-- `Result::unwrap`, and `let Ok(v) = r else { panic!() }`. -/
def unwrapRes : Res α → Out α
  | .ok a => ok a
  | .error _ => panic

@[simp] theorem unwrap_some (a : α) : unwrap (some a) = ok a := rfl
@[simp] theorem unwrap_none : unwrap (none : Option α) = panic := rfl
@[simp] theorem unwrapRes_ok (a : α) : unwrapRes (.ok a : Res α) = ok a := rfl
@[simp] theorem unwrapRes_error (e : Error) : unwrapRes (.error e : Res α) = panic := rfl

end Out

/-- What the outcome of Rust code depends on besides its source. -/
class Target where
  /-- arithmetic overflow panics (`overflow-checks`, on by default in debug builds and off in release builds) -/
  checks : Bool
  /-- `usize` has 64 bits (32 bits if not) -/
  wide : Bool

/-- A builtin integer type, given by its range of values. -/
structure IntTy where
  /-- smallest value -/
  lo : Int
  /-- largest value -/
  hi : Int
  deriving DecidableEq, Repr

namespace IntTy

/-- The value is representable in the type. -/
def Has (t : IntTy) (v : Int) : Prop := t.lo ≤ v ∧ v ≤ t.hi

instance (t : IntTy) (v : Int) : Decidable (t.Has v) := inferInstanceAs (Decidable (_ ∧ _))

def u8 : IntTy := ⟨0, 255⟩
def u16 : IntTy := ⟨0, 65535⟩
def u32 : IntTy := ⟨0, 4294967295⟩
def u64 : IntTy := ⟨0, 18446744073709551615⟩
def u128 : IntTy := ⟨0, 340282366920938463463374607431768211455⟩
/-- `usize` of the target (simplification: 16-bit targets are not modelled). -/
def usize [Target] : IntTy := if Target.wide then u64 else u32
def i8 : IntTy := ⟨-128, 127⟩
def i16 : IntTy := ⟨-32768, 32767⟩
def i32 : IntTy := ⟨-2147483648, 2147483647⟩
def i64 : IntTy := ⟨-9223372036854775808, 9223372036854775807⟩
def i128 : IntTy := ⟨-170141183460469231731687303715884105728, 170141183460469231731687303715884105727⟩

/-- `isize` of the target. -/
def isize [Target] : IntTy := if Target.wide then i64 else i32

/-- The builtin integer types, boundedint.rs:123-134; `usize` and `isize` have the range of one of the others. -/
def builtin : List IntTy :=
  [u8, u16, u32, u64, u128, i8, i16, i32, i64, i128]

/-- std `checked_add`. -/
def checkedAdd (t : IntTy) (a b : Int) : Option Int := if t.Has (a + b) then some (a + b) else none

/-- std `checked_sub`. -/
def checkedSub (t : IntTy) (a b : Int) : Option Int := if t.Has (a - b) then some (a - b) else none

/-- An `as` cast into the type: wraps modulo the number of values of the type. -/
def cast (t : IntTy) (v : Int) : Int := (v - t.lo) % (t.hi - t.lo + 1) + t.lo

/-- The outcome of an arithmetic operator whose mathematical result is `v`: if the type does not have it, a panic with overflow checks,
the value modulo the number of values of the type without. -/
def arith [Target] (t : IntTy) (v : Int) : Out Int :=
  if t.Has v then .ok v else if Target.checks then .panic else .ok (t.cast v)

/-- The `+` operator. -/
def add [Target] (t : IntTy) (a b : Int) : Out Int := t.arith (a + b)

/-- The `-` operator. -/
def sub [Target] (t : IntTy) (a b : Int) : Out Int := t.arith (a - b)

/-- The `*` operator. -/
def mul [Target] (t : IntTy) (a b : Int) : Out Int := t.arith (a * b)

/-- An arithmetic operator in the definition of a constant: overflow is a compile error with every compiler option. -/
def const (t : IntTy) (v : Int) : Out Int := if t.Has v then .ok v else .panic

/-- The `/` operator of an unsigned type: it panics on 0 with every compiler option. -/
def div (a b : Int) : Out Int := if b = 0 then .panic else .ok (a / b)

/-- The `%` operator of an unsigned type. -/
def rem (a b : Int) : Out Int := if b = 0 then .panic else .ok (a % b)

/-- std `TryFrom` between builtin integer types, with the error mapped to `OutOfBounds`
(`into_or_oob!`, boundedint.rs:23-27). -/
def tryFrom (t : IntTy) (v : Int) : Res Int := if t.Has v then .ok v else .error .outOfBounds

end IntTy

end Sqrid
