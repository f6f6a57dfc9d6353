import Verif.Model.Prim
/-!
# Model of /repo/src/sqrid/boundedint.rs
-/

namespace Sqrid

/-- A type implementing the `BoundedInt` trait: a builtin integer (impls at boundedint.rs:99-134) or
one of the `BoundedX<MIN, MAX>` types (boundedint.rs:199-361).

A value of such a type is represented by an `Int`; `BTy.Rep` says which values the representation can
hold at all (the tuple field is public), `BTy.Valid` which values lie within MIN..=MAX. -/
inductive BTy where
  | prim (t : IntTy)
  | bounded (t : IntTy) (min max : Int)
  deriving DecidableEq, Repr

namespace BTy

/-- `BoundedInt::Inner`, boundedint.rs:104, 240. -/
def base : BTy → IntTy
  | prim t => t
  | bounded t _ _ => t

/-- `BoundedInt::MIN`, boundedint.rs:102, 237. -/
def MIN : BTy → Int
  | prim t => t.lo
  | bounded _ min _ => min

/-- `BoundedInt::MAX`, boundedint.rs:103, 238. -/
def MAX : BTy → Int
  | prim t => t.hi
  | bounded _ _ max => max

/-- Values that the Rust type can physically hold. -/
def Rep (B : BTy) (v : Int) : Prop := B.base.Has v

/-- Values within the declared bounds. -/
def Valid (B : BTy) (v : Int) : Prop := B.MIN ≤ v ∧ v ≤ B.MAX

instance (B : BTy) (v : Int) : Decidable (B.Valid v) := inferInstanceAs (Decidable (_ ∧ _))

/-- The type exists in Rust: the base is a builtin type, and for `BoundedX<MIN, MAX>` the parameters are
values of the base type with MIN <= MAX (`new_static`, boundedint.rs:225-228, 237-238 refuses to
compile the use of MIN/MAX otherwise). -/
def WF : BTy → Prop
  | prim t => t ∈ IntTy.builtin
  | bounded t min max => t ∈ IntTy.builtin ∧ t.lo ≤ min ∧ min ≤ max ∧ max ≤ t.hi

instance (B : BTy) : Decidable B.WF := by
  cases B <;> (unfold WF; infer_instance)

/-- `BoundedX::new`, boundedint.rs:203-209. -/
def new (B : BTy) (v : Int) : Res Int :=
  if v < B.MIN ∨ v > B.MAX then .error .outOfBounds else .ok v

/-- `BoundedX::new_unwrap`, boundedint.rs:213-216. -/
def newUnwrap (B : BTy) (v : Int) : Out Int :=
  if v ≥ B.MIN ∧ v ≤ B.MAX then .ok v else .panic

/-- `TryFrom<$into>`: macro `boundedint_impl_tryfrom`, boundedint.rs:187-196 (convert to the base type, then
`new`); std conversion for builtin types. -/
def tryFrom : BTy → Int → Res Int
  | prim t, v => t.tryFrom v
  | bounded t min max, v =>
    match t.tryFrom v with
    | .error e => .error e
    | .ok w => (bounded t min max).new w

/-- `TryInto<usize>`, boundedint.rs:286-291; std conversion for builtin types. -/
def toUsize [Target] (_ : BTy) (v : Int) : Res Int := IntTy.usize.tryFrom v

/-- `checked_add`, boundedint.rs:111-113, 248-253. -/
def checkedAdd : BTy → Int → Int → Option Int
  | prim t, a, b => t.checkedAdd a b
  | bounded t min max, a, b => (t.checkedAdd a b).filter fun v => min ≤ v && v ≤ max

/-- `checked_sub`, boundedint.rs:114-116, 254-259. -/
def checkedSub : BTy → Int → Int → Option Int
  | prim t, a, b => t.checkedSub a b
  | bounded t min max, a, b => (t.checkedSub a b).filter fun v => min ≤ v && v ≤ max

/-- `From<bool>`, boundedint.rs:280-284 (no range check); std conversion for builtin types. -/
def ofBool (_ : BTy) (b : Bool) : Int := if b then 1 else 0

/-- Derived `Default`, boundedint.rs:309-360 (no range check); std for builtin types. -/
def default (_ : BTy) : Int := 0

/-- `BoundedInt::one`, boundedint.rs:79-81. -/
def one (B : BTy) : Int := B.ofBool true

/-- `BoundedInt::inc`, boundedint.rs:84-86. -/
def inc (B : BTy) (v : Int) : Option Int := B.checkedAdd v B.one

/-- `BoundedInt::dec`, boundedint.rs:89-91. -/
def dec (B : BTy) (v : Int) : Option Int := B.checkedSub v B.one

end BTy

/-- `BoundedIntIterator`, boundedint.rs:140-145. -/
structure BIter where
  start : Option Int
  stop : Option Int
  deriving DecidableEq, Repr

namespace BIter

/-- `BoundedIntIterator::new`, boundedint.rs:149-154. -/
def new (start stop : Int) : BIter := ⟨some start, some stop⟩

/-- `BoundedInt::iter`, boundedint.rs:94-96. -/
def iter (B : BTy) : BIter := BIter.new B.MIN B.MAX

/-- `Iterator::next`, boundedint.rs:159-168. -/
def next (B : BTy) (s : BIter) : Option Int × BIter :=
  let value := s.start
  if s.start = s.stop then (value, ⟨none, none⟩)
  else match s.start with
    | some st => (value, { s with start := B.inc st })
    | none => (value, s)

/-- `DoubleEndedIterator::next_back`, boundedint.rs:172-181. -/
def nextBack (B : BTy) (s : BIter) : Option Int × BIter :=
  let value := s.stop
  if s.start = s.stop then (value, ⟨none, none⟩)
  else match s.stop with
    | some e => (value, { s with stop := B.dec e })
    | none => (value, s)

end BIter

end Sqrid
