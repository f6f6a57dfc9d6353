import Verif.Model.Gridbool
/-!
# Model of the conversions, comparisons and raw accessors

The remaining parts of pos.rs, postrait.rs, error.rs, grid.rs and gridbool.rs: conversions of `Pos` from and into other
types, the derived comparisons, access to the arrays behind `Grid` and `Gridbool`, and the texts of the errors.
-/

namespace Sqrid

namespace Pos

/-- `Pos::new_static::<X, Y>()`, pos.rs:166-171, by `BoundedU16::new_static`, boundedint.rs:225-228. A failed assertion (`panic` here) is a
compile error, as it is evaluated at compile time. -/
def newStatic (xmax ymax : Int) (x y : Int) : Out (Int × Int) := do
  let x ← (BTy.bounded .u16 0 xmax).newUnwrap x
  let y ← (BTy.bounded .u16 0 ymax).newUnwrap y
  .ok (x, y)

/-- `From<(BoundedU16<0, XMAX>, BoundedU16<0, YMAX>)> for Pos` (and of the reference), pos.rs:200-214; also what writing
`Pos((x, y))` does, as the field is public (pos.rs:75). -/
def ofBounded (xy : Int × Int) : Int × Int := xy

/-- `Pos::x`, pos.rs:175-177. -/
def x (p : Int × Int) : Int := p.1

/-- `Pos::y`, pos.rs:181-183. -/
def y (p : Int × Int) : Int := p.2

/-- `From<Pos> for (u16, u16)` (and of the reference), pos.rs:248-260. -/
def intoU16 (p : Int × Int) : Int × Int := Pos.tuple p

/-- `From<Pos> for (i32, i32)` (and of the reference), pos.rs:262-274: `as i32` casts. -/
def intoI32 (p : Int × Int) : Int × Int := (IntTy.i32.cast (Pos.x p), IntTy.i32.cast (Pos.y p))

/-- `TryFrom<(u16, u16)> for Pos` (and of the reference), pos.rs:216-230. -/
def ofU16 (xmax ymax : Int) (xy : Int × Int) : Res (Int × Int) := Pos.new xmax ymax xy.1 xy.2

/-- `TryFrom<usize> for Pos`, pos.rs:278-284. -/
def ofUsize [Target] (xmax ymax : Int) (i : Int) : Out (Res (Int × Int)) := (PosTy.pos xmax ymax).tryFromUsize i

/-- `From<Pos> for usize` (and of the reference), pos.rs:286-298. -/
def intoUsize [Target] (xmax ymax : Int) (p : Int × Int) : Out Int := (PosTy.pos xmax ymax).toUsize p

end Pos

namespace PosTy

/-- `PosT::inner_tuple`, postrait.rs:90-98. -/
def innerTuple (p : Int × Int) : Int × Int := (p.1, p.2)

/-- `Ord::cmp` of positions: derived on `Pos` (pos.rs:74-75), which compares the pair of coordinates as std tuples do, each
coordinate by the derived order of its type (boundedint.rs:309-360); std for the tuple types. -/
def cmp (a b : Int × Int) : Ordering := (compare a.1 b.1).then (compare a.2 b.2)

end PosTy

/-- `Display for Error`, error.rs:38-50. -/
def Error.text : Error → String
  | .outOfBounds => "value is out-of-bounds"
  | .invalidDirection => "invalid direction for Dir"
  | .dirParseError => "character doesn't represent a valid Dir"
  | .invalidMovement => "invalid movement (Pos+Dir)"
  | .loop => "unexpected loop detected"
  | .destinationUnreachable => "destination unreachable"
  | .empty => "empty list of iterator"

namespace Grid

/-- Derived `PartialEq` of `Grid` (grid.rs:61): that of the arrays, item by item. `eq` is `T`'s `==`. -/
def beq (eq : α → α → Bool) : List α → List α → Bool
  | [], [] => true
  | a :: as, b :: bs => eq a b && beq eq as bs
  | _, _ => false

/-- Derived `Ord` of `Grid` (grid.rs:61): that of the arrays, lexicographic. `c` is `T`'s `cmp`. -/
def cmp (c : α → α → Ordering) : List α → List α → Ordering
  | [], [] => .eq
  | a :: as, b :: bs => (c a b).then (cmp c as bs)
  | [], _ :: _ => .lt
  | _ :: _, [] => .gt

/-- `grid.as_array()[i]`, grid.rs:93-95 (and `as_ref`, `into_inner`: grid.rs:87-89, 324-329): std indexing panics out of range. -/
def asArrayAt (g : List α) (i : Int) : Out α := Out.unwrap g[i.toNat]?

/-- `grid.as_array_mut()[i] = v`, grid.rs:99-101 (and `as_mut`, grid.rs:331-336). -/
def asArrayMutSet (g : List α) (i : Int) (v : α) : Out (List α) :=
  if i.toNat < g.length then .ok (g.set i.toNat v) else .panic

/-- `for v in grid.iter_mut() { *v = f(*v) }`, grid.rs:155-157 (and `&mut grid` as an iterator, grid.rs:349-356). -/
def iterMut (f : α → α) (g : List α) : List α := g.map f

end Grid

namespace Gridbool

/-- `gb.as_inner()[k]`, gridbool.rs:139-141 (and `into_inner`, gridbool.rs:133-135). -/
def asInnerAt (gb : List (BitVec 32)) (k : Int) : Out (BitVec 32) := Out.unwrap gb[k.toNat]?

/-- `gb.as_inner_mut()[k] = w`, gridbool.rs:145-147. -/
def asInnerMutSet (gb : List (BitVec 32)) (k : Int) (w : BitVec 32) : Out (List (BitVec 32)) :=
  if k.toNat < gb.length then .ok (gb.set k.toNat w) else .panic

/-- Derived `Ord` of `Gridbool` (gridbool.rs:57): that of the arrays of `u32`. -/
def cmp (a b : List (BitVec 32)) : Ordering := Grid.cmp (fun x y => compare x.toNat y.toNat) a b

end Gridbool

end Sqrid
