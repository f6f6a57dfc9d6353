import Verif.Model.Dir
/-!
# Model of /repo/src/sqrid/postrait.rs, pos.rs and posdir.rs
-/

namespace Sqrid

/-- A type implementing the `PosT` trait (postrait.rs:18-32): its coordinate types and its `WIDTH`/`HEIGHT`
constants. Values are pairs of coordinates; `new_`, `tuple`, `x`, `y` are the identity and the
projections in all the implementations of the crate (pos.rs:302-322, postrait.rs:585-609). -/
structure PosTy where
  /-- `Xtype` -/
  X : BTy
  /-- `Ytype` -/
  Y : BTy
  /-- the trait constant `WIDTH` -/
  WIDTH : Int
  /-- the trait constant `HEIGHT` -/
  HEIGHT : Int
  deriving DecidableEq, Repr

namespace PosTy

/-- `Pos<XMAX, YMAX>`, pos.rs:75, 302-306. -/
def pos (xmax ymax : Int) : PosTy :=
  { X := .bounded .u16 0 xmax, Y := .bounded .u16 0 ymax, WIDTH := xmax + 1, HEIGHT := ymax + 1 }

/-- `PosT for ($xtype, $ytype)`, postrait.rs:585-619 (instantiated with equal types).
`WIDTH = { MAX as isize - MIN as isize } as usize`. Simplification: the result of the `isize` subtraction
is only modelled for types that fit in `isize`; `tupleWIDTH` below has no such simplification. -/
def tuple (t : IntTy) : PosTy :=
  { X := .prim t, Y := .prim t, WIDTH := t.hi - t.lo, HEIGHT := t.hi - t.lo }

/-- The types the macro is instantiated with, postrait.rs:611-619. -/
def tupleTypes : List IntTy := [.u8, .u16, .u32, .u64, .u128, .i8, .i16, .i32]

/-- The constants `WIDTH` and `HEIGHT` of a tuple as the compiler evaluates them, postrait.rs:590-591; panic stands for a compile error. -/
def tupleWIDTH [Target] (t : IntTy) : Out Int := do
  .ok (IntTy.usize.cast (← IntTy.isize.const (IntTy.isize.cast t.hi - IntTy.isize.cast t.lo)))

/-- Positions whose coordinates are within the declared bounds. -/
def Valid (T : PosTy) (p : Int × Int) : Prop := T.X.Valid p.1 ∧ T.Y.Valid p.2

instance (T : PosTy) (p : Int × Int) : Decidable (T.Valid p) := inferInstanceAs (Decidable (_ ∧ _))

/-- Both coordinate types exist. -/
def WF (T : PosTy) : Prop := T.X.WF ∧ T.Y.WF

instance (T : PosTy) : Decidable T.WF := inferInstanceAs (Decidable (_ ∧ _))

/-- `PosT::new(x, y)` with integers of another type, postrait.rs:36-47. -/
def new (T : PosTy) (x y : Int) : Res (Int × Int) :=
  match T.X.tryFrom x with
  | .error _ => .error .outOfBounds
  | .ok x =>
    match T.Y.tryFrom y with
    | .error _ => .error .outOfBounds
    | .ok y => .ok (x, y)

/-- `PosT::new(x, y)` called with `x: Xtype`, `y: Ytype`: `TryFrom` of a type into itself is std's infallible
identity conversion. postrait.rs:36-47 as used at 172, 181, 518, 521, 548, 571. -/
def newSame (x y : Int) : Res (Int × Int) := .ok (x, y)

/-- `PosT::tryfrom_pos`, postrait.rs:102-112. -/
def tryFromPos (T : PosTy) (p : Int × Int) : Res (Int × Int) := T.new p.1 p.2

/-- `into_or_panic!` into `usize`, postrait.rs:10-15. -/
def intoUsize [Target] (B : BTy) (v : Int) : Out Int := Out.unwrapRes (B.toUsize v)

/-- `PosT::width`, postrait.rs:116-118. -/
def width [Target] (T : PosTy) : Out Int := do
  let m ← intoUsize T.X T.X.MAX
  IntTy.usize.add m 1

/-- `PosT::height`, postrait.rs:122-124. -/
def height [Target] (T : PosTy) : Out Int := do
  let m ← intoUsize T.Y T.Y.MAX
  IntTy.usize.add m 1

/-- `PosT::dimensions`, postrait.rs:128-130. -/
def dimensions [Target] (T : PosTy) : Out Int := do
  let w ← T.width
  let h ← T.height
  IntTy.usize.mul w h

/-- `PosT::first`, postrait.rs:134-139. -/
def first (T : PosTy) : Int × Int := (T.X.MIN, T.Y.MIN)

/-- `PosT::last`, postrait.rs:143-148. -/
def last (T : PosTy) : Int × Int := (T.X.MAX, T.Y.MAX)

/-- `PosT::is_corner`, postrait.rs:152-155. -/
def isCorner (T : PosTy) (p : Int × Int) : Bool :=
  (p.1 == T.X.MIN || p.1 == T.X.MAX) && (p.2 == T.Y.MIN || p.2 == T.Y.MAX)

/-- `PosT::is_side`, postrait.rs:159-164. -/
def isSide (T : PosTy) (p : Int × Int) : Bool :=
  p.1 == T.X.MIN || p.1 == T.X.MAX || p.2 == T.Y.MIN || p.2 == T.Y.MAX

/-- `PosT::flip_h`, postrait.rs:168-173. -/
def flipH (T : PosTy) (p : Int × Int) : Out (Int × Int) := do
  let x ← Out.unwrap (T.X.checkedSub T.X.MAX p.1)
  Out.unwrapRes (newSame x p.2)

/-- `PosT::flip_v`, postrait.rs:177-182. -/
def flipV (T : PosTy) (p : Int × Int) : Out (Int × Int) := do
  let y ← Out.unwrap (T.Y.checkedSub T.Y.MAX p.2)
  Out.unwrapRes (newSame p.1 y)

/-- `PosT::manhattan`, postrait.rs:185-197. -/
def manhattan [Target] (T : PosTy) (p q : Int × Int) : Out Int := do
  let dx ← Out.unwrap (if p.1 > q.1 then T.X.checkedSub p.1 q.1 else T.X.checkedSub q.1 p.1)
  let dy ← Out.unwrap (if p.2 > q.2 then T.Y.checkedSub p.2 q.2 else T.Y.checkedSub q.2 p.2)
  let dx ← intoUsize T.X dx
  let dy ← intoUsize T.Y dy
  IntTy.usize.add dx dy

/-- `PosT::inside`, postrait.rs:200-212. -/
def inside (p p1 p2 : Int × Int) : Bool :=
  let (xmin, xmax) := if p1.1 < p2.1 then (p1.1, p2.1) else (p2.1, p1.1)
  let (ymin, ymax) := if p1.2 < p2.2 then (p1.2, p2.2) else (p2.2, p1.2)
  decide (xmin ≤ p.1) && decide (p.1 ≤ xmax) && decide (ymin ≤ p.2) && decide (p.2 ≤ ymax)

/-- `PosT::to_usize`, postrait.rs:216-220. -/
def toUsize [Target] (T : PosTy) (p : Int × Int) : Out Int := do
  let y ← intoUsize T.Y p.2
  let x ← intoUsize T.X p.1
  let w ← T.width
  let yw ← IntTy.usize.mul y w
  IntTy.usize.add yw x

/-- `PosT::tryfrom_usize`, postrait.rs:225-231. -/
def tryFromUsize [Target] (T : PosTy) (i : Int) : Out (Res (Int × Int)) := do
  let w ← T.width
  let x ← IntTy.rem i w
  let y ← IntTy.div i w
  .ok (T.new x y)

/-- `PosT::next`, postrait.rs:236-244. -/
def next (T : PosTy) (p : Int × Int) : Option (Int × Int) :=
  match T.X.inc p.1 with
  | some x => some (x, p.2)
  | none => (T.Y.inc p.2).map fun y => (T.X.MIN, y)

/-- `PosT::next_y`, postrait.rs:249-257. -/
def nextY (T : PosTy) (p : Int × Int) : Option (Int × Int) :=
  match T.Y.inc p.2 with
  | some y => some (p.1, y)
  | none => (T.X.inc p.1).map fun x => (x, T.Y.MIN)

/-- `PosT::prev`, postrait.rs:262-270. -/
def prev (T : PosTy) (p : Int × Int) : Option (Int × Int) :=
  match T.X.dec p.1 with
  | some x => some (x, p.2)
  | none => (T.Y.dec p.2).map fun y => (T.X.MAX, y)

/-- `PosT::prev_y`, postrait.rs:275-283. -/
def prevY (T : PosTy) (p : Int × Int) : Option (Int × Int) :=
  match T.Y.dec p.2 with
  | some y => some (p.1, y)
  | none => (T.X.dec p.1).map fun x => (x, T.Y.MAX)

/-- `PosT::tlbr_of`, postrait.rs:358-381, on the items of the iterator. -/
def tlbrOf (items : List (Int × Int)) : Res ((Int × Int) × (Int × Int)) :=
  match items with
  | [] => .error .empty
  | firstpos :: rest =>
    .ok (rest.foldl
      (fun (acc : (Int × Int) × (Int × Int)) t =>
        ((if t.1 < acc.1.1 then t.1 else acc.1.1, if t.2 < acc.1.2 then t.2 else acc.1.2),
         (if t.1 > acc.2.1 then t.1 else acc.2.1, if t.2 > acc.2.2 then t.2 else acc.2.2)))
      (firstpos, firstpos))

/-- `PosT::rotate_cw`, postrait.rs:384-401. -/
def rotateCw [Target] (T : PosTy) (p : Int × Int) : Out (Int × Int) := do
  let x ← T.Y.base.sub T.Y.MAX p.2
  let x ← Out.unwrapRes (T.X.tryFrom x)
  let y ← Out.unwrapRes (T.Y.tryFrom p.1)
  .ok (x, y)

/-- `PosT::rotate_cc`, postrait.rs:404-421. -/
def rotateCc [Target] (T : PosTy) (p : Int × Int) : Out (Int × Int) := do
  let x ← Out.unwrapRes (T.X.tryFrom p.2)
  let y ← T.X.base.sub T.X.MAX p.1
  let y ← Out.unwrapRes (T.Y.tryFrom y)
  .ok (x, y)

/-- `Pos + Dir`, posdir.rs:19-61, `pos_dir_add`, posdir.rs:65-70. -/
def addDir (T : PosTy) (p : Int × Int) (d : Dir) : Res (Int × Int) :=
  match tupleAddDir T.X T.Y p d with
  | .error e => .error e
  | .ok q => .ok q

/-- `pos_dir_add_ok`, posdir.rs:74-79. -/
def addDirOk (T : PosTy) (p : Int × Int) (d : Dir) : Option (Int × Int) := (T.addDir p d).toOption

/-- `direction_to`, posdir.rs:85-111. -/
def directionTo (D : Bool) (src dst : Int × Int) : Option Dir :=
  if D then
    match compare src.1 dst.1, compare src.2 dst.2 with
    | .eq, .eq => none
    | .eq, .gt => some .N
    | .lt, .gt => some .NE
    | .lt, .eq => some .E
    | .lt, .lt => some .SE
    | .eq, .lt => some .S
    | .gt, .lt => some .SW
    | .gt, .eq => some .W
    | .gt, .gt => some .NW
  else
    match compare src.1 dst.1, compare src.2 dst.2 with
    | .eq, .eq => none
    | _, .gt => some .N
    | .lt, _ => some .E
    | _, .lt => some .S
    | .gt, _ => some .W

/-- Comparison `a < b` of the derived `Ord` on positions: lexicographic on `(x, y)`; pos.rs:74-75 and
std tuples. -/
def lt (a b : Int × Int) : Bool := a.1 < b.1 || (a.1 == b.1 && a.2 < b.2)

end PosTy

namespace Pos

/-- `Pos::new`, pos.rs:141-149, and `TryFrom<(u16, u16)>`, pos.rs:216-230. -/
def new (xmax ymax : Int) (x y : Int) : Res (Int × Int) :=
  match (BTy.bounded .u16 0 xmax).new x with
  | .error _ => .error .outOfBounds
  | .ok x =>
    match (BTy.bounded .u16 0 ymax).new y with
    | .error _ => .error .outOfBounds
    | .ok y => .ok (x, y)

/-- `Pos::new_unwrap`, pos.rs:153-157. -/
def newUnwrap (xmax ymax : Int) (x y : Int) : Out (Int × Int) := do
  let x ← (BTy.bounded .u16 0 xmax).newUnwrap x
  let y ← (BTy.bounded .u16 0 ymax).newUnwrap y
  .ok (x, y)

/-- `TryFrom<(i32, i32)> for Pos`, pos.rs:232-246: `Pos::new(xy.0 as u16, xy.1 as u16)`. -/
def ofI32 (xmax ymax : Int) (x y : Int) : Res (Int × Int) :=
  Pos.new xmax ymax (IntTy.u16.cast x) (IntTy.u16.cast y)

/-- `Pos::tuple`, pos.rs:187-189, and `From<Pos> for (u16, u16)` / `(i32, i32)`, pos.rs:248-274. -/
def tuple (p : Int × Int) : Int × Int := (p.1, p.2)

/-- `Pos::WIDTH`, pos.rs:98: a `u16` addition evaluated at compile time (overflow is a compile error). -/
def WIDTH (xmax : Int) : Out Int := IntTy.u16.const (xmax + 1)

/-- `Pos::HEIGHT`, pos.rs:100. -/
def HEIGHT (ymax : Int) : Out Int := IntTy.u16.const (ymax + 1)

/-- `Pos::SIZE`, pos.rs:103. -/
def SIZE [Target] (xmax ymax : Int) : Out Int := do
  let w ← WIDTH xmax
  let h ← HEIGHT ymax
  IntTy.usize.const (IntTy.usize.cast w * IntTy.usize.cast h)

/-- `Pos::FIRST` and `TOP_LEFT`, pos.rs:107-110, 125. -/
def FIRST (xmax ymax : Int) : Out (Int × Int) := newUnwrap xmax ymax 0 0
/-- `Pos::LAST` and `BOTTOM_RIGHT`, pos.rs:113-116, 137. -/
def LAST (xmax ymax : Int) : Out (Int × Int) := newUnwrap xmax ymax xmax ymax
/-- `Pos::CENTER`, pos.rs:119-122 (`/` on `u16`). -/
def CENTER (xmax ymax : Int) : Out (Int × Int) := newUnwrap xmax ymax (xmax / 2) (ymax / 2)
/-- `Pos::TOP_RIGHT`, pos.rs:127-130. -/
def TOP_RIGHT (xmax ymax : Int) : Out (Int × Int) := newUnwrap xmax ymax xmax 0
/-- `Pos::BOTTOM_LEFT`, pos.rs:132-135. -/
def BOTTOM_LEFT (xmax ymax : Int) : Out (Int × Int) := newUnwrap xmax ymax 0 ymax

end Pos

/-! ## Position iterators -/

/-- `PosTIter`, postrait.rs:430-434. -/
structure PosIter where
  cur : Option (Int × Int)
  stop : Option (Int × Int)
  deriving DecidableEq, Repr

namespace PosIter

/-- `PosTIter::default`, postrait.rs:436-444; `iter_orientation` and friends, postrait.rs:298-330. -/
def default (T : PosTy) : PosIter := ⟨some T.first, some T.last⟩

/-- `PosTIter::next`, postrait.rs:449-462. -/
def next (T : PosTy) (XFIRST : Bool) (s : PosIter) : Option (Int × Int) × PosIter :=
  let old := s.cur
  if s.cur = s.stop then (old, ⟨none, none⟩)
  else match s.cur with
    | some cur => (old, { s with cur := if XFIRST then T.next cur else T.nextY cur })
    | none => (old, s)

/-- `PosTIter::next_back`, postrait.rs:471-484. -/
def nextBack (T : PosTy) (XFIRST : Bool) (s : PosIter) : Option (Int × Int) × PosIter :=
  let old := s.stop
  if s.cur = s.stop then (old, ⟨none, none⟩)
  else match s.stop with
    | some e => (old, { s with stop := if XFIRST then T.prev e else T.prevY e })
    | none => (old, s)

/-- `PosTIter::size_hint`, postrait.rs:463-466. -/
def sizeHint [Target] (T : PosTy) (_ : PosIter) : Out (Int × Option Int) := do
  let size ← T.dimensions
  .ok (size, some size)

/-- `for p in P::iter_orientation::<XFIRST>()`: the positions visited. The model allows
`(number of positions) + 1` calls, which is enough, see C09. -/
def toList (T : PosTy) (XFIRST : Bool) : Out (List (Int × Int)) :=
  collectWith (liftNext (PosIter.next T XFIRST))
    (((T.X.MAX - T.X.MIN + 1) * (T.Y.MAX - T.Y.MIN + 1)).toNat + 1) (PosIter.default T)

end PosIter

/-- `PosTIterRange`, postrait.rs:493-497. -/
structure PosIterRange where
  topleft : Int × Int
  botright : Int × Int
  value : Option (Int × Int)
  deriving DecidableEq, Repr

namespace PosIterRange

/-- `PosTIterRange::new`, postrait.rs:502-508, and `PosT::iter_range`, postrait.rs:334-339. -/
def new (tl br : Int × Int) : PosIterRange := ⟨tl, br, some tl⟩

/-- `PosTIterRange::next`, postrait.rs:513-529. The `?` at line 520 returns `None` from `next`, with `value`
already taken. -/
def next (T : PosTy) (s : PosIterRange) : Option (Int × Int) × PosIterRange :=
  match s.value with
  | some pos0 =>
    let finish (pos : Option (Int × Int)) : Option (Int × Int) × PosIterRange :=
      (some pos0, { s with value := pos.filter fun p => p.2 ≤ s.botright.2 })
    match T.next pos0 with
    | some p =>
      if p.1 < s.topleft.1 then finish (PosTy.newSame s.topleft.1 p.2).toOption
      else if p.1 > s.botright.1 then
        match T.Y.inc p.2 with
        | none => (none, { s with value := none })
        | some y => finish (PosTy.newSame s.topleft.1 y).toOption
      else finish (some p)
    | none => finish none
  | none => (none, s)

/-- `PosTIterRange::size_hint`, postrait.rs:530-533. -/
def sizeHint [Target] (T : PosTy) (_ : PosIterRange) : Out (Int × Option Int) := do
  let w ← T.width
  let h ← T.height
  let size ← IntTy.usize.mul w h
  .ok (size, some size)

end PosIterRange

namespace PosIterInX

/-- `PosT::iter_in_x`, postrait.rs:342-347. -/
def new (T : PosTy) (x : Int) : Option (Int × Int) := some (x, T.Y.default)

/-- `PosTIterInX::next`, postrait.rs:546-553. -/
def next (T : PosTy) (s : Option (Int × Int)) : Option (Int × Int) × Option (Int × Int) :=
  match s with
  | some pos0 => (some pos0, (T.Y.inc pos0.2).bind fun y => (PosTy.newSame pos0.1 y).toOption)
  | none => (none, none)

/-- `PosTIterInX::size_hint`, postrait.rs:554-557. -/
def sizeHint [Target] (T : PosTy) (_ : Option (Int × Int)) : Out (Int × Option Int) := do
  let size ← T.height
  .ok (size, some size)

end PosIterInX

namespace PosIterInY

/-- `PosT::iter_in_y`, postrait.rs:350-355. -/
def new (T : PosTy) (y : Int) : Option (Int × Int) := some (T.X.default, y)

/-- `PosTIterInY::next`, postrait.rs:569-576. -/
def next (T : PosTy) (s : Option (Int × Int)) : Option (Int × Int) × Option (Int × Int) :=
  match s with
  | some pos0 => (some pos0, (T.X.inc pos0.1).bind fun x => (PosTy.newSame x pos0.2).toOption)
  | none => (none, none)

/-- `PosTIterInY::size_hint`, postrait.rs:577-580. -/
def sizeHint [Target] (T : PosTy) (_ : Option (Int × Int)) : Out (Int × Option Int) := do
  let size ← T.width
  .ok (size, some size)

end PosIterInY

end Sqrid
