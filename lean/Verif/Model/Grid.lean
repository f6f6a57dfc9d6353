import Verif.Model.PosT
/-!
# Model of /repo/src/sqrid/grid.rs

A `Grid<T, P, SIZE>` (grid.rs:61-62) is the list of the SIZE items of its array. The position type `P` is the argument
`T : PosTy`; the element type is `α`.
-/

namespace Sqrid

/-- `for i in a..b` over integers: the values visited. -/
def rustRange (a b : Int) : List Int := (List.range (b - a).toNat).map fun i : Nat => a + (i : Int)

/-- `for v in B::iter()` (`P::iter_x()`, `P::iter_y()`, postrait.rs:286-293): the values visited. The model allows
`(number of values) + 1` calls, which is enough, see C04. -/
def BTy.toList (B : BTy) : Out (List Int) :=
  collectWith (liftNext (BIter.next B)) ((B.MAX - B.MIN).toNat + 2) (BIter.iter B)

/-- `P::new(x, y)` called with `x: usize` and `y: Ytype`, postrait.rs:36-47 as used at grid.rs:172, gridbool.rs:196
(the conversion of `y` into its own type is std's identity). -/
def PosTy.newX (T : PosTy) (x y : Int) : Res (Int × Int) :=
  match T.X.tryFrom x with
  | .error _ => .error .outOfBounds
  | .ok x => .ok (x, y)

/-- `P::new(x, y)` called with `x: Xtype` and `y: usize`, as used at grid.rs:183, gridbool.rs:209. -/
def PosTy.newY (T : PosTy) (x y : Int) : Res (Int × Int) :=
  match T.Y.tryFrom y with
  | .error _ => .error .outOfBounds
  | .ok y => .ok (x, y)

namespace Grid

/-- `[T]::get_unchecked(i)` on the array: undefined behaviour out of range. -/
def getUnchecked (g : List α) (i : Int) : Out α :=
  match g[i.toNat]? with
  | some v => .ok v
  | none => .ub

/-- Writing through `[T]::get_unchecked_mut(i)`: undefined behaviour out of range. -/
def setUnchecked (g : List α) (i : Int) (v : α) : Out (List α) :=
  if i.toNat < g.length then .ok (g.set i.toNat v) else .ub

/-- `[T]::swap(i, j)`: panics out of range. -/
def swap (g : List α) (i j : Int) : Out (List α) :=
  match g[i.toNat]?, g[j.toNat]? with
  | some a, some b => .ok ((g.set i.toNat b).set j.toNat a)
  | _, _ => .panic

/-- `Grid::repeat`, grid.rs:78-83. The constant `_ASSERTS` (grid.rs:68) is not mentioned in it, so no relation between SIZE and
the dimensions is enforced. -/
def «repeat» (SIZE : Nat) (item : α) : List α := List.replicate SIZE item

/-- `Grid::default`, grid.rs:240-247; `dflt` is `T::default()`. -/
def default (SIZE : Nat) (dflt : α) : List α := (List.range SIZE).map fun _ => dflt

/-- `Grid::get`, grid.rs:134-136, and `Index`, grid.rs:292-306. -/
def get [Target] (T : PosTy) (g : List α) (p : Int × Int) : Out α := do
  let i ← T.toUsize p
  getUnchecked g i

/-- `*grid.get_mut(pos) = v`, grid.rs:143-145, and `grid[pos] = v` (`IndexMut`), grid.rs:308-320. -/
def set [Target] (T : PosTy) (g : List α) (p : Int × Int) (v : α) : Out (List α) := do
  let i ← T.toUsize p
  setUnchecked g i v

/-- `Grid::iter` / `iter_mut` / `into_iter` / `as_ref` / `as_array` / `into_inner`, grid.rs:87-101, 149-157, 324-365: the items of the array, in
order. -/
def iter (g : List α) : List α := g

/-- `Grid::iter_pos`, grid.rs:161-166. -/
def iterPos [Target] (T : PosTy) (g : List α) : Out (List ((Int × Int) × α)) := do
  let ps ← PosIter.toList T true
  ps.mapM fun p => do
    let v ← get T g p
    .ok (p, v)

/-- `Grid::line`, grid.rs:105-113. -/
def line [Target] (T : PosTy) (g : List α) (lineno : Int) : Out (List α) := do
  let width ← T.width
  let lineno ← Out.unwrapRes (T.Y.toUsize lineno)
  let start ← IntTy.usize.mul lineno width
  let stop ← IntTy.usize.add start width
  if start ≤ stop ∧ stop.toNat ≤ g.length then .ok ((g.drop start.toNat).take (stop - start).toNat) else .panic

/-- `grid.line_mut(lineno)[x] = v`, grid.rs:119-127: the slice `start..end`, then a bounds-checked index into it. -/
def lineMutSet [Target] (T : PosTy) (g : List α) (lineno : Int) (x : Nat) (v : α) : Out (List α) := do
  let width ← T.width
  let lineno ← Out.unwrapRes (T.Y.toUsize lineno)
  let start ← IntTy.usize.mul lineno width
  let stop ← IntTy.usize.add start width
  if start ≤ stop ∧ stop.toNat ≤ g.length then
    if x < (stop - start).toNat then .ok (g.set (start.toNat + x) v) else .panic
  else .panic

/-- Body of the loops of `flip_h`, grid.rs:172-174. -/
def flipHStep [Target] (T : PosTy) (g : List α) (xy : Int × Int) : Out (List α) := do
  let pos1 ← Out.unwrapRes (T.newX xy.1 xy.2)
  let pos2 ← T.flipH pos1
  let i ← T.toUsize pos1
  let j ← T.toUsize pos2
  swap g i j

/-- `Grid::flip_h`, grid.rs:169-177. -/
def flipH [Target] (T : PosTy) (g : List α) : Out (List α) := do
  let ys ← T.Y.toList
  let w ← T.width
  ys.foldlM (fun g y => (rustRange 0 (w / 2)).foldlM (fun g x => flipHStep T g (x, y)) g) g

/-- Body of the loops of `flip_v`, grid.rs:183-185. -/
def flipVStep [Target] (T : PosTy) (g : List α) (xy : Int × Int) : Out (List α) := do
  let pos1 ← Out.unwrapRes (T.newY xy.1 xy.2)
  let pos2 ← T.flipV pos1
  let i ← T.toUsize pos1
  let j ← T.toUsize pos2
  swap g i j

/-- `Grid::flip_v`, grid.rs:180-188. -/
def flipV [Target] (T : PosTy) (g : List α) : Out (List α) := do
  let h ← T.height
  let xs ← T.X.toList
  (rustRange 0 (h / 2)).foldlM (fun g y => xs.foldlM (fun g x => flipVStep T g (x, y)) g) g

/-- Body of the loops of `rotate_cw`, grid.rs:208-216, on `Pos<W, W>`. `x.try_into()` and `y.try_into()` convert `usize` to
`u16`. -/
def rotateCwStep [Target] (W : Int) (g : List α) (xy : Int × Int) : Out (List α) := do
  let y ← Out.unwrapRes (IntTy.u16.tryFrom xy.2)
  let x ← Out.unwrapRes (IntTy.u16.tryFrom xy.1)
  let pos1 ← Out.unwrapRes (Pos.new W W x y)
  let pos2 ← (PosTy.pos W W).rotateCw pos1
  let pos3 ← (PosTy.pos W W).rotateCw pos2
  let pos4 ← (PosTy.pos W W).rotateCw pos3
  let i1 ← (PosTy.pos W W).toUsize pos1
  let i2 ← (PosTy.pos W W).toUsize pos2
  let i3 ← (PosTy.pos W W).toUsize pos3
  let i4 ← (PosTy.pos W W).toUsize pos4
  let g ← swap g i1 i2
  let g ← swap g i1 i3
  swap g i1 i4

/-- `Grid::rotate_cw`, grid.rs:205-219. -/
def rotateCw [Target] (W : Int) (g : List α) : Out (List α) := do
  let h ← (PosTy.pos W W).height
  (rustRange 0 (h / 2)).foldlM
    (fun g y => (rustRange y (h - 1 - y)).foldlM (fun g x => rotateCwStep W g (x, y)) g) g

/-- Body of the loops of `rotate_cc`, grid.rs:224-232. -/
def rotateCcStep [Target] (W : Int) (g : List α) (xy : Int × Int) : Out (List α) := do
  let y ← Out.unwrapRes (IntTy.u16.tryFrom xy.2)
  let x ← Out.unwrapRes (IntTy.u16.tryFrom xy.1)
  let pos1 ← Out.unwrapRes (Pos.new W W x y)
  let pos2 ← (PosTy.pos W W).rotateCw pos1
  let pos3 ← (PosTy.pos W W).rotateCw pos2
  let pos4 ← (PosTy.pos W W).rotateCw pos3
  let i1 ← (PosTy.pos W W).toUsize pos1
  let i2 ← (PosTy.pos W W).toUsize pos2
  let i3 ← (PosTy.pos W W).toUsize pos3
  let i4 ← (PosTy.pos W W).toUsize pos4
  let g ← swap g i1 i4
  let g ← swap g i1 i3
  swap g i1 i2

/-- `Grid::rotate_cc`, grid.rs:221-235. -/
def rotateCc [Target] (W : Int) (g : List α) : Out (List α) := do
  let h ← (PosTy.pos W W).height
  (rustRange 0 (h / 2)).foldlM
    (fun g y => (rustRange y (h - 1 - y)).foldlM (fun g x => rotateCcStep W g (x, y)) g) g

/-- The slot-filling loop of `from_iter`, grid.rs:383-389, 407-413: `slots` items remain to be assigned, `items` is what the
iterator has left. Returns the assigned values and the rest of the iterator. -/
def fromIterLoop : Nat → List α → Out (List α × List α)
  | 0, items => .ok ([], items)
  | _ + 1, [] => .panic
  | slots + 1, a :: items => do
    let (vs, rest) ← fromIterLoop slots items
    .ok (a :: vs, rest)

/-- `FromIterator`, grid.rs:373-417. Simplification: the iterator is given by the finite list of its items (an
iterator that never ends panics like any other that has more than SIZE items). -/
def fromIter (SIZE : Nat) (items : List α) : Out (List α) := do
  let (vs, rest) ← fromIterLoop SIZE items
  if rest.isEmpty then .ok vs else .panic

/-- `Neg`, grid.rs:251-259; `neg` is the negation of the element type, which may panic (`-i32::MIN` does, in a debug build).
Simplification: all the items are negated before any is stored; the code does both in turn, which makes the same calls in the
same order. -/
def neg (neg : α → Out α) (g : List α) : Out (List α) := do
  let items ← (iter g).mapM neg
  fromIter g.length items

/-- `Extend`, grid.rs:421-458. -/
def extend [Target] (T : PosTy) (g : List α) (items : List ((Int × Int) × α)) : Out (List α) :=
  items.foldlM (fun g (pm : (Int × Int) × α) => set T g pm.1 pm.2) g

/-- Inner loop of `extend_from_vecvec`, grid.rs:193-196: the rest of a line, starting at column `x`. On an error, the grid
keeps what was written so far. -/
def extendRow [Target] (T : PosTy) (y : Nat) : Nat → List α → List α → Out (List α × Res Unit)
  | _, [], g => .ok (g, .ok ())
  | x, c :: line, g =>
    match T.new (IntTy.u16.cast x) (IntTy.u16.cast y) with
    | .error e => .ok (g, .error e)
    | .ok p => do
      let g ← set T g p c
      extendRow T y (x + 1) line g

/-- Outer loop of `extend_from_vecvec`, grid.rs:192. -/
def extendRows [Target] (T : PosTy) : Nat → List (List α) → List α → Out (List α × Res Unit)
  | _, [], g => .ok (g, .ok ())
  | y, line :: rest, g => do
    let (g, r) ← extendRow T y 0 line g
    match r with
    | .error e => .ok (g, .error e)
    | .ok () => extendRows T (y + 1) rest g

/-- `Grid::extend_from_vecvec`, grid.rs:191-199: the new contents and the result. `enumerate` counts in `usize`; the casts are
`as u16`. -/
def extendFromVecVec [Target] (T : PosTy) (g : List α) (v : List (List α)) : Out (List α × Res Unit) := extendRows T 0 v g

/-- `std::mem::take(&mut vec[y][x])`: the value, and the nested vector with the default left in its place. -/
def takeAt (dflt : α) (vec : List (List α)) (y x : Nat) : Out (α × List (List α)) :=
  match vec[y]? with
  | none => .panic
  | some row =>
    match row[x]? with
    | none => .panic
    | some v => .ok (v, vec.set y (row.set x dflt))

/-- The closure given to `array::from_fn` in `TryFrom<Vec<Vec<T>>>`, grid.rs:271-284. -/
def fromVecVecItem [Target] (T : PosTy) (dflt : α) (vec : List (List α)) (i : Nat) : Out (α × List (List α)) := do
  let r ← T.tryFromUsize i
  let pos ← Out.unwrapRes r
  match T.X.toUsize pos.1 with
  | .error _ => .ok (dflt, vec)
  | .ok x =>
    match T.Y.toUsize pos.2 with
    | .error _ => .ok (dflt, vec)
    | .ok y =>
      match vec[y.toNat]? with
      | none => .ok (dflt, vec)
      | some row => if x.toNat < row.length then takeAt dflt vec y.toNat x.toNat else .ok (dflt, vec)

/-- The calls made by `array::from_fn`: items `i..i+n`, in order. -/
def fromVecVecLoop [Target] (T : PosTy) (dflt : α) : Nat → Nat → List (List α) → Out (List α)
  | _, 0, _ => .ok []
  | i, n + 1, vec => do
    let (v, vec) ← fromVecVecItem T dflt vec i
    let rest ← fromVecVecLoop T dflt (i + 1) n vec
    .ok (v :: rest)

/-- `vec.iter().any(|v| v.len() > P::width())`, grid.rs:267: the width is computed for each row, so not at all when there is none. -/
def anyLonger [Target] (T : PosTy) : List (List α) → Out Bool
  | [] => .ok false
  | v :: vs => do
    let w ← T.width
    if v.length > w.toNat then .ok true else anyLonger T vs

/-- The condition of line 267, grid.rs:267: `||` does not evaluate its right side when the left one is true. -/
def tooBig [Target] (T : PosTy) (vec : List (List α)) : Out Bool := do
  let h ← T.height
  if vec.length > h.toNat then .ok true else anyLonger T vec

/-- `TryFrom<Vec<Vec<T>>>`, grid.rs:263-288; `dflt` is `T::default()`. -/
def tryFromVecVec [Target] (T : PosTy) (SIZE : Nat) (dflt : α) (vec : List (List α)) : Out (Res (List α)) := do
  let big ← tooBig T vec
  if big then .ok (.error .outOfBounds)
  else do
    let g ← fromVecVecLoop T dflt 0 SIZE vec
    .ok (.ok g)

end Grid

end Sqrid
