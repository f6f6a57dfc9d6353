import Verif.Spec.Grid
/-! Words of C123: histories of writes, flips and rotations. -/

namespace Sqrid.Spec

/-- The operations that `Grid` and `Gridbool` have in common. -/
inductive GridOp (α : Type) where
  /-- a write at a position: `grid[p] = value`, `gridbool.set(p, value)` -/
  | set (p : Int × Int) (value : α)
  /-- `flip_h()` -/
  | flipH
  /-- `flip_v()` -/
  | flipV
  /-- `rotate_cw()` -/
  | rotateCw
  /-- `rotate_cc()` -/
  | rotateCc

/-- The rotations, which only square grids have. -/
def GridOp.rotates {α : Type} : GridOp α → Bool
  | .rotateCw | .rotateCc => true
  | _ => false

/-- The position that an operation writes, if any, is in the grid. -/
def GridOp.inGrid {α : Type} (T : PosTy) : GridOp α → Prop
  | .set p _ => InGrid T p
  | _ => True

/-- What an operation does to a picture `f`: the new value at each position. -/
def GridOp.paint {α : Type} (T : PosTy) (f : Int × Int → α) : GridOp α → Int × Int → α
  | .set q v => fun p => if p = q then v else f p
  | .flipH => fun p => f (cols T - 1 - p.1, p.2)
  | .flipV => fun p => f (p.1, rows T - 1 - p.2)
  | .rotateCw => fun p => f (p.2, cols T - 1 - p.1)
  | .rotateCc => fun p => f (rows T - 1 - p.2, p.1)

/-- The same, except that the rotations leave the middle as it is: the central position, or the four central positions if the number of columns is even. -/
def GridOp.paintAround {α : Type} (T : PosTy) (f : Int × Int → α) (op : GridOp α) (p : Int × Int) : α :=
  let m := (cols T - 1) / 2
  if op.rotates = true ∧ (m ≤ p.1 ∧ p.1 ≤ cols T - 1 - m) ∧ (m ≤ p.2 ∧ p.2 ≤ cols T - 1 - m) then f p else op.paint T f p

end Sqrid.Spec
