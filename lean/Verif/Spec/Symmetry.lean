import Verif.Spec.GridOps
/-! Words of C132: sequences of flips and rotations. -/

namespace Sqrid.Spec

/-- A flip or a rotation, not a write. -/
def GridOp.moves {α : Type} : GridOp α → Bool
  | .set _ _ => false
  | _ => true

/-- How many of the operations are `flip_h()`. -/
def flipsH {α : Type} (ops : List (GridOp α)) : Nat := ops.countP fun op => match op with
  | .flipH => true
  | _ => false

/-- How many of the operations are `flip_v()`. -/
def flipsV {α : Type} (ops : List (GridOp α)) : Nat := ops.countP fun op => match op with
  | .flipV => true
  | _ => false

/-- Some quarter turns clockwise, and then perhaps a horizontal flip. -/
def turnFlip {α : Type} (k : Nat) (b : Bool) : List (GridOp α) := List.replicate k .rotateCw ++ if b then [.flipH] else []

/-- Some quarter turns clockwise, then a horizontal flip if `h` is odd, and a vertical flip if `v` is odd. -/
def turnFlips {α : Type} (k h v : Nat) : List (GridOp α) :=
  List.replicate k .rotateCw ++ ((if h % 2 = 1 then [.flipH] else []) ++ if v % 2 = 1 then [.flipV] else [])

end Sqrid.Spec
