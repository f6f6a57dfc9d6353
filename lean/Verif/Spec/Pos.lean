import Verif.Spec.Target
import Verif.Model.PosT
import Verif.Spec.Iter
/-!
# Specification vocabulary: positions
-/

namespace Sqrid

/-- A position type that describes a grid anchored at (0,0): both coordinate types exist and start at 0, and the
number of positions is representable as a `usize`. On a 64-bit machine `Pos<XMAX, YMAX>` is one for every XMAX and YMAX
(`PosTy.pos_isGrid`), and so are `(u8, u8)` and `(u16, u16)`; on a 32-bit machine the only exception is the square with
XMAX = YMAX = 65535. -/
structure PosTy.IsGrid [Target] (T : PosTy) : Prop where
  wf : T.WF
  x0 : T.X.MIN = 0
  y0 : T.Y.MIN = 0
  fits : (T.X.MAX + 1) * (T.Y.MAX + 1) ≤ Spec.limit

namespace Spec

/-- The positions of `Pos<XMAX, YMAX>` can be counted in a `usize`: always with 64 bits, and with 32 bits unless both are 65535. -/
def Fits [Target] (xmax ymax : Int) : Prop := Target.wide = true ∨ xmax < 65535 ∨ ymax < 65535

/-- Unit vector of a direction: x grows to the east, y grows to the south. -/
def unit : Dir → Int × Int
  | .N => (0, -1)
  | .NE => (1, -1)
  | .E => (1, 0)
  | .SE => (1, 1)
  | .S => (0, 1)
  | .SW => (-1, 1)
  | .W => (-1, 0)
  | .NW => (-1, -1)

/-- Opposite direction. -/
def opposite : Dir → Dir
  | .N => .S | .NE => .SW | .E => .W | .SE => .NW | .S => .N | .SW => .NE | .W => .E | .NW => .SE

/-- The point next to `p` in direction `d`, in the unbounded plane. -/
def neighbour (p : Int × Int) (d : Dir) : Int × Int := (p.1 + (unit d).1, p.2 + (unit d).2)

/-- Position `q` belongs to the grid described by `T`. -/
def InGrid (T : PosTy) (p : Int × Int) : Prop :=
  (T.X.MIN ≤ p.1 ∧ p.1 ≤ T.X.MAX) ∧ (T.Y.MIN ≤ p.2 ∧ p.2 ≤ T.Y.MAX)

/-- Number of columns. -/
def cols (T : PosTy) : Int := T.X.MAX - T.X.MIN + 1
/-- Number of lines. -/
def rows (T : PosTy) : Int := T.Y.MAX - T.Y.MIN + 1

/-- Rank of a position in reading order (line by line). -/
def rankRow (T : PosTy) (p : Int × Int) : Int := (p.2 - T.Y.MIN) * cols T + (p.1 - T.X.MIN)
/-- Rank of a position in column order (column by column). -/
def rankCol (T : PosTy) (p : Int × Int) : Int := (p.1 - T.X.MIN) * rows T + (p.2 - T.Y.MIN)

/-- The positions of the rectangle `tl..br` (inclusive), line by line. -/
def rectRows (tl br : Int × Int) : List (Int × Int) :=
  (intsFromTo tl.2 br.2).flatMap fun y => (intsFromTo tl.1 br.1).map fun x => (x, y)

/-- The positions of the rectangle `tl..br` (inclusive), column by column. -/
def rectCols (tl br : Int × Int) : List (Int × Int) :=
  (intsFromTo tl.1 br.1).flatMap fun x => (intsFromTo tl.2 br.2).map fun y => (x, y)

/-- All positions of the grid in the given orientation. -/
def allPositions (T : PosTy) (horizontal : Bool) : List (Int × Int) :=
  if horizontal then rectRows (T.X.MIN, T.Y.MIN) (T.X.MAX, T.Y.MAX)
  else rectCols (T.X.MIN, T.Y.MIN) (T.X.MAX, T.Y.MAX)

/-- L1 distance in the plane. -/
def l1 (p q : Int × Int) : Int := ((p.1 - q.1).natAbs : Int) + ((p.2 - q.2).natAbs : Int)

/-- Chebyshev distance in the plane. -/
def linf (p q : Int × Int) : Int := max ((p.1 - q.1).natAbs : Int) ((p.2 - q.2).natAbs : Int)

/-- The directions of a mode, clockwise from north. -/
def clockwise (D : Bool) : List Dir :=
  if D then [.N, .NE, .E, .SE, .S, .SW, .W, .NW] else [.N, .E, .S, .W]

end Spec

end Sqrid
