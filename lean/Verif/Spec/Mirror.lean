import Verif.Spec.Shift
/-! Words of C122: mirrored, transposed and turned problems. -/

namespace Sqrid.Spec

/-- The mirror image of a position, left and right exchanged: column `0` becomes column `c`. -/
def mirror (c : Int) (p : Int × Int) : Int × Int := (c - p.1, p.2)

/-- The mirror image of a direction. -/
def mirrorDir : Dir → Dir
  | .N => .N | .NE => .NW | .E => .W | .SE => .SW | .S => .S | .SW => .SE | .W => .E | .NW => .NE

/-- Rows become columns. -/
def transpose (p : Int × Int) : Int × Int := (p.2, p.1)

/-- What becomes of a direction when rows become columns. -/
def transposeDir : Dir → Dir
  | .N => .W | .NE => .SW | .E => .S | .SE => .SE | .S => .E | .SW => .NE | .W => .N | .NW => .NW

/-- The symmetries of the plane of the positions: `f` says what becomes of a position and `g` what becomes of a direction. The turns are mirrorings of
transpositions. -/
inductive Symmetry : (Int × Int → Int × Int) → (Dir → Dir) → Prop
  | shift (v : Int × Int) : Symmetry (shift v) id
  | mirror (c : Int) : Symmetry (mirror c) mirrorDir
  | transpose : Symmetry transpose transposeDir
  | comp {f f' : Int × Int → Int × Int} {g g' : Dir → Dir} : Symmetry f g → Symmetry f' g' → Symmetry (f' ∘ f) (g' ∘ g)

/-- In the grid `T`, the movement function `go'` is the image of `go`. -/
def ImageGo (T : PosTy) (f : Int × Int → Int × Int) (g : Dir → Dir) (go go' : Int × Int → Dir → Option (Int × Int)) : Prop :=
  ∀ p d, InGrid T p → go' (f p) (g d) = (go p d).map f

/-- The same with costs, which stay as they are. -/
def ImageCosts (T : PosTy) (f : Int × Int → Int × Int) (g : Dir → Dir) (go go' : Int × Int → Dir → Option ((Int × Int) × Int)) : Prop :=
  ∀ p d, InGrid T p → go' (f p) (g d) = (go p d).map fun x => (f x.1, x.2)

/-- The result, on a grid of `c` columns, of a search that has found a path of length `n`: such a path, or `Loop` if it is longer than the square of the number
of columns. -/
def Finds {α : Type} (c : Int) (path : α → List Dir) (r : Out (Res α)) (n : Nat) : Prop :=
  if (n : Int) ≤ c * c then ∃ a, r = .ok (.ok a) ∧ (path a).length = n else r = .ok (.error .loop)

/-- Two searches, on grids of `c` and `c'` columns, find paths of the same length, or both find none. -/
def SameLength {α : Type} (c c' : Int) (path : α → List Dir) (r r' : Out (Res α)) : Prop :=
  (r = .ok (.error .destinationUnreachable) ∧ r' = .ok (.error .destinationUnreachable)) ∨ ∃ n, Finds c path r n ∧ Finds c' path r' n

end Sqrid.Spec
