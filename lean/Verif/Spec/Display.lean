import Verif.Spec.Target
import Verif.Spec.Grid
import Verif.Model.Display
/-!
# Specification vocabulary: the text of a grid

`f : Fmt` are the options of the format string the grid is printed with; `Fmt.pad f` is what they do to a text.
-/

namespace Sqrid.Spec

/-- A number in decimal. -/
def number (n : Nat) : List Char := Nat.toDigits 10 n

/-- An integer in decimal: the sign if it is negative, and its absolute value. -/
def integer (v : Int) : List Char := (if v < 0 then ['-'] else []) ++ number v.natAbs

/-- A text aligned to the right in `w` columns. -/
def toRight (w : Nat) (s : List Char) : List Char := List.replicate (w - s.length) ' ' ++ s

/-- The lines of a text, each of them ended. -/
def unlines (ls : List (List Char)) : List Char := ls.flatMap fun l => l ++ ['\n']

/-- Columns taken by the labels of the lines of a grid of height `h`. -/
def labelWidth (h : Nat) : Nat := (number (h - 1)).length

/-- The line `k` of the labels of the columns: blanks, and the `k`-th digit of the number of each column. -/
def columnLabels (f : Fmt) (w h k : Nat) : List Char :=
  toRight (labelWidth h) [] ++ [' '] ++
    (List.range w).flatMap fun x => f.pad ((toRight (labelWidth w) (number x))[k]?.toList)

/-- The line `y` of the grid: its number, and the text of each of its cells. -/
def gridLine (f : Fmt) (w h : Nat) (cell : Int × Int → List Char) (y : Nat) : List Char :=
  toRight (labelWidth h) (number y) ++ [' '] ++ (List.range w).flatMap fun x : Nat => f.pad (cell ((x : Int), (y : Int)))

/-- The lines of a `w` by `h` grid: the labels of the columns read from top to bottom, the lines of the grid, and the labels again. -/
def picture (f : Fmt) (w h : Nat) (cell : Int × Int → List Char) : List (List Char) :=
  (List.range (labelWidth w)).map (columnLabels f w h) ++ (List.range h).map (gridLine f w h cell) ++
    (List.range (labelWidth w)).map (columnLabels f w h)

end Sqrid.Spec
