import Verif.Model.Gridbool
/-!
# Model of the `Display` implementations: /repo/src/sqrid/grid.rs:460-534, gridbool.rs:337-346, pos.rs:192-196

A string is the list of its characters. Writing to the formatter is modelled as producing the text written; errors returned by the writer are not modelled.
-/

namespace Sqrid

/-- The alignment of std's `Formatter`. -/
inductive Align where
  | left
  | right
  | center
  deriving DecidableEq, Repr

/-- The options of std's `fmt::Formatter` that matter for `pad`: `{:fill align width .precision}`. -/
structure Fmt where
  fill : Char
  align : Option Align
  width : Option Nat
  precision : Option Nat
  deriving DecidableEq, Repr

namespace Fmt

/-- The options of a plain `{}`. -/
def plain : Fmt := ⟨' ', none, none, none⟩

/-- The options of `{:width$}`. -/
def withWidth (n : Nat) : Fmt := ⟨' ', none, some n, none⟩

/-- std's `Formatter::pad`: the text is cut to the precision and then filled up to the width; to the left if no alignment is given. -/
def pad (f : Fmt) (s : List Char) : List Char :=
  let s := match f.precision with
    | none => s
    | some n => s.take n
  match f.width with
  | none => s
  | some n =>
    let k := n - s.length
    match f.align.getD .left with
    | .left => s ++ List.replicate k f.fill
    | .right => List.replicate k f.fill ++ s
    | .center => List.replicate (k / 2) f.fill ++ s ++ List.replicate ((k + 1) / 2) f.fill

end Fmt

/-- `format!("{}", i)` for an unsigned integer. -/
def decimal (i : Nat) : List Char := Nat.toDigits 10 i

/-- `format!("{:width$}", i)` for an unsigned integer: numbers are aligned to the right by default. -/
def decimalWidth (width i : Nat) : List Char := List.replicate (width - (decimal i).length) ' ' ++ decimal i

namespace Display

/-- The loop over the columns in `headerfooter`, grid.rs:488-490: `cell[digit]` panics out of range. -/
def headerCells (f : Fmt) (digit : Nat) : List (List Char) → Out (List Char)
  | [] => .ok []
  | cell :: cells => do
    let c ← Out.unwrap cell[digit]?
    let rest ← headerCells f digit cells
    .ok (f.pad [c] ++ rest)

/-- The loop over the digits in `headerfooter`, grid.rs:486-492, for the given digits. The blank label is written with its own format arguments,
`{:width$} `, which do not depend on `f`. -/
def headerLines (f : Fmt) (ndigits_y : Nat) (str_x : List (List Char)) : List Nat → Out (List Char)
  | [] => .ok []
  | digit :: digits => do
    let cells ← headerCells f digit str_x
    let rest ← headerLines f ndigits_y str_x digits
    .ok ((Fmt.withWidth ndigits_y).pad [] ++ [' '] ++ cells ++ ['\n'] ++ rest)

/-- The closure `headerfooter`, grid.rs:485-494. -/
def headerfooter (f : Fmt) (ndigits_x ndigits_y : Nat) (str_x : List (List Char)) : Out (List Char) :=
  headerLines f ndigits_y str_x (List.range ndigits_x)

/-- State of the loops that print the cells, grid.rs:497-513: the text written, `last_y` and the rest of the iterator. -/
structure Cells where
  text : List Char
  last_y : Nat
  it : List (List Char)

/-- Body of the loops, grid.rs:500-511. -/
def cellStep (f : Fmt) (ndigits_y : Nat) (s : Cells) (y : Nat) : Out Cells :=
  let s := if y ≠ s.last_y then
      { s with text := s.text ++ (if y > 0 then ['\n'] else []) ++ (decimalWidth ndigits_y y ++ [' ']), last_y := y }
    else s
  match s.it with
  | [] => .panic
  | c :: it => .ok { s with text := s.text ++ f.pad c, it }

/-- `display_fmt_helper`, grid.rs:465-517. `items` are the strings the iterator yields; `w - 1` and `h - 1` panic on 0. -/
def helper [Target] (f : Fmt) (w h : Int) (items : List (List Char)) : Out (List Char) := do
  let w1 ← IntTy.usize.sub w 1
  let ndigits_x := (decimal w1.toNat).length
  let h1 ← IntTy.usize.sub h 1
  let ndigits_y := (decimal h1.toNat).length
  let str_x := (List.range w.toNat).map fun i => decimalWidth ndigits_x i
  let header ← headerfooter f ndigits_x ndigits_y str_x
  let s ← (List.range h.toNat).foldlM (fun s y => (List.range w.toNat).foldlM (fun s _ => cellStep f ndigits_y s y) s)
    { text := [], last_y := h.toNat, it := items : Cells }
  let footer ← headerfooter f ndigits_x ndigits_y str_x
  .ok (header ++ s.text ++ ['\n'] ++ footer)

end Display

/-- `Display for Grid`, grid.rs:525-534; `shw` is `format!("{}", v)` of the element type. -/
def Grid.display [Target] (T : PosTy) (f : Fmt) (shw : α → List Char) (g : List α) : Out (List Char) := do
  let w ← T.width
  let h ← T.height
  Display.helper f w h ((Grid.iter g).map shw)

/-- `Display for Gridbool`, gridbool.rs:337-346. -/
def Gridbool.display [Target] (T : PosTy) (f : Fmt) (gb : List (BitVec 32)) : Out (List Char) := do
  let w ← T.width
  let h ← T.height
  let bs ← Gridbool.iter T gb
  Display.helper f w h (bs.map fun b => if b then ['#'] else ['.'])

/-- `Display for Pos`, pos.rs:192-196: `({},{})`. -/
def Pos.display (p : Int × Int) : List Char := ['('] ++ decimal p.1.toNat ++ [','] ++ decimal p.2.toNat ++ [')']

/-- `format!("{}", v)` for an integer. -/
def decimalInt (v : Int) : List Char := if v < 0 then '-' :: decimal v.natAbs else decimal v.natAbs

/-- `Display` for the bounded integers, boundedint.rs:268-272: `write!` has format arguments of its own, so the options `f` are not used. -/
def BTy.boundedDisplay (_f : Fmt) (v : Int) : List Char := decimalInt v

/-- `Debug` for the bounded integers, boundedint.rs:262-266. -/
def BTy.boundedDebug (_f : Fmt) (v : Int) : List Char := decimalInt v

/-- Derived `Debug` of `Pos` (pos.rs:74-75) for `{:?}` without options: `Pos((x, y))`, with `Debug` of the bounded integers for the coordinates. -/
def Pos.debug (p : Int × Int) : List Char :=
  "Pos((".toList ++ BTy.boundedDebug Fmt.plain p.1 ++ ", ".toList ++ BTy.boundedDebug Fmt.plain p.2 ++ "))".toList

/-- Derived `Debug` of `Dir` (dir.rs:26-45): the name of the variant, written with `write_str`, which uses no options. -/
def Dir.debug : Dir → List Char
  | .N => ['N']
  | .NE => ['N', 'E']
  | .E => ['E']
  | .SE => ['S', 'E']
  | .S => ['S']
  | .SW => ['S', 'W']
  | .W => ['W']
  | .NW => ['N', 'W']

end Sqrid
