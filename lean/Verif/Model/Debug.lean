import Verif.Model.Display
import Verif.Model.Bf
import Verif.Model.BinHeap
/-!
# Model of the derived `Debug` implementations, for `{:?}` with any options

`derive(Debug)` writes through the builders `debug_tuple`, `debug_struct` and `debug_list` of std's `core/src/fmt/builders.rs`. That file is not part of /repo and
not at hand; it is modelled from its published text, and so are the texts of integers of `core/src/fmt/num.rs` and `core/src/fmt/mod.rs`. `alt` is the flag `#` of
the format string. A field is given by its text with the same options. Errors returned by the writer are not modelled.
-/

namespace Sqrid

/-- The options of std's `fmt::Formatter`: `{:fill align sign # 0 width .precision hex ?}`. -/
structure DFmt extends Fmt where
  /-- `#` -/
  alt : Bool
  /-- `+` -/
  plus : Bool
  /-- `0` -/
  zero : Bool
  /-- `x?` (`some false`) and `X?` (`some true`) -/
  hex : Option Bool
  deriving DecidableEq, Repr

namespace DFmt

/-- The options of `{:?}` and `{:#?}`. -/
def std (alt : Bool) : DFmt := { Fmt.plain with alt, plus := false, zero := false, hex := none }

/-- std's `Formatter::pad_integral`: sign, prefix if `#` is given, digits; filled up to the width with zeros before the digits if `0` is given, or as aligned, to
the right if no alignment is given. The precision is not used. -/
def padIntegral (o : DFmt) (nonneg : Bool) (pre digits : List Char) : List Char :=
  let sign := if nonneg then (if o.plus then ['+'] else []) else ['-']
  let start := sign ++ if o.alt then pre else []
  let k := o.width.getD 0 - (start ++ digits).length
  if o.zero then start ++ List.replicate k '0' ++ digits
  else match o.align.getD .right with
    | .left => start ++ digits ++ List.replicate k o.fill
    | .right => List.replicate k o.fill ++ (start ++ digits)
    | .center => List.replicate (k / 2) o.fill ++ (start ++ digits) ++ List.replicate ((k + 1) / 2) o.fill

/-- `Debug` of a builtin integer of type `t`: `LowerHex` or `UpperHex`, which write the two's complement, if asked for, `Display` if not. -/
def int (o : DFmt) (t : IntTy) (v : Int) : List Char :=
  match o.hex with
  | none => o.padIntegral (decide (0 ≤ v)) [] (decimal v.natAbs)
  | some upper =>
    let digits := Nat.toDigits 16 (v % (t.hi - t.lo + 1)).toNat
    o.padIntegral true ['0', 'x'] (if upper then digits.map Char.toUpper else digits)

end DFmt

namespace Debug

/-- std's `PadAdapter`: four blanks before each line; `start` says that a line begins. -/
def indent : Bool → List Char → List Char
  | _, [] => []
  | start, c :: cs => (if start then [' ', ' ', ' ', ' '] else []) ++ c :: indent (c == '\n') cs

/-- Items between commas, as the three builders write them with `{:?}`. -/
def commas : List (List Char) → List Char
  | [] => []
  | [x] => x
  | x :: y :: xs => x ++ [',', ' '] ++ commas (y :: xs)

/-- Items on lines of their own, as the three builders write them with `{:#?}`: each through a new `PadAdapter`. -/
def lines (xs : List (List Char)) : List Char := xs.flatMap fun x => indent true (x ++ [',', '\n'])

/-- std's `Formatter::debug_tuple`: derived for `struct Name(…)` and, without name, for the tuples of two or more fields of std. -/
def tuple (alt : Bool) (name : String) (fields : List (List Char)) : List Char :=
  if fields.isEmpty then name.toList
  else if alt then name.toList ++ ['(', '\n'] ++ lines fields ++ [')'] else name.toList ++ ['('] ++ commas fields ++ [')']

/-- std's `Formatter::debug_struct`: derived for `struct Name { … }`; the fields with their names. -/
def struct (alt : Bool) (name : String) (fields : List (String × List Char)) : List Char :=
  let fs := fields.map fun f => f.1.toList ++ [':', ' '] ++ f.2
  if fields.isEmpty then name.toList
  else if alt then name.toList ++ [' ', '{', '\n'] ++ lines fs ++ ['}'] else name.toList ++ [' ', '{', ' '] ++ commas fs ++ [' ', '}']

/-- std's `Formatter::debug_list`, for arrays and vectors. -/
def list (alt : Bool) (items : List (List Char)) : List Char :=
  if alt && !items.isEmpty then ['[', '\n'] ++ lines items ++ [']'] else ['['] ++ commas items ++ [']']

/-- `Debug` of std's `Option`. -/
def option (alt : Bool) : Option (List Char) → List Char
  | none => "None".toList
  | some t => tuple alt "Some" [t]

/-- `Debug` of std's `PhantomData<P>`; `name` is `std::any::type_name::<P>()`, a text that depends on the compiler. -/
def phantom (name : String) : List Char := ("PhantomData<" ++ name ++ ">").toList

/-- `Debug` of a pair of builtin integers of types `t` and `u`. -/
def pair (o : DFmt) (t u : IntTy) (p : Int × Int) : List Char := tuple o.alt "" [o.int t p.1, o.int u p.2]

/-- Derived `Debug` of `Pos`, pos.rs:74-75; that of the bounded integers (boundedint.rs:262-266) does not depend on the options. -/
def pos (o : DFmt) (p : Int × Int) : List Char :=
  tuple o.alt "Pos" [tuple o.alt "" [BTy.boundedDebug o.toFmt p.1, BTy.boundedDebug o.toFmt p.2]]

/-- Derived `Debug` of `Error`, error.rs:16-36: the name of the variant, written with `write_str`, which uses no options. -/
def error : Error → List Char
  | .outOfBounds => "OutOfBounds".toList
  | .invalidDirection => "InvalidDirection".toList
  | .dirParseError => "DirParseError".toList
  | .invalidMovement => "InvalidMovement".toList
  | .loop => "Loop".toList
  | .destinationUnreachable => "DestinationUnreachable".toList
  | .empty => "Empty".toList

/-- Derived `Debug` of `Sqrid`, base.rs:19-26. -/
def sqrid (o : DFmt) : List Char := struct o.alt "Sqrid" []

/-- Derived `Debug` of `Gridbool`, gridbool.rs:57-58. -/
def gridbool (o : DFmt) (name : String) (g : List (BitVec 32)) : List Char :=
  tuple o.alt "Gridbool" [list o.alt (g.map fun w => o.int .u32 w.toNat), phantom name]

/-- Derived `Debug` of `Grid`, grid.rs:61-62; `item` is `Debug` of the elements. -/
def grid (o : DFmt) (name : String) (item : α → List Char) (g : List α) : List Char := tuple o.alt "Grid" [list o.alt (g.map item), phantom name]

/-- Derived `Debug` of `BoundedIntIterator`, boundedint.rs:139-145; `item` is `Debug` of the integers. -/
def boundedIter (o : DFmt) (item : Int → List Char) (it : BIter) : List Char :=
  struct o.alt "BoundedIntIterator" [("start", option o.alt (it.start.map item)), ("end", option o.alt (it.stop.map item))]

/-- Derived `Debug` of `DirIter`, dir.rs:338-339. -/
def dirIter (o : DFmt) (it : DirIter) : List Char := tuple o.alt "DirIter" [option o.alt (it.map Dir.debug)]

/-- Derived `Debug` of `PosTIter`, postrait.rs:429-434; `p` is `Debug` of the positions. -/
def posIter (o : DFmt) (name : String) (p : Int × Int → List Char) (it : PosIter) : List Char :=
  struct o.alt "PosTIter" [("cur", option o.alt (it.cur.map p)), ("end", option o.alt (it.stop.map p)), ("p", phantom name)]

/-- Derived `Debug` of `PosTIterRange`, postrait.rs:492-497. -/
def posIterRange (o : DFmt) (p : Int × Int → List Char) (it : PosIterRange) : List Char :=
  struct o.alt "PosTIterRange" [("topleft", p it.topleft), ("botright", p it.botright), ("value", option o.alt (it.value.map p))]

/-- Derived `Debug` of `PosTIterInX`, postrait.rs:541-542. -/
def posIterInX (o : DFmt) (p : Int × Int → List Char) (it : Option (Int × Int)) : List Char := tuple o.alt "PosTIterInX" [option o.alt (it.map p)]

/-- Derived `Debug` of `PosTIterInY`, postrait.rs:563-564. -/
def posIterInY (o : DFmt) (p : Int × Int → List Char) (it : Option (Int × Int)) : List Char := tuple o.alt "PosTIterInY" [option o.alt (it.map p)]

/-- `Debug` of a pair of a position and a direction. -/
def mov (o : DFmt) (p : Int × Int → List Char) (m : (Int × Int) × Dir) : List Char := tuple o.alt "" [p m.1, m.2.debug]

/-- Derived `Debug` of `BfIterator`, bf.rs:94-100; `set` and `go` are `Debug` of the set and of the closure. -/
def bfIter (o : DFmt) (p : Int × Int → List Char) (S : SetImpl) (set : S.σ → List Char) (go : List Char) (it : BfIter S) : List Char :=
  struct o.alt "BfIterator" [("visited", set it.visited), ("nextfront", list o.alt (it.nextfront.map (mov o p))), ("go", go)]

/-- `Debug` of an entry of the priority queue, `(Reverse(cost), (pos, dir))`. -/
def entry [Target] (o : DFmt) (p : Int × Int → List Char) (e : Entry) : List Char :=
  tuple o.alt "" [tuple o.alt "Reverse" [o.int .usize e.1], mov o p e.2]

/-- Derived `Debug` of `AstarIterator`, astar.rs:62-75, whose queue prints the entries in the order of its array; `map` and `go` are `Debug` of the map and of the
closure. -/
def astarIter [Target] (o : DFmt) (p : Int × Int → List Char) (C : MapImpl Int) (map : C.σ → List Char) (go : List Char) (dest : Int × Int)
    (it : AstarIterQ .binaryHeap C) : List Char :=
  struct o.alt "AstarIterator" [("cost", map it.cost), ("frontier", list o.alt (List.map (entry o p) it.frontier)), ("go", go), ("dest", p dest)]

/-- Derived `Debug` of `UcsIterator`, ucs.rs:72-84. -/
def ucsIter [Target] (o : DFmt) (p : Int × Int → List Char) (C : MapImpl Int) (map : C.σ → List Char) (go : List Char) (it : UcsIterQ .binaryHeap C) : List Char :=
  struct o.alt "UcsIterator" [("cost", map it.cost), ("frontier", list o.alt (List.map (entry o p) it.frontier)), ("go", go)]

end Debug

end Sqrid
