import Verif.Model.BoundedInt
import Verif.Model.Iter
/-!
# Model of /repo/src/sqrid/dir.rs
-/

namespace Sqrid

/-- `Dir`, dir.rs:27-45. -/
inductive Dir where
  | N | NE | E | SE | S | SW | W | NW
  deriving DecidableEq, Repr

namespace Dir

/-- `dir as usize`: the discriminants, dir.rs:27-45. -/
def toIdx : Dir → Nat
  | N => 0 | NE => 1 | E => 2 | SE => 3 | S => 4 | SW => 5 | W => 6 | NW => 7

/-- `Dir::SIZE`, dir.rs:49. -/
def SIZE : Nat := 8

/-- `Dir::ALL8`, dir.rs:54-63. -/
def ALL8 : List Dir := [N, NE, E, SE, S, SW, W, NW]

/-- `Dir::ALL4`, dir.rs:66. -/
def ALL4 : List Dir := [N, E, S, W]

/-- `Dir::ALL8[i]`: indexing an array panics when out of range. -/
def all8At (i : Nat) : Out Dir := Out.unwrap ALL8[i]?

/-- `Dir::NAMES_CARDINAL`, dir.rs:71. -/
def NAMES_CARDINAL : List (List Char) :=
  [['N'], ['N', 'E'], ['E'], ['S', 'E'], ['S'], ['S', 'W'], ['W'], ['N', 'W']]

/-- `Dir::NAMES_UTF8_CHAR`, dir.rs:90-99. -/
def NAMES_UTF8_CHAR : List Char :=
  ['↑', '↗', '→', '↘', '↓', '↙', '←', '↖']

/-- `Dir::NAMES_UTF8`, dir.rs:76-85 (one-character strings). -/
def NAMES_UTF8 : List (List Char) :=
  [['↑'], ['↗'], ['→'], ['↘'], ['↓'], ['↙'], ['←'], ['↖']]

/-- `Dir::NAMES_ASCII_CHAR`, dir.rs:109. -/
def NAMES_ASCII_CHAR : List Char := ['^', '7', '>', '\\', 'v', 'L', '<', '`']

/-- `Dir::NAMES_ASCII`, dir.rs:104 (one-character strings). -/
def NAMES_ASCII : List (List Char) := [['^'], ['7'], ['>'], ['\\'], ['v'], ['L'], ['<'], ['`']]

/-- `Dir::is_diagonal`, dir.rs:112-114. -/
def isDiagonal (d : Dir) : Bool := d.toIdx % 2 == 1

/-- `Dir::name_cardinal`, dir.rs:118-120. -/
def nameCardinal (d : Dir) : Out (List Char) := Out.unwrap NAMES_CARDINAL[d.toIdx]?

/-- `Dir::name_utf8`, dir.rs:124-126. -/
def nameUtf8 (d : Dir) : Out (List Char) := Out.unwrap NAMES_UTF8[d.toIdx]?

/-- `Dir::name_utf8_char`, dir.rs:130-132. -/
def nameUtf8Char (d : Dir) : Out Char := Out.unwrap NAMES_UTF8_CHAR[d.toIdx]?

/-- `Dir::name_ascii`, dir.rs:136-138. -/
def nameAscii (d : Dir) : Out (List Char) := Out.unwrap NAMES_ASCII[d.toIdx]?

/-- `Dir::name_ascii_char`, dir.rs:142-144. -/
def nameAsciiChar (d : Dir) : Out Char := Out.unwrap NAMES_ASCII_CHAR[d.toIdx]?

/-- `Dir::flip`, dir.rs:148-150, and `Neg`, dir.rs:191-196. -/
def flip (d : Dir) : Out Dir := all8At ((d.toIdx + 4) % SIZE)

/-- `Dir::rotate`, dir.rs:154-156, and `Add`, dir.rs:198-203. -/
def rotate (d other : Dir) : Out Dir := all8At ((d.toIdx + other.toIdx) % SIZE)

/-- `AddAssign`, dir.rs:205-209: the new value of `*self`. -/
def addAssign (d other : Dir) : Out Dir := d.rotate other

/-- `Dir::next::<D>`, dir.rs:166-176. -/
def next (D : Bool) (d : Dir) : Out (Option Dir) :=
  let index := d.toIdx
  if (D && index == 7) || (!D && index == 6) then .ok none
  else if D then do
    let r ← all8At (d.toIdx + 1)
    .ok (some r)
  else do
    let r ← all8At (d.toIdx + 2)
    .ok (some r)

/-- `From<Dir> for ($t, $t)`, dir.rs:215-229. -/
def toTuple : Dir → Int × Int
  | N => (0, -1)
  | NE => (1, -1)
  | E => (1, 0)
  | SE => (1, 1)
  | S => (0, 1)
  | SW => (-1, 1)
  | W => (-1, 0)
  | NW => (-1, -1)

/-- `TryFrom<&($t, $t)> for Dir`, dir.rs:230-245 (and the by-value variant, dir.rs:300-308). -/
def ofTuple (xy : Int × Int) : Res Dir :=
  if xy = (0, -1) then .ok N
  else if xy = (1, -1) then .ok NE
  else if xy = (1, 0) then .ok E
  else if xy = (1, 1) then .ok SE
  else if xy = (0, 1) then .ok S
  else if xy = (-1, 1) then .ok SW
  else if xy = (-1, 0) then .ok W
  else if xy = (-1, -1) then .ok NW
  else .error .invalidDirection

/-- `TryFrom<char> for Dir`, dir.rs:255-286. -/
def ofChar (c : Char) : Res Dir :=
  if c = 'N' then .ok N
  else if c = 'E' then .ok E
  else if c = 'S' then .ok S
  else if c = 'W' then .ok W
  else if c = 'n' then .ok N
  else if c = 'e' then .ok E
  else if c = 's' then .ok S
  else if c = 'w' then .ok W
  else if c = '↑' then .ok N
  else if c = '↗' then .ok NE
  else if c = '→' then .ok E
  else if c = '↘' then .ok SE
  else if c = '↓' then .ok S
  else if c = '↙' then .ok SW
  else if c = '←' then .ok W
  else if c = '↖' then .ok NW
  else if c = '^' then .ok N
  else if c = '7' then .ok NE
  else if c = '>' then .ok E
  else if c = '\\' then .ok SE
  else if c = 'v' then .ok S
  else if c = 'L' then .ok SW
  else if c = '<' then .ok W
  else if c = '`' then .ok NW
  else .error .dirParseError

/-- `FromStr for Dir`, dir.rs:288-298; a string is its list of `char`s. -/
def fromStr (s : List Char) : Res Dir :=
  match s with
  | [] => .error .dirParseError
  | c :: rest =>
    match rest with
    | _ :: _ => .error .dirParseError
    | [] => ofChar c

/-- `Display for Dir`, dir.rs:310-314. -/
def display (d : Dir) : Out (List Char) := d.nameCardinal

/-- Comparison of the derived `Ord` (by discriminant), dir.rs:26. -/
def lt (a b : Dir) : Bool := a.toIdx < b.toIdx

end Dir

/-- `DirIter`, dir.rs:339. -/
abbrev DirIter := Option Dir

namespace DirIter

/-- `DirIter::default` / `Dir::iter`, dir.rs:184-186, 341-345 (`Dir::default()` is `N`, dir.rs:29-30). -/
def default : DirIter := some Dir.N

/-- `DirIter::next`, dir.rs:350-357. -/
def next (D : Bool) (s : DirIter) : Out (Option Dir × DirIter) :=
  match s with
  | some i => do
    let n ← i.next D
    .ok (some i, n)
  | none => .ok (none, none)

/-- `DirIter::size_hint`, dir.rs:358-364. -/
def sizeHint (D : Bool) (_ : DirIter) : Int × Option Int := if D then (8, some 8) else (4, some 4)

/-- `for dir in Dir::iter::<D>()`: the directions visited. The fuel (9 calls) is enough, see C26. -/
def toList (D : Bool) : Out (List Dir) := collectWith (DirIter.next D) 9 DirIter.default

end DirIter

/-- `Add<Dir> for (T, U)`, dir.rs:369-388 (and by reference, dir.rs:390-396). -/
def tupleAddDir (X Y : BTy) (p : Int × Int) (d : Dir) : Res (Int × Int) :=
  let (x_opt, y_opt) : Option Int × Option Int :=
    match d with
    | .N => (some p.1, Y.dec p.2)
    | .NE => (X.inc p.1, Y.dec p.2)
    | .E => (X.inc p.1, some p.2)
    | .SE => (X.inc p.1, Y.inc p.2)
    | .S => (some p.1, Y.inc p.2)
    | .SW => (X.dec p.1, Y.inc p.2)
    | .W => (X.dec p.1, some p.2)
    | .NW => (X.dec p.1, Y.dec p.2)
  match x_opt with
  | none => .error .outOfBounds
  | some x =>
    match y_opt with
    | none => .error .outOfBounds
    | some y => .ok (x, y)

end Sqrid
