import Verif.Model.Conv
import Verif.Model.Bf
import Verif.Model.Ucs
/-!
# Model of the derived `Hash` implementations, and of hash sets and maps with any hash function

`Hash::hash` makes a sequence of calls to the hasher. The derived implementations hash the fields one after the other; the field `PhantomData` of the grids
makes no call.
-/

namespace Sqrid

/-- A call to std's `Hasher`. -/
inductive HCall where
  /-- `write_u8`, …, `write_isize`: an integer of the type -/
  | int (t : IntTy) (v : Int)
  /-- `write` with the bytes of some integers of the type -/
  | ints (t : IntTy) (vs : List Int)
  deriving DecidableEq, Repr

/-- Derived `Hash` of the bounded integers (boundedint.rs:309-360): that of the integer; std for the builtin integers. -/
def BTy.hash (B : BTy) (v : Int) : List HCall := [.int B.base v]

/-- Derived `Hash` of `Pos` (pos.rs:74-75): that of the pair, which is that of its two items; std for the tuples. -/
def PosTy.hash (T : PosTy) (p : Int × Int) : List HCall := T.X.hash p.1 ++ T.Y.hash p.2

/-- Derived `Hash` of `Dir` (dir.rs:26-27): that of the discriminant as an `isize`. -/
def Dir.hash [Target] (d : Dir) : List HCall := [.int IntTy.isize d.toIdx]

/-- Derived `Hash` of `Grid` (grid.rs:61-62): that of the array, which is its length followed by its items. `h` is `T`'s `hash`. -/
def Grid.hash [Target] (h : α → List HCall) (g : List α) : List HCall := .int IntTy.usize g.length :: g.flatMap h

/-- Derived `Hash` of `Gridbool` (gridbool.rs:57-58): that of the array of `u32`, which is its length followed by all the bytes in a single call. -/
def Gridbool.hash [Target] (gb : List (BitVec 32)) : List HCall :=
  [.int IntTy.usize gb.length, .ints IntTy.u32 (gb.map fun w => (w.toNat : Int))]

/-- `SetPos for HashSet` (setpos.rs:47-61) with `h` as the hash function: only the elements with the same hash are compared with the given one.
Std's table is simplified to one list for each value of the hash function; it does not grow. -/
def SetImpl.table (T : PosTy) (h : List HCall → Nat) : SetImpl where
  σ := Nat → List (Int × Int)
  default := fun _ => []
  contains := fun s p => .ok (decide (p ∈ s (h (T.hash p))))
  insert := fun s p => .ok fun k => if k = h (T.hash p) then SetImpl.hashInsert (s k) p else s k
  remove := fun s p => .ok fun k => if k = h (T.hash p) then (s k).filter fun q => decide (q ≠ p) else s k

/-- `MapPos for (HashMap<P, Item>, Item)` (mappos.rs:56-70) with `h` as the hash function. Simplified as the set. -/
def MapImpl.table (T : PosTy) (h : List HCall → Nat) (dflt : Item) : MapImpl Item where
  σ := (Nat → List ((Int × Int) × Item)) × Item
  default := (fun _ => [], dflt)
  new := fun item => (fun _ => [], item)
  get := fun s p => .ok ((MapImpl.hashGet (s.1 (h (T.hash p))) p).getD s.2)
  set := fun s p v => .ok (fun k => if k = h (T.hash p) then MapImpl.hashInsert (s.1 k) p v else s.1 k, s.2)

/-- `bf_iter_hash` (bf.rs:261-276) with `h` as the hash function. -/
def Bf.iterTable (T : PosTy) (h : List HCall → Nat) := Bf.iterAll (.table T h)

/-- `bf::search_path_hash` (bf.rs:312-335) with `h1` and `h2` as the hash functions of the set and of the map: each of them has its own `RandomState`. -/
def Bf.pathTable [Target] (T : PosTy) (h1 h2 : List HCall → Nat) (D : Bool) := Bf.searchPath T (.table T h1) (.table T h2 none) D

/-- `astar::search_path_hash` (astar.rs:221-243) with `h1` and `h2` as the hash functions of the two maps. -/
def Astar.pathTable [Target] (T : PosTy) (h1 h2 : List HCall → Nat) (D : Bool) := Astar.searchPath T (.table T h1 none) (.table T h2 0) D

/-- `ucs::search_path_hash` (ucs.rs:229-251) with `h1` and `h2` as the hash functions of the two maps. -/
def Ucs.pathTable [Target] (T : PosTy) (h1 h2 : List HCall → Nat) (D : Bool) := Ucs.searchPath T (.table T h1 none) (.table T h2 0) D

end Sqrid
