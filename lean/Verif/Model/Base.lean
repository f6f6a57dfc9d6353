import Verif.Model.Ucs
import Verif.Model.Astar
import Verif.Model.Bf
import Verif.Model.Gridbool
/-!
# Model of src/sqrid/base.rs and of the functions added to `Sqrid` by the other modules

The type `Sqrid<XMAX, YMAX, D, WORDS, SIZE>` has no values; its const parameters are the fields of `SqridTy`. The position type `P` of each function is a
parameter of its own, which nothing relates to XMAX and YMAX.
-/

namespace Sqrid

/-- The const parameters of `Sqrid`, base.rs:20-26. -/
structure SqridTy where
  /-- XMAX -/
  XMAX : Nat
  /-- YMAX -/
  YMAX : Nat
  /-- whether the diagonals are used -/
  D : Bool
  /-- `u32`s of a `Gridbool` -/
  WORDS : Nat
  /-- cells of a `Grid` -/
  SIZE : Nat

namespace SqridTy

/-- `sqrid_create!(xmax, ymax, diags)`, base.rs:43-51. -/
def create (xmax ymax : Nat) (diags : Bool) : SqridTy where
  XMAX := xmax
  YMAX := ymax
  D := diags
  WORDS := Gridbool.wordsSqridCreate xmax ymax
  SIZE := Gridbool.sizeSqridCreate xmax ymax

/-- `pos_create!`, pos.rs:84-89. -/
def posCreate (S : SqridTy) : PosTy := PosTy.pos S.XMAX S.YMAX

/-- `sqrid_create!(postype, diags)`, base.rs:52-60, for `Pos<xmax, ymax>`, whose constants XMAX and YMAX are its parameters (pos.rs:93, 95). -/
def createPos (postype : Nat × Nat) (diags : Bool) : SqridTy where
  XMAX := postype.1
  YMAX := postype.2
  D := diags
  WORDS := ((postype.1 + 1) * (postype.2 + 1)) / 32 + 1
  SIZE := (postype.1 + 1) * (postype.2 + 1)

/-- SIZE of `grid_create!`, grid.rs:39-46. -/
def gridCreateSize (S : SqridTy) : Nat := (S.XMAX + 1) * (S.YMAX + 1)

/-- WORDS of `gridbool_create!`, gridbool.rs:38-44. -/
def gridboolCreateWords (S : SqridTy) : Nat := Gridbool.wordsGridboolCreate S.XMAX S.YMAX

/-- Whether a call that makes a `Gridbool<P, WORDS>` compiles: `_ASSERTS`, gridbool.rs:64-68, 84. The check of `Grid`, grid.rs:68-71, is never evaluated. -/
def compiles [Target] (S : SqridTy) (P : PosTy) : Bool := Gridbool.staticOk P S.WORDS

/-- `Sqrid::bf_iter`, bf.rs:374-384. -/
def bfIter [Target] (S : SqridTy) (P : PosTy) := Bf.iterGrid P S.WORDS S.D
/-- `Sqrid::bf_iter_hash`, bf.rs:403-414. -/
def bfIterHash (S : SqridTy) := Bf.iterHash S.D
/-- `Sqrid::bf_iter_btree`, bf.rs:419-430. -/
def bfIterBtree (S : SqridTy) := Bf.iterBtree S.D

/-- `Sqrid::bfs_path`, bf.rs:440-454. -/
def bfsPath [Target] (S : SqridTy) (P : PosTy) := Bf.pathGrid P S.WORDS S.SIZE S.D
/-- `Sqrid::bfs_path_hash`, bf.rs:477-491. -/
def bfsPathHash [Target] (S : SqridTy) (P : PosTy) := Bf.pathHash P S.D
/-- `Sqrid::bfs_path_btree`, bf.rs:496-510. -/
def bfsPathBtree [Target] (S : SqridTy) (P : PosTy) := Bf.pathBtree P S.D

/-- `Sqrid::astar_path`, astar.rs:277-286. -/
def astarPath [Target] (S : SqridTy) (P : PosTy) := Astar.pathGrid P S.SIZE S.D
/-- `Sqrid::astar_path_hash`, astar.rs:303-313. -/
def astarPathHash [Target] (S : SqridTy) (P : PosTy) := Astar.pathHash P S.D
/-- `Sqrid::astar_path_btree`, astar.rs:317-326. -/
def astarPathBtree [Target] (S : SqridTy) (P : PosTy) := Astar.pathBtree P S.D

/-- `Sqrid::ucs_path`, ucs.rs:285-294. -/
def ucsPath [Target] (S : SqridTy) (P : PosTy) := Ucs.pathGrid P S.SIZE S.D
/-- `Sqrid::ucs_path_hash`, ucs.rs:311-321. -/
def ucsPathHash [Target] (S : SqridTy) (P : PosTy) := Ucs.pathHash P S.D
/-- `Sqrid::ucs_path_btree`, ucs.rs:326-335. -/
def ucsPathBtree [Target] (S : SqridTy) (P : PosTy) := Ucs.pathBtree P S.D

end SqridTy

end Sqrid
