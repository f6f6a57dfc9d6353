import Verif.Model.Grid
/-!
# Model of /repo/src/sqrid/gridbool.rs and of the size macros

A `Gridbool<P, WORDS>` (gridbool.rs:57-58) is the list of the WORDS 32-bit words of its array.
-/

namespace Sqrid

namespace Gridbool

/-- The static check `_ASSERTS`, gridbool.rs:64-68, evaluated when `repeat` is compiled (gridbool.rs:84), with `usize` constants: an overflow is
a compile error too, also the one of `WORDS * 32 - 32` for WORDS = 0, which is only reached when there are no cells at all; as everything that is
not `true` is a compile error, the order of the checks does not matter. -/
def staticOk [Target] (T : PosTy) (WORDS : Nat) : Bool :=
  decide (IntTy.usize.Has (T.WIDTH * T.HEIGHT) ∧ IntTy.usize.Has ((WORDS : Int) * 32) ∧ IntTy.usize.Has ((WORDS : Int) * 32 - 32)) &&
    (decide (T.WIDTH * T.HEIGHT ≤ (WORDS : Int) * 32) && decide (T.WIDTH * T.HEIGHT ≥ (WORDS : Int) * 32 - 32))

/-- WORDS as computed by `gridbool_create!`, gridbool.rs:38-44. -/
def wordsGridboolCreate (xmax ymax : Nat) : Nat := ((xmax + 1) * (ymax + 1) + 31) / 32

/-- WORDS as computed by `sqrid_create!`, base.rs:49, 58. -/
def wordsSqridCreate (xmax ymax : Nat) : Nat := ((xmax + 1) * (ymax + 1)) / 32 + 1

/-- SIZE as computed by `sqrid_create!`, base.rs:50, 59. -/
def sizeSqridCreate (xmax ymax : Nat) : Nat := (xmax + 1) * (ymax + 1)

/-- `Gridbool::repeat`, gridbool.rs:83-91 (`WORD_TRUE`, `WORD_FALSE`: 70-71). -/
def «repeat» (WORDS : Nat) (value : Bool) : List (BitVec 32) :=
  List.replicate WORDS (if value then 0xFFFFFFFF#32 else 0#32)

/-- `ALL_TRUE`, gridbool.rs:77. -/
def ALL_TRUE (WORDS : Nat) : List (BitVec 32) := «repeat» WORDS true
/-- `ALL_FALSE`, gridbool.rs:79, and `Default`, gridbool.rs:265-269. -/
def ALL_FALSE (WORDS : Nat) : List (BitVec 32) := «repeat» WORDS false

/-- `byte_bit`, gridbool.rs:94-98. -/
def byteBit (i : Nat) : Nat × BitVec 32 := (i / 32, 0x80000000#32 >>> (i % 32))

/-- `set_t`, gridbool.rs:102-105. -/
def setT [Target] (T : PosTy) (gb : List (BitVec 32)) (p : Int × Int) : Out (List (BitVec 32)) := do
  let i ← T.toUsize p
  let (byte, bit) := byteBit i.toNat
  match gb[byte]? with
  | some w => .ok (gb.set byte (w ||| bit))
  | none => .panic

/-- `set_f`, gridbool.rs:109-112. -/
def setF [Target] (T : PosTy) (gb : List (BitVec 32)) (p : Int × Int) : Out (List (BitVec 32)) := do
  let i ← T.toUsize p
  let (byte, bit) := byteBit i.toNat
  match gb[byte]? with
  | some w => .ok (gb.set byte (w &&& ~~~bit))
  | none => .panic

/-- `set`, gridbool.rs:116-122. -/
def set [Target] (T : PosTy) (gb : List (BitVec 32)) (p : Int × Int) (value : Bool) : Out (List (BitVec 32)) :=
  if value then setT T gb p else setF T gb p

/-- `get`, gridbool.rs:126-129, and `Index`, gridbool.rs:273-299. -/
def get [Target] (T : PosTy) (gb : List (BitVec 32)) (p : Int × Int) : Out Bool := do
  let i ← T.toUsize p
  let (byte, bit) := byteBit i.toNat
  match gb[byte]? with
  | some w => .ok (decide (w &&& bit ≠ 0#32))
  | none => .panic

/-- `iter`, gridbool.rs:151-153. -/
def iter [Target] (T : PosTy) (gb : List (BitVec 32)) : Out (List Bool) := do
  let ps ← PosIter.toList T true
  ps.mapM fun p => get T gb p

/-- `iter_pos`, gridbool.rs:157-162. -/
def iterPos [Target] (T : PosTy) (gb : List (BitVec 32)) : Out (List ((Int × Int) × Bool)) := do
  let ps ← PosIter.toList T true
  ps.mapM fun p => do
    let v ← get T gb p
    .ok (p, v)

/-- `Iterator::filter` with a predicate that can panic. -/
def filterOut (f : (Int × Int) → Out Bool) : List (Int × Int) → Out (List (Int × Int))
  | [] => .ok []
  | p :: ps => do
    let b ← f p
    let rest ← filterOut f ps
    .ok (if b then p :: rest else rest)

/-- `iter_t`, gridbool.rs:166-168. -/
def iterT [Target] (T : PosTy) (gb : List (BitVec 32)) : Out (List (Int × Int)) := do
  let ps ← PosIter.toList T true
  filterOut (fun p => get T gb p) ps

/-- `iter_f`, gridbool.rs:172-174. -/
def iterF [Target] (T : PosTy) (gb : List (BitVec 32)) : Out (List (Int × Int)) := do
  let ps ← PosIter.toList T true
  filterOut (fun p => do let b ← get T gb p; .ok (!b)) ps

/-- `set_iter_t`, gridbool.rs:178-182. -/
def setIterT [Target] (T : PosTy) (gb : List (BitVec 32)) (ps : List (Int × Int)) : Out (List (BitVec 32)) :=
  ps.foldlM (fun gb p => setT T gb p) gb

/-- `set_iter_f`, gridbool.rs:186-190. -/
def setIterF [Target] (T : PosTy) (gb : List (BitVec 32)) (ps : List (Int × Int)) : Out (List (BitVec 32)) :=
  ps.foldlM (fun gb p => setF T gb p) gb

/-- Body of the loops of `flip_h`, gridbool.rs:196-200. -/
def flipHStep [Target] (T : PosTy) (gb : List (BitVec 32)) (xy : Int × Int) : Out (List (BitVec 32)) := do
  let pos1 ← Out.unwrapRes (T.newX xy.1 xy.2)
  let pos2 ← T.flipH pos1
  let tmp ← get T gb pos1
  let v2 ← get T gb pos2
  let gb ← set T gb pos1 v2
  set T gb pos2 tmp

/-- `flip_h`, gridbool.rs:193-203. -/
def flipH [Target] (T : PosTy) (gb : List (BitVec 32)) : Out (List (BitVec 32)) := do
  let ys ← T.Y.toList
  let w ← T.width
  ys.foldlM (fun gb y => (rustRange 0 (w / 2)).foldlM (fun gb x => flipHStep T gb (x, y)) gb) gb

/-- Body of the loops of `flip_v`, gridbool.rs:209-213. -/
def flipVStep [Target] (T : PosTy) (gb : List (BitVec 32)) (xy : Int × Int) : Out (List (BitVec 32)) := do
  let pos1 ← Out.unwrapRes (T.newY xy.1 xy.2)
  let pos2 ← T.flipV pos1
  let tmp ← get T gb pos1
  let v2 ← get T gb pos2
  let gb ← set T gb pos1 v2
  set T gb pos2 tmp

/-- `flip_v`, gridbool.rs:206-216. -/
def flipV [Target] (T : PosTy) (gb : List (BitVec 32)) : Out (List (BitVec 32)) := do
  let h ← T.height
  let xs ← T.X.toList
  (rustRange 0 (h / 2)).foldlM (fun gb y => xs.foldlM (fun gb x => flipVStep T gb (x, y)) gb) gb

/-- Body of the loops of `rotate_cw`, gridbool.rs:225-238, on `Pos<M, M>`. -/
def rotateCwStep [Target] (M : Int) (gb : List (BitVec 32)) (xy : Int × Int) : Out (List (BitVec 32)) := do
  let pos0 ← Out.unwrapRes (Pos.new M M xy.1 xy.2)
  let pos1 ← (PosTy.pos M M).rotateCw pos0
  let pos2 ← (PosTy.pos M M).rotateCw pos1
  let pos3 ← (PosTy.pos M M).rotateCw pos2
  let v0 ← get (PosTy.pos M M) gb pos0
  let v1 ← get (PosTy.pos M M) gb pos1
  let v2 ← get (PosTy.pos M M) gb pos2
  let v3 ← get (PosTy.pos M M) gb pos3
  let gb ← set (PosTy.pos M M) gb pos0 v3
  let gb ← set (PosTy.pos M M) gb pos1 v0
  let gb ← set (PosTy.pos M M) gb pos2 v1
  set (PosTy.pos M M) gb pos3 v2

/-- `rotate_cw`, gridbool.rs:222-241. -/
def rotateCw [Target] (M : Int) (gb : List (BitVec 32)) : Out (List (BitVec 32)) :=
  (rustRange 0 (M / 2)).foldlM
    (fun gb y => (rustRange y (M - y)).foldlM (fun gb x => rotateCwStep M gb (x, y)) gb) gb

/-- Body of the loops of `rotate_cc`, gridbool.rs:246-259. -/
def rotateCcStep [Target] (M : Int) (gb : List (BitVec 32)) (xy : Int × Int) : Out (List (BitVec 32)) := do
  let pos0 ← Out.unwrapRes (Pos.new M M xy.1 xy.2)
  let pos1 ← (PosTy.pos M M).rotateCw pos0
  let pos2 ← (PosTy.pos M M).rotateCw pos1
  let pos3 ← (PosTy.pos M M).rotateCw pos2
  let v0 ← get (PosTy.pos M M) gb pos0
  let v1 ← get (PosTy.pos M M) gb pos1
  let v2 ← get (PosTy.pos M M) gb pos2
  let v3 ← get (PosTy.pos M M) gb pos3
  let gb ← set (PosTy.pos M M) gb pos0 v1
  let gb ← set (PosTy.pos M M) gb pos1 v2
  let gb ← set (PosTy.pos M M) gb pos2 v3
  set (PosTy.pos M M) gb pos3 v0

/-- `rotate_cc`, gridbool.rs:243-262. -/
def rotateCc [Target] (M : Int) (gb : List (BitVec 32)) : Out (List (BitVec 32)) :=
  (rustRange 0 (M / 2)).foldlM
    (fun gb y => (rustRange y (M - y)).foldlM (fun gb x => rotateCcStep M gb (x, y)) gb) gb

/-- `FromIterator<P>`, gridbool.rs:303-313. -/
def fromPositions [Target] (T : PosTy) (WORDS : Nat) (items : List (Int × Int)) : Out (List (BitVec 32)) :=
  setIterT T (ALL_FALSE WORDS) items

/-- The loop of `FromIterator<bool>`, gridbool.rs:323-329. -/
def fromBoolsLoop [Target] (T : PosTy) : List (Int × Int) → List Bool → List (BitVec 32) → Out (List (BitVec 32) × List Bool)
  | [], items, gb => .ok (gb, items)
  | _ :: _, [], _ => .panic
  | p :: ps, b :: items, gb => do
    let gb ← set T gb p b
    fromBoolsLoop T ps items gb

/-- `FromIterator<bool>`, gridbool.rs:315-333 (the iterator is given by the list of its items, as for `Grid.fromIter`). -/
def fromBools [Target] (T : PosTy) (WORDS : Nat) (items : List Bool) : Out (List (BitVec 32)) := do
  let ps ← PosIter.toList T true
  let (gb, rest) ← fromBoolsLoop T ps items (ALL_FALSE WORDS)
  if rest.isEmpty then .ok gb else .panic

/-- The derived `==`, gridbool.rs:57: all words are compared. -/
def beq (a b : List (BitVec 32)) : Bool := decide (a = b)

end Gridbool

end Sqrid
