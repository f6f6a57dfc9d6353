import Verif.Model.Conv
import Verif.Model.Base
import Verif.Spec.Target
/-!
# The tests of the repository, run on the model

Nothing here is a proof of a property: each `example` is an assertion of the test suite of the crate (/repo/tests), evaluated by the kernel on the model. Where
the model differed from the program these would fail.
-/

namespace Sqrid.Tests

attribute [local instance] debug64

set_option maxRecDepth 8000

/-! ## boundedint_tests.rs -/

/-- `_test_boundedint_trait_basic`, boundedint_tests.rs:18-39. -/
def boundedintBasic (B : BTy) (unsigned : Bool) : Bool :=
  match B.tryFrom 5 with
  | .error _ => false
  | .ok i5 =>
    (B.toUsize i5).toOption == some 5 && B.checkedAdd i5 i5 == (B.tryFrom 10).toOption && B.checkedSub i5 i5 == (B.tryFrom 0).toOption &&
      B.inc i5 == (B.tryFrom 6).toOption && B.dec i5 == (B.tryFrom 4).toOption && (!unsigned || B.dec B.default == none)

/-- boundedint_tests.rs:41-75. -/
example : (∀ t ∈ [IntTy.u8, .u16, .u32, .u64, .u128], boundedintBasic (.prim t) true = true ∧ boundedintBasic (.bounded t 0 20) true = true) ∧
    (∀ t ∈ [IntTy.i8, .i16, .i32, .i64, .i128], boundedintBasic (.prim t) false = true ∧ boundedintBasic (.bounded t 0 20) false = true) := by decide

/-- `type BI8 = BoundedI8<-2, 5>`, boundedint_tests.rs:77. -/
abbrev BI8 : BTy := .bounded .i8 (-2) 5

/-- `test_bounded_type_construction`, boundedint_tests.rs:79-100. -/
example : BI8.new 2 = .ok 2 ∧ BI8.newUnwrap 2 = .ok 2 ∧ BI8.new (-3) = .error .outOfBounds ∧ BI8.tryFrom 6 = .error .outOfBounds ∧
    BI8.newUnwrap 6 = .panic ∧ BI8.tryFrom 2 = .ok 2 ∧ BI8.toUsize 2 = .ok 2 := by decide

/-- `test_bounded_type_iter`, boundedint_tests.rs:102-127. -/
example : (runSchedule (BIter.next BI8) (BIter.nextBack BI8) [.front, .front, .back, .back] (BIter.iter BI8)).1 = [some (-2), some (-1), some 5, some 4] ∧
    (callN (BIter.next BI8) 9 (BIter.iter BI8)).1 = [some (-2), some (-1), some 0, some 1, some 2, some 3, some 4, some 5, none] ∧
    (callN (BIter.nextBack BI8) 9 (BIter.iter BI8)).1 = [some 5, some 4, some 3, some 2, some 1, some 0, some (-1), some (-2), none] ∧
    (runSchedule (BIter.next BI8) (BIter.nextBack BI8) [.front, .back, .front, .back, .front, .back, .front, .back] (BIter.iter BI8)).1 =
      [some (-2), some 5, some (-1), some 4, some 0, some 3, some 1, some 2] := by decide

/-! ## dir_tests.rs -/

/-- `test_eq_default`, `test_conversions`, `test_errors`, dir_tests.rs:12-49. -/
example : DirIter.default = some .N ∧ Dir.toTuple .N = (0, -1) ∧ Dir.ofTuple (-1, 0) = .ok .W ∧ Dir.ofTuple (2, 0) = .error .invalidDirection := by decide

/-- `test_conversion_coverage`, dir_tests.rs:51-61. -/
example : ∀ d ∈ Dir.ALL8, Dir.ofTuple d.toTuple = .ok d := by decide

/-- The first `n` items of an iterator of directions. -/
def dirItems (D : Bool) : Nat → DirIter → Out (List (Option Dir))
  | 0, _ => .ok []
  | n + 1, s => do
    let r ← DirIter.next D s
    .ok (r.1 :: (← dirItems D n r.2))

/-- `do_test_iter`, dir_tests.rs:63-115. -/
example : DirIter.toList true = .ok [.N, .NE, .E, .SE, .S, .SW, .W, .NW] ∧ DirIter.toList false = .ok [.N, .E, .S, .W] ∧
    (∀ s, DirIter.sizeHint true s = (8, some 8)) ∧ (∀ s, DirIter.sizeHint false s = (4, some 4)) ∧
    dirItems true 16 .default = .ok ([.N, .NE, .E, .SE, .S, .SW, .W, .NW].map some ++ List.replicate 8 none) ∧
    dirItems false 8 .default = .ok ([.N, .E, .S, .W].map some ++ List.replicate 4 none) :=
  ⟨by decide, by decide, fun _ => rfl, fun _ => rfl, by decide, by decide⟩

/-- `test_names`, dir_tests.rs:124-149. -/
example : Dir.nameCardinal .N = .ok ['N'] ∧ Dir.nameCardinal .NE = .ok ['N', 'E'] ∧ Dir.nameUtf8Char .E = .ok '→' ∧
    Dir.nameCardinal .SE = .ok ['S', 'E'] ∧ Dir.nameUtf8 .S = .ok ['↓'] ∧
    (∀ d ∈ Dir.ALL8, ((Dir.ofChar <$> d.nameAsciiChar) = .ok (.ok d)) ∧ ((Dir.fromStr <$> d.nameAscii) = .ok (.ok d)) ∧
      ((Dir.ofChar <$> d.nameUtf8Char) = .ok (.ok d)) ∧ ((Dir.fromStr <$> d.nameUtf8) = .ok (.ok d))) ∧
    (∀ d ∈ Dir.ALL4, (Dir.fromStr <$> d.nameCardinal) = .ok (.ok d)) := by decide

/-- `test_is_diagonal`, dir_tests.rs:151-162. -/
example : Dir.ALL8.map Dir.isDiagonal = [false, true, false, true, false, true, false, true] := by decide

/-- `test_neg`, `test_add`, dir_tests.rs:164-188. -/
example : Dir.ALL8.map Dir.flip = [.S, .SW, .W, .NW, .N, .NE, .E, .SE].map .ok ∧
    Dir.ALL8.map (Dir.rotate .S) = [.S, .SW, .W, .NW, .N, .NE, .E, .SE].map .ok := by decide

/-- `test_addassign`, dir_tests.rs:190-208. -/
example : Dir.addAssign .N .NE = .ok .NE ∧ Dir.addAssign .NE .NE = .ok .E ∧ Dir.addAssign .E .W = .ok .N ∧ Dir.addAssign .N .NW = .ok .NW ∧
    Dir.addAssign .NW .SE = .ok .E ∧ Dir.addAssign .E .SE = .ok .SW ∧ Dir.addAssign .SW .SE = .ok .N := by decide

/-- `test_add_dir`, dir_tests.rs:224-233. -/
example : ∀ t ∈ [IntTy.isize, .i8, .i16, .i32, .i64, .i128], ∀ d ∈ Dir.ALL8, tupleAddDir (.prim t) (.prim t) (0, 0) d = .ok d.toTuple := by decide

/-- `test_cycle`, dir_tests.rs:244-259. -/
example : ∀ t ∈ [IntTy.isize, .i8, .i16, .i32, .i64, .i128, .usize, .u8, .u16, .u32, .u64, .u128],
    Dir.ALL8.foldlM (m := Except Error) (tupleAddDir (.prim t) (.prim t)) (0, 2) = .ok (0, 2) := by decide

/-! ## mov_tests.rs -/

/-- `test_sum_none`, mov_tests.rs:10-18. -/
example : ∀ d ∈ Dir.ALL8, (PosTy.pos 0 0).addDir (0, 0) d = .error .outOfBounds := by decide

/-- `test_sum_some`, mov_tests.rs:20-53. -/
example : Dir.ALL8.filterMap ((PosTy.pos 2 2).addDirOk (1, 1)) = [(1, 0), (2, 0), (2, 1), (2, 2), (1, 2), (0, 2), (0, 1), (0, 0)] ∧
    Dir.ALL4.filterMap ((PosTy.pos 2 2).addDirOk (1, 1)) = [(1, 0), (2, 1), (1, 2), (0, 1)] := by decide

/-! ## pos_tests.rs -/

abbrev Pos56 : PosTy := PosTy.pos 5 6
abbrev Pos11 : PosTy := PosTy.pos 1 1
abbrev Pos44 : PosTy := PosTy.pos 4 4

/-- The positions of the type in reading order, as `Pos::iter` gives them. -/
def allOf (T : PosTy) : List (Int × Int) := match PosIter.toList T true with | .ok ps => ps | _ => []

/-- `test_basic`, `test_usize`, `test_pos_tuple`, pos_tests.rs:17-52. -/
example : Pos.ofU16 5 6 (2, 3) = .ok (2, 3) ∧ PosTy.innerTuple (2, 3) = (2, 3) ∧ Pos.ofU16 5 6 (3, 4) = .ok (3, 4) ∧ Pos.ofU16 5 6 (5, 6) = .ok (5, 6) ∧
    Pos.newUnwrap 5 6 5 4 = .ok (5, 4) ∧ Pos.newStatic 5 6 4 3 = .ok (4, 3) ∧ Pos.FIRST 5 6 = .ok (0, 0) ∧ Pos.ofUsize 5 6 0 = .ok (.ok (0, 0)) ∧
    Pos.LAST 5 6 = .ok (5, 6) ∧ Pos.intoUsize 5 6 (5, 6) = .ok (42 - 1) ∧ Pos.SIZE 5 6 = .ok 42 ∧ Pos.FIRST 1 1 = .ok (0, 0) ∧
    Pos11.first = (0, 0) := by decide

/-- `test_tryfrom_pos`, pos_tests.rs:54-62. -/
example : Pos56.tryFromPos Pos11.first = .ok (0, 0) ∧ Pos56.tryFromPos Pos44.first = .ok (0, 0) ∧ Pos56.tryFromPos Pos11.last = .ok (1, 1) ∧
    Pos56.tryFromPos Pos44.last = .ok (4, 4) ∧ Pos11.tryFromPos Pos56.last = .error .outOfBounds := by decide

/-- `test_out_of_bounds`, pos_tests.rs:64-76. -/
example : Pos.ofU16 5 6 (6, 3) = .error .outOfBounds ∧ Pos.ofU16 5 6 (0, 7) = .error .outOfBounds ∧ Pos.ofUsize 5 6 42 = .ok (.error .outOfBounds) := by
  decide

/-- `test_iter`, pos_tests.rs:78-89. -/
example : (allOf Pos56).length = 42 ∧ PosIter.sizeHint Pos56 (PosIter.default Pos56) = .ok (42, some 42) := by decide

/-- `test_iter_in_xy`, pos_tests.rs:91-110. -/
example : (∀ x ∈ rustRange 0 6, (callN (PosIterInX.next Pos56) 8 (PosIterInX.new Pos56 x)).1 = (rustRange 0 7).map (fun y => some (x, y)) ++ [none]) ∧
    (∀ y ∈ rustRange 0 7, (callN (PosIterInY.next Pos56) 7 (PosIterInY.new Pos56 y)).1 = (rustRange 0 6).map (fun x => some (x, y)) ++ [none]) := by decide

/-- `test_max`, pos_tests.rs:112-123. -/
example : Pos.SIZE 0x7fff 0x7fff = .ok ((0x7fff + 1) * (0x7fff + 1)) ∧ Pos.LAST 0x7fff 0x7fff = .ok (0x7fff, 0x7fff) ∧
    Pos.intoUsize 0x7fff 0x7fff (0x7fff, 0x7fff) = .ok ((0x7fff + 1) * (0x7fff + 1) - 1) ∧
    Pos.ofUsize 0x7fff 0x7fff ((0x7fff + 1) * (0x7fff + 1) - 1) = .ok (.ok (0x7fff, 0x7fff)) ∧ Pos.ofI32 0x7fff 0x7fff 0x7fff 0x7fff = .ok (0x7fff, 0x7fff) ∧
    (PosTy.pos 0x7fff 0x7fff).next (0x7ffe, 0x7fff) = some (0x7fff, 0x7fff) := by decide

/-- `test_corner_side`, pos_tests.rs:125-144. -/
example : (allOf Pos56).filter Pos56.isCorner = [(0, 0), (5, 0), (0, 6), (5, 6)] ∧ Pos.TOP_RIGHT 5 6 = .ok (5, 0) ∧ Pos.BOTTOM_LEFT 5 6 = .ok (0, 6) ∧
    ((allOf Pos56).filter Pos56.isSide).length = 22 := by decide

/-- `test_manhattan`, `test_inside`, pos_tests.rs:146-161. -/
example : Pos11.manhattan (0, 0) (1, 1) = .ok 2 ∧ Pos11.manhattan (1, 1) (0, 0) = .ok 2 ∧
    (∀ p ∈ allOf Pos56, PosTy.inside p (0, 0) (5, 6) = true ∧ PosTy.inside p p p = true) ∧
    Pos.CENTER 5 6 = .ok (2, 3) ∧ PosTy.inside (5, 6) (0, 0) (2, 3) = false := by decide

/-- `test_flips`, pos_tests.rs:163-186. -/
example : Pos56.flipV (0, 0) = .ok (0, 6) ∧ Pos56.flipV (5, 0) = .ok (5, 6) ∧ Pos56.flipH (0, 0) = .ok (5, 0) ∧ Pos56.flipH (0, 6) = .ok (5, 6) ∧
    Pos56.flipH (2, 3) = .ok (3, 3) ∧ Pos56.flipV (2, 3) = .ok (2, 3) ∧
    (∀ p ∈ allOf Pos56, (Pos56.flipH p >>= Pos56.flipH) = .ok p ∧ (Pos56.flipV p >>= Pos56.flipV) = .ok p ∧
      (Pos56.isCorner <$> Pos56.flipV p) = .ok (Pos56.isCorner p) ∧ (Pos56.isCorner <$> Pos56.flipH p) = .ok (Pos56.isCorner p) ∧
      (Pos56.isSide <$> Pos56.flipV p) = .ok (Pos56.isSide p) ∧ (Pos56.isSide <$> Pos56.flipH p) = .ok (Pos56.isSide p)) := by decide +kernel

/-- `test_rotate_cw`, `test_rotate_cc`, pos_tests.rs:188-216. -/
example : Pos44.rotateCw (0, 0) = .ok (4, 0) ∧ Pos44.rotateCw (4, 0) = .ok (4, 4) ∧ Pos44.rotateCw (4, 4) = .ok (0, 4) ∧ Pos44.rotateCw (0, 4) = .ok (0, 0) ∧
    Pos44.rotateCc (0, 0) = .ok (0, 4) ∧ Pos44.rotateCc (0, 4) = .ok (4, 4) ∧ Pos44.rotateCc (4, 4) = .ok (4, 0) ∧ Pos44.rotateCc (4, 0) = .ok (0, 0) ∧
    (∀ p ∈ allOf Pos44, (Pos44.rotateCw p >>= Pos44.rotateCw >>= Pos44.rotateCw >>= Pos44.rotateCw) = .ok p ∧
      (Pos44.rotateCc p >>= Pos44.rotateCc >>= Pos44.rotateCc >>= Pos44.rotateCc) = .ok p ∧
      (Pos44.rotateCw p >>= Pos44.rotateCw) = (Pos44.rotateCc p >>= Pos44.rotateCc) ∧
      (Pos44.isCorner <$> Pos44.rotateCw p) = .ok (Pos44.isCorner p) ∧ (Pos44.isSide <$> Pos44.rotateCc p) = .ok (Pos44.isSide p)) := by decide +kernel

/-- `test_iter_vertical`, `test_iter_prev`, `test_iter_prev_y`, pos_tests.rs:218-267. -/
example : PosIter.toList Pos11 false = .ok [(0, 0), (0, 1), (1, 0), (1, 1)] ∧
    Pos11.prev (0, 0) = none ∧ Pos11.prev (1, 0) = some (0, 0) ∧ Pos11.prev (0, 1) = some (1, 0) ∧ Pos11.prev (1, 1) = some (0, 1) ∧
    Pos11.prevY (0, 0) = none ∧ Pos11.prevY (0, 1) = some (0, 0) ∧ Pos11.prevY (1, 0) = some (0, 1) ∧ Pos11.prevY (1, 1) = some (1, 0) := by decide

/-- `test_iter_back`, `test_iter_back2`, pos_tests.rs:269-290. -/
example : (runSchedule (PosIter.next Pos11 true) (PosIter.nextBack Pos11 true) [.front, .back, .back, .front, .front, .back] (PosIter.default Pos11)).1 =
      [some (0, 0), some (1, 1), some (0, 1), some (1, 0), none, none] ∧
    (callN (PosIter.nextBack Pos56 true) 43 (PosIter.default Pos56)).1 = (allOf Pos56).reverse.map some ++ [none] := by decide +kernel

/-- All the ways to take four items from the two ends. -/
def schedules : Nat → List (List End)
  | 0 => [[]]
  | n + 1 => (schedules n).flatMap fun s => [.front :: s, .back :: s]

/-- `_test_iter_back`, pos_tests.rs:292-310. -/
example : ∀ X ∈ [true, false], ∀ s ∈ schedules 4,
    let r := runSchedule (PosIter.next Pos11 X) (PosIter.nextBack Pos11 X) (s ++ [.front]) (PosIter.default Pos11)
    (∀ p ∈ allOf Pos11, some p ∈ r.1) ∧ r.1.getLast? = some none := by decide +kernel

/-- `test_iter_range`, pos_tests.rs:322-342. -/
example : (callN (PosIterRange.next Pos56) 43 (PosIterRange.new (0, 0) (5, 6))).1 = (allOf Pos56).map some ++ [none] ∧
    (callN (PosIterRange.next Pos56) 5 (PosIterRange.new (1, 1) (2, 2))).1 = [some (1, 1), some (2, 1), some (1, 2), some (2, 2), none] := by decide +kernel

/-- `test_tlbr`, pos_tests.rs:344-363. -/
example : PosTy.tlbrOf (allOf Pos56) = .ok ((0, 0), (5, 6)) ∧
    PosTy.tlbrOf [(4, 3), (4, 4), (1, 4), (3, 4), (2, 4), (1, 5)] = .ok ((1, 3), (4, 5)) := by decide +kernel

/-! ## grid_tests.rs -/

abbrev Pos42 : PosTy := PosTy.pos 4 2
abbrev Pos22 : PosTy := PosTy.pos 2 2

/-- `test_basic`, `test_basic2`, grid_tests.rs:25-58: `enumerate` writes 0, 1, 2, … in the order of iteration. -/
example : (∀ pi ∈ (allOf Pos42).zip (rustRange 0 15), Grid.get Pos42 (rustRange 0 15) pi.1 = .ok pi.2 ∧ Pos42.toUsize pi.1 = .ok pi.2) ∧
    Grid.fromIter 15 (Grid.iter (rustRange 0 15)) = .ok (rustRange 0 15) ∧
    (do let g ← Grid.set Pos42 (Grid.iterMut (fun _ => 1) (Grid.default 15 (0 : Int))) (1, 0) 5
        let p ← Out.unwrap (Pos42.next (1, 0))
        Grid.set Pos42 g p 6) = .ok [1, 5, 6, 1, 1, 1, 1, 1, 1, 1, 1, 1, 1, 1, 1] := by decide +kernel

/-- `test_from_iter_ok`, `test_into_from_iter_pos`, grid_tests.rs:77-95. -/
example : Grid.fromIter 15 (rustRange 0 15) = .ok [0, 1, 2, 3, 4, 5, 6, 7, 8, 9, 10, 11, 12, 13, 14] ∧
    (Grid.iterPos Pos42 (rustRange 0 15) >>= Grid.extend Pos42 (Grid.default 15 0)) = .ok (rustRange 0 15) := by decide +kernel

/-- The tests that should panic, grid_tests.rs:97-123. -/
example : Grid.fromIter 15 (rustRange 0 14) = .panic ∧ Grid.fromIter 15 (rustRange 0 16) = .panic := by decide

/-- `test_from_vecvec`, `test_extend_from_vecvec`, grid_tests.rs:125-149. -/
example : Grid.tryFromVecVec Pos22 9 (0 : Int) [[1, 2, 3], [4, 5], [6]] = .ok (.ok [1, 2, 3, 4, 5, 0, 6, 0, 0]) ∧
    Grid.tryFromVecVec Pos22 9 (0 : Int) [[1, 2, 3], [4, 5], [6], []] = .ok (.error .outOfBounds) ∧
    Grid.tryFromVecVec Pos22 9 (0 : Int) [[1, 2, 3], [4, 3, 2, 1], [6]] = .ok (.error .outOfBounds) ∧
    Grid.tryFromVecVec Pos22 9 (0 : Int) [[1]] = .ok (.ok [1, 0, 0, 0, 0, 0, 0, 0, 0]) ∧
    Grid.extendFromVecVec Pos22 (Grid.default 9 (0 : Int)) [[1, 2, 3], [4, 5], [6]] = .ok ([1, 2, 3, 4, 5, 0, 6, 0, 0], .ok ()) := by decide +kernel

/-- `test_line_mut`, `test_pos_iter_ref`, grid_tests.rs:151-175. -/
example : (do let g ← Grid.extend Pos42 (Grid.default 15 0) ((allOf Pos42).map fun p => (p, (Pos.intoI32 p).2))
              .ok (← Grid.line Pos42 g 1, ← Grid.line Pos42 g 2, ← Grid.asArrayMutSet g 0 7)) =
      .ok ([1, 1, 1, 1, 1], [2, 2, 2, 2, 2], [7, 0, 0, 0, 0, 1, 1, 1, 1, 1, 2, 2, 2, 2, 2]) ∧
    Grid.extend Pos42 (Grid.default 15 (0 : Int)) [((1, 0), 5), ((2, 0), 7)] = .ok [0, 5, 7, 0, 0, 0, 0, 0, 0, 0, 0, 0, 0, 0, 0] := by decide +kernel

/-- `test_traits`, grid_tests.rs:177-191. -/
example : (Grid.cmp compare (rustRange 1 10) <$> Grid.flipH Pos22 (rustRange 1 10)) = .ok .lt ∧
    ((fun g => Grid.cmp compare g (rustRange 1 10)) <$> Grid.flipH Pos22 (rustRange 1 10)) = .ok .gt ∧
    (Grid.beq (· == ·) (rustRange 1 10) <$> Grid.flipH Pos22 (rustRange 1 10)) = .ok false ∧
    Grid.beq (· == ·) (rustRange 1 10) (rustRange 1 10) = true := by decide +kernel

/-- `test_flip_h`, `test_flip_v`, grid_tests.rs:193-223. -/
example : Grid.flipH Pos22 (rustRange 1 10) = .ok [3, 2, 1, 6, 5, 4, 9, 8, 7] ∧ Grid.flipV Pos22 (rustRange 1 10) = .ok [7, 8, 9, 4, 5, 6, 1, 2, 3] := by
  decide +kernel

/-- `test_rotate_cw`, `test_rotate_cc`, grid_tests.rs:225-301. -/
example : Grid.rotateCw 2 (rustRange 1 10) = .ok [7, 4, 1, 8, 5, 2, 9, 6, 3] ∧
    Grid.rotateCw 4 (rustRange 1 26) = .ok [21, 16, 11, 6, 1, 22, 17, 12, 7, 2, 23, 18, 13, 8, 3, 24, 19, 14, 9, 4, 25, 20, 15, 10, 5] ∧
    (Grid.rotateCw 4 (rustRange 1 26) >>= Grid.rotateCw 4 >>= Grid.rotateCw 4 >>= Grid.rotateCw 4) = .ok (rustRange 1 26) ∧
    Grid.rotateCc 2 (rustRange 1 10) = .ok [3, 6, 9, 2, 5, 8, 1, 4, 7] ∧
    Grid.rotateCc 4 (rustRange 1 26) = .ok [5, 10, 15, 20, 25, 4, 9, 14, 19, 24, 3, 8, 13, 18, 23, 2, 7, 12, 17, 22, 1, 6, 11, 16, 21] ∧
    (Grid.rotateCc 4 (rustRange 1 26) >>= Grid.rotateCc 4 >>= Grid.rotateCc 4 >>= Grid.rotateCc 4) = .ok (rustRange 1 26) := by decide +kernel

/-! ## gridbool_tests.rs -/

abbrev Pos37 : PosTy := PosTy.pos 3 7
abbrev Pos102 : PosTy := PosTy.pos 10 2

/-- `test_getset`, gridbool_tests.rs:28-47. -/
example : Gridbool.wordsGridboolCreate 3 7 = 1 ∧ Gridbool.get Pos37 (Gridbool.ALL_FALSE 1) (0, 0) = .ok false ∧
    Gridbool.set Pos37 (Gridbool.ALL_FALSE 1) (0, 0) true = .ok [0x80000000#32] ∧ Gridbool.get Pos37 [0x80000000#32] (0, 0) = .ok true ∧
    Gridbool.get Pos37 [0x80000000#32] (3, 7) = .ok false ∧
    (Gridbool.set Pos37 [0x80000000#32] (3, 7) true >>= fun g => Gridbool.set Pos37 g (0, 0) false) = .ok [0x00000001#32] ∧
    Gridbool.get Pos37 [0x00000001#32] (0, 0) = .ok false ∧ Gridbool.get Pos37 [0x00000001#32] (3, 7) = .ok true ∧
    Gridbool.set Pos102 (Gridbool.ALL_FALSE 2) (10, 2) true = .ok [0x00000000#32, 0x80000000#32] := by decide +kernel

/-- `test_repeat_index`, gridbool_tests.rs:49-65. -/
example : (∀ p ∈ allOf Pos37, Gridbool.get Pos37 (Gridbool.repeat 1 true) p = .ok true ∧ Gridbool.get Pos37 (Gridbool.repeat 1 false) p = .ok false) ∧
    Gridbool.repeat 1 true = [0xFFFFFFFF#32] ∧ Gridbool.asInnerMutSet (Gridbool.repeat 1 false) 0 1#32 = .ok [1#32] := by decide +kernel

/-- The corners of `Pos1`, gridbool_tests.rs:70-75. -/
abbrev corners37 : List (Int × Int) := [(0, 0), (3, 0), (0, 7), (3, 7)]

/-- `test_iter1`, gridbool_tests.rs:67-93. -/
example : (do let g ← Gridbool.setIterT Pos37 (Gridbool.ALL_FALSE 1) corners37
              .ok (← Gridbool.iterT Pos37 g, ← Gridbool.iterF Pos37 g, ← Gridbool.iter Pos37 g, ← Gridbool.setIterF Pos37 g corners37)) =
    .ok (corners37, (allOf Pos37).filter (fun p => p ∉ corners37), (allOf Pos37).map (fun p => decide (p ∈ corners37)), Gridbool.ALL_FALSE 1) := by
  decide +kernel

/-- The gridbool of a condition on the positions of `Pos5`. -/
def gbool5 (f : Int × Int → Bool) : Out (List (BitVec 32)) := (allOf Pos44).foldlM (fun g p => Gridbool.set Pos44 g p (f p)) (Gridbool.ALL_FALSE 1)

/-- `test_flip_h`, `test_flip_v`, gridbool_tests.rs:95-135. -/
example : (gbool5 (fun t => t.1 < 2 && t.2 > 2) >>= Gridbool.flipH Pos44) = gbool5 (fun t => t.1 > 2 && t.2 > 2) ∧
    (gbool5 (fun t => t.1 < 2 && t.2 > 2) >>= Gridbool.flipH Pos44 >>= Gridbool.flipH Pos44) = gbool5 (fun t => t.1 < 2 && t.2 > 2) ∧
    (gbool5 (fun t => t.1 < 2 && t.2 < 2) >>= Gridbool.flipV Pos44) = gbool5 (fun t => t.1 < 2 && t.2 > 2) ∧
    (gbool5 (fun t => t.1 < 2 && t.2 < 2) >>= Gridbool.flipV Pos44 >>= Gridbool.flipV Pos44) = gbool5 (fun t => t.1 < 2 && t.2 < 2) := by decide +kernel

/-- `test_rotate`, gridbool_tests.rs:137-157. -/
example : (gbool5 (fun t => t.1 < 2 && t.2 < 2) >>= Gridbool.rotateCw 4) = gbool5 (fun t => t.1 > 2 && t.2 < 2) ∧
    (gbool5 (fun t => t.1 < 2 && t.2 < 2) >>= Gridbool.rotateCw 4 >>= Gridbool.rotateCc 4) = gbool5 (fun t => t.1 < 2 && t.2 < 2) := by decide +kernel

/-- `test_traits`, gridbool_tests.rs:174-187. -/
example : Gridbool.cmp (Gridbool.ALL_FALSE 1) (Gridbool.repeat 1 true) = .lt ∧ Gridbool.cmp (Gridbool.repeat 1 true) (Gridbool.ALL_FALSE 1) = .gt ∧
    Gridbool.beq (Gridbool.ALL_FALSE 1) (Gridbool.ALL_FALSE 1) = true ∧ Gridbool.beq (Gridbool.ALL_FALSE 1) (Gridbool.repeat 1 true) = false := by decide

/-! ## bf_tests.rs -/

/-- The positions of the layers, in order. -/
def flatten (r : Out (List (List ((Int × Int) × Dir)))) : Out (List (Int × Int)) := (fun ls => ls.flatten.map Prod.fst) <$> r

/-- `test_basic`, `test_walls`, bf_tests.rs:19-65. -/
example : flatten ((SqridTy.createPos (2, 2) false).bfIter Pos22 Pos22.addDirOk (1, 1) 10) =
      .ok [(1, 0), (2, 1), (1, 2), (0, 1), (2, 0), (0, 0), (2, 2), (0, 2)] ∧
    flatten ((SqridTy.createPos (2, 2) false).bfIter Pos22 (fun p d => (Pos22.addDirOk p d).filter fun t => t != (0, 1) && t != (2, 1)) (1, 1) 10) =
      .ok [(1, 0), (1, 2), (2, 0), (0, 0), (2, 2), (0, 2)] := by decide +kernel

end Sqrid.Tests
