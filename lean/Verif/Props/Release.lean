import Verif.Proofs.ReleaseSearch
import Verif.Props.Closure
import Verif.Props.ClosureSteps
import Verif.Props.SearchLaws
import Verif.Props.Ucs
import Verif.Props.Conv
/-!
# Properties of release builds and of 32-bit machines: C103 – C106
-/

namespace Sqrid

open Spec

/-! ## C103 -/

section
variable (T : PosTy)

/-- C103. Where the debug build does not panic, the functions of positions give the same in the release build. -/
theorem C103_positions (p q : Int × Int) (i : Int) :
    SameInRelease T.width ∧ SameInRelease T.height ∧ SameInRelease T.dimensions ∧ SameInRelease (T.toUsize p) ∧ SameInRelease (T.tryFromUsize i) ∧
    SameInRelease (T.manhattan p q) ∧ SameInRelease (T.rotateCw p) ∧ SameInRelease (T.rotateCc p) :=
  ⟨.width T, .height T, .dimensions T, .toUsize T p, .tryFromUsize T i, .manhattan T p q, .rotateCw T p, .rotateCc T p⟩

/-- C103. The same for the iterators of positions. -/
theorem C103_size_hints (s1 : PosIter) (s2 : PosIterRange) (s3 : Option (Int × Int)) :
    SameInRelease (s1.sizeHint T) ∧ SameInRelease (s2.sizeHint T) ∧ SameInRelease (PosIterInX.sizeHint T s3) ∧ SameInRelease (PosIterInY.sizeHint T s3) :=
  ⟨.iterSizeHint T s1, .rangeSizeHint T s2, .inXSizeHint T s3, .inYSizeHint T s3⟩

/-- C103. The same for grids: the cells read, the contents after a change, the panics and the undefined behaviour. -/
theorem C103_grid {α : Type} (g : List α) (p : Int × Int) (v d : α) (y W : Int) (x SIZE : Nat) (items : List ((Int × Int) × α)) (vv : List (List α)) (f : Fmt)
    (shw : α → List Char) :
    SameInRelease (Grid.get T g p) ∧ SameInRelease (Grid.set T g p v) ∧ SameInRelease (Grid.iterPos T g) ∧ SameInRelease (Grid.line T g y) ∧
    SameInRelease (Grid.lineMutSet T g y x v) ∧ SameInRelease (Grid.flipH T g) ∧ SameInRelease (Grid.flipV T g) ∧
    SameInRelease (Grid.rotateCw W g) ∧ SameInRelease (Grid.rotateCc W g) ∧ SameInRelease (Grid.extend T g items) ∧
    SameInRelease (Grid.extendFromVecVec T g vv) ∧ SameInRelease (Grid.tryFromVecVec T SIZE d vv) ∧ SameInRelease (Grid.display T f shw g) :=
  ⟨.gridGet T g p, .gridSet T g p v, .gridIterPos T g, .gridLine T g y, .gridLineMut T g y x v, .gridFlipH T g, .gridFlipV T g, .gridRotateCw g W,
    .gridRotateCc g W, .gridExtend T g items, .gridExtendVV T g vv, .gridFromVV T SIZE d vv, .gridDisplay T g f shw⟩

/-- C103. The same for bit grids. -/
theorem C103_gridbool (gb : List (BitVec 32)) (p : Int × Int) (v : Bool) (M : Int) (ps : List (Int × Int)) (WORDS : Nat) (items : List Bool) (f : Fmt) :
    SameInRelease (Gridbool.get T gb p) ∧ SameInRelease (Gridbool.set T gb p v) ∧ SameInRelease (Gridbool.setT T gb p) ∧
    SameInRelease (Gridbool.setF T gb p) ∧ SameInRelease (Gridbool.iter T gb) ∧ SameInRelease (Gridbool.iterPos T gb) ∧ SameInRelease (Gridbool.iterT T gb) ∧
    SameInRelease (Gridbool.iterF T gb) ∧ SameInRelease (Gridbool.setIterT T gb ps) ∧ SameInRelease (Gridbool.setIterF T gb ps) ∧
    SameInRelease (Gridbool.flipH T gb) ∧ SameInRelease (Gridbool.flipV T gb) ∧ SameInRelease (Gridbool.rotateCw M gb) ∧
    SameInRelease (Gridbool.rotateCc M gb) ∧ SameInRelease (Gridbool.fromPositions T WORDS ps) ∧ SameInRelease (Gridbool.fromBools T WORDS items) ∧
    SameInRelease (Gridbool.display T f gb) :=
  ⟨.gbGet T gb p, .gbSet T gb p v, .gbSetT T gb p, .gbSetF T gb p, .gbIter T gb, .gbIterPos T gb, .gbIterT T gb, .gbIterF T gb, .gbSetIterT T gb ps,
    .gbSetIterF T gb ps, .gbFlipH T gb, .gbFlipV T gb, .gbRotateCw gb M, .gbRotateCc gb M, .gbFromPositions T WORDS ps, .gbFromBools T WORDS items,
    .gbDisplay T gb f⟩

variable {W : Type}

theorem EffLe.same {α : Type} {x : [Target] → Eff W α} (h : ∀ b, EffLe Eq (@x ⟨true, b⟩) (@x ⟨false, b⟩)) (w : W) : SameInRelease (x w) :=
  Out.LeR.same fun b => by
    have := h b w
    revert this
    generalize @x ⟨true, b⟩ w = r1
    generalize @x ⟨false, b⟩ w = r2
    intro this
    cases r1 <;> cases r2 <;> simp_all [Out.LeR, Prod.ext_iff]

/-- C103. The same for breadth-first traversal and search, with closures that may have effects; the final state of the world is the same too. -/
theorem C103_bf (WORDS SIZE : Nat) (D : Bool) (go : Int × Int → Dir → Eff W (Option (Int × Int))) (found : Int × Int → Eff W Bool)
    (orig : Int × Int) (n : Nat) (w : W) :
    SameInRelease (Bf.iterTakeM (.gridbool T WORDS) D go orig n w) ∧ SameInRelease (Bf.iterAllM (.gridbool T WORDS) D go orig n w) ∧
    SameInRelease (Bf.searchPathM T (.gridbool T WORDS) (.grid T SIZE none) D go orig found n w) ∧
    SameInRelease (Bf.searchPathM T .hash (.hash none) D go orig found n w) ∧
    SameInRelease (Bf.searchPathM T .btree (.btree none) D go orig found n w) :=
  ⟨EffLe.same (fun b => Bf.iterTake_le (SetLe.gridbool T WORDS b) D go orig n) w, EffLe.same (fun b => Bf.iterAll_le (SetLe.gridbool T WORDS b) D go orig n) w,
    EffLe.same (fun b => Bf.searchPath_le (MapLe.grid T SIZE none b) (SetLe.gridbool T WORDS b) T b D go orig found n) w,
    EffLe.same (fun b => Bf.searchPath_le (MapLe.refl _) (SetLe.refl _) T b D go orig found n) w,
    EffLe.same (fun b => Bf.searchPath_le (MapLe.refl _) (SetLe.refl _) T b D go orig found n) w⟩

/-- C103. The same for A* search. -/
theorem C103_astar (SIZE : Nat) (D : Bool) (go : Int × Int → Dir → Eff W (Option (Int × Int))) (orig dest : Int × Int) (n : Nat) (w : W) :
    SameInRelease (Astar.searchPathM T (.grid T SIZE none) (.grid T SIZE 0) D go orig dest n w) ∧
    SameInRelease (Astar.searchPathM T (.hash none) (.hash 0) D go orig dest n w) ∧
    SameInRelease (Astar.searchPathM T (.btree none) (.btree 0) D go orig dest n w) :=
  ⟨EffLe.same (fun b => Astar.searchPath_le (MapLe.grid T SIZE none b) (MapLe.grid T SIZE 0 b) T b D go orig dest n) w,
    EffLe.same (fun b => Astar.searchPath_le (MapLe.refl _) (MapLe.refl _) T b D go orig dest n) w,
    EffLe.same (fun b => Astar.searchPath_le (MapLe.refl _) (MapLe.refl _) T b D go orig dest n) w⟩

/-- C103. The same for uniform-cost search. -/
theorem C103_ucs (SIZE : Nat) (D : Bool) (go : Int × Int → Dir → Eff W (Option ((Int × Int) × Int))) (orig dest : Int × Int) (n : Nat) (w : W) :
    SameInRelease (Ucs.searchPathM T (.grid T SIZE none) (.grid T SIZE 0) D go orig dest n w) ∧
    SameInRelease (Ucs.searchPathM T (.hash none) (.hash 0) D go orig dest n w) ∧
    SameInRelease (Ucs.searchPathM T (.btree none) (.btree 0) D go orig dest n w) :=
  ⟨EffLe.same (fun b => Ucs.searchPath_le (MapLe.grid T SIZE none b) (MapLe.grid T SIZE 0 b) T b D go orig dest n) w,
    EffLe.same (fun b => Ucs.searchPath_le (MapLe.refl _) (MapLe.refl _) T b D go orig dest n) w,
    EffLe.same (fun b => Ucs.searchPath_le (MapLe.refl _) (MapLe.refl _) T b D go orig dest n) w⟩

/-- C103. The same for the iterators of A* and of uniform-cost search: the first `n` calls of `next`. -/
theorem C103_best_first_iterators (SIZE : Nat) (D : Bool) (go : Int × Int → Dir → Eff W (Option (Int × Int)))
    (goc : Int × Int → Dir → Eff W (Option ((Int × Int) × Int))) (orig dest : Int × Int) (n : Nat) (w : W) :
    SameInRelease (AstarIter.takeFromM T (.grid T SIZE 0) D go orig dest n w) ∧ SameInRelease (AstarIter.takeFromM T (.hash 0) D go orig dest n w) ∧
    SameInRelease (AstarIter.takeFromM T (.btree 0) D go orig dest n w) ∧ SameInRelease (UcsIter.takeFromM (.grid T SIZE 0) D goc orig n w) ∧
    SameInRelease (UcsIter.takeFromM (.hash 0) D goc orig n w) ∧ SameInRelease (UcsIter.takeFromM (.btree 0) D goc orig n w) :=
  ⟨EffLe.same (fun b => AstarIter.takeFrom_le (MapLe.grid T SIZE 0 b) T b D go orig dest n) w,
    EffLe.same (fun b => AstarIter.takeFrom_le (MapLe.refl _) T b D go orig dest n) w,
    EffLe.same (fun b => AstarIter.takeFrom_le (MapLe.refl _) T b D go orig dest n) w,
    EffLe.same (fun b => UcsIter.takeFrom_le (MapLe.grid T SIZE 0 b) b D goc orig n) w,
    EffLe.same (fun b => UcsIter.takeFrom_le (MapLe.refl _) b D goc orig n) w,
    EffLe.same (fun b => UcsIter.takeFrom_le (MapLe.refl _) b D goc orig n) w⟩

/-- C103. The same for `camefrom_into_path` with any map. -/
theorem C103_camefrom (SIZE : Nat) (g : List (Option Dir)) (m : List ((Int × Int) × Option Dir) × Option Dir) (orig dest : Int × Int) :
    SameInRelease (camefromIntoPath T (.grid T SIZE none) g orig dest) ∧ SameInRelease (camefromIntoPath T (.hash none) m orig dest) ∧
    SameInRelease (camefromIntoPath T (.btree none) m orig dest) :=
  ⟨Out.LeR.same fun b => camefromIntoPath_le (MapLe.grid T SIZE none b) T b g g rfl orig dest,
    Out.LeR.same fun b => camefromIntoPath_le (MapLe.refl (MapImpl.hash none)) T b m m rfl orig dest,
    Out.LeR.same fun b => camefromIntoPath_le (MapLe.refl (MapImpl.btree none)) T b m m rfl orig dest⟩

-- a map that leads back to the origin, on a grid of two columns
example [Target] : camefromIntoPath (PosTy.pos 1 0) (.grid (PosTy.pos 1 0) 2 none) [none, some Dir.W] (0, 0) (1, 0) = .ok (.ok [Dir.E]) := by
  decide_target

theorem of_fst {α : Type} {x : [Target] → Out (α × Unit)} {y : [Target] → Out α} (h : SameInRelease x) (e : ∀ [Target], (x >>= fun s => .ok s.1) = y) :
    SameInRelease y := by
  intro b
  have := SameInRelease.bind (g := fun s => .ok s.1) h (fun _ => .of_eq fun _ => rfl) b
  beta_reduce at this
  rw [@e ⟨true, b⟩, @e ⟨false, b⟩] at this
  exact this

theorem answers_pure {β : Type} (f : Int × Int → Dir → Option β) : Answers (W := Unit) (fun p d w => .ok (f p d, w)) f := fun _ _ w => ⟨w, rfl⟩

/-- C103. The same for the functions of `Sqrid`, with closures that are functions. -/
theorem C103_sqrid (S : SqridTy) (go : Int × Int → Dir → Option (Int × Int)) (goc : Int × Int → Dir → Option ((Int × Int) × Int)) (found : Int × Int → Bool)
    (orig dest : Int × Int) (n : Nat) :
    SameInRelease (S.bfIter T go orig n) ∧ SameInRelease (S.bfsPath T go orig found n) ∧ SameInRelease (S.bfsPathHash T go orig found n) ∧
    SameInRelease (S.bfsPathBtree T go orig found n) ∧ SameInRelease (S.astarPath T go orig dest n) ∧ SameInRelease (S.astarPathHash T go orig dest n) ∧
    SameInRelease (S.astarPathBtree T go orig dest n) ∧ SameInRelease (S.ucsPath T goc orig dest n) ∧ SameInRelease (S.ucsPathHash T goc orig dest n) ∧
    SameInRelease (S.ucsPathBtree T goc orig dest n) := by
  have hg := answers_pure go
  have hc := answers_pure goc
  have hd : Decides (W := Unit) (fun p w => .ok (found p, w)) found := fun _ w => ⟨w, rfl⟩
  have hb := C103_bf T S.WORDS S.SIZE S.D (fun p d w => .ok (go p d, w)) (fun p w => .ok (found p, w)) orig n ()
  have ha := C103_astar T S.SIZE S.D (fun p d w => .ok (go p d, w)) orig dest n ()
  have hu := C103_ucs T S.SIZE S.D (fun p d w => .ok (goc p d, w)) orig dest n ()
  exact ⟨of_fst hb.2.1 (C94_bf_iter _ _ _ go hg orig n ()), of_fst hb.2.2.1 (C94_bfs _ _ _ _ _ go hg _ found hd orig n ()),
    of_fst hb.2.2.2.1 (C94_bfs _ _ _ _ _ go hg _ found hd orig n ()), of_fst hb.2.2.2.2 (C94_bfs _ _ _ _ _ go hg _ found hd orig n ()),
    of_fst ha.1 (C94_astar _ _ _ _ _ go hg orig dest n ()), of_fst ha.2.1 (C94_astar _ _ _ _ _ go hg orig dest n ()),
    of_fst ha.2.2 (C94_astar _ _ _ _ _ go hg orig dest n ()), of_fst hu.1 (C94_ucs _ _ _ _ _ goc hc orig dest n ()),
    of_fst hu.2.1 (C94_ucs _ _ _ _ _ goc hc orig dest n ()), of_fst hu.2.2 (C94_ucs _ _ _ _ _ goc hc orig dest n ())⟩

-- a search with the same answer in both builds; a number of positions for which only the release build has an answer
example : @SqridTy.astarPath debug64 (.create 5 5 false) (PosTy.pos 5 5) (aroundWalls (PosTy.pos 5 5) []) (5, 3) (3, 4) 3000 = .ok (.ok [.S, .W, .W]) ∧
    @SqridTy.astarPath release64 (.create 5 5 false) (PosTy.pos 5 5) (aroundWalls (PosTy.pos 5 5) []) (5, 3) (3, 4) 3000 = .ok (.ok [.S, .W, .W]) ∧
    @PosTy.dimensions debug64 (PosTy.tuple .u32) = .panic ∧ @PosTy.dimensions release64 (PosTy.tuple .u32) = .ok 0 := by decide +kernel
-- a search of which the debug build panics and the release build returns: the costs overflow
example : (∀ S : SqridTy, S = .create 2 0 false → @SqridTy.ucsPath debug64 S (PosTy.pos 2 0)
      (fun p d => (aroundWalls (PosTy.pos 2 0) [] p d).map fun q => (q, 18446744073709551614)) (0, 0) (2, 0) 100 = .panic ∧
    @SqridTy.ucsPath release64 S (PosTy.pos 2 0)
      (fun p d => (aroundWalls (PosTy.pos 2 0) [] p d).map fun q => (q, 18446744073709551614)) (0, 0) (2, 0) 100 = .ok (.ok [.E, .E])) := by
  rintro _ rfl
  decide +kernel

end

/-! ## C104 -/

theorem usize_cast_release [Target] (v : Int) : IntTy.usize.cast v = v % (limit + 1) := by
  rw [IntTy.cast, IntTy.usize_lo, IntTy.usize_hi, Int.sub_zero, Int.sub_zero, Int.add_zero]

theorem usize_arith_release [Target] (hc : Target.checks = false) (v : Int) : IntTy.usize.arith v = .ok (v % (limit + 1)) := by
  rw [IntTy.arith, hc]
  by_cases h : 0 ≤ v ∧ v ≤ limit
  · rw [if_pos (IntTy.usize_has.2 h), Int.emod_eq_of_lt h.1 (by omega)]
  · rw [if_neg (fun h' => h (IntTy.usize_has.1 h')), if_neg (by decide), usize_cast_release]

theorem emod_add_emod (a b n : Int) : (a % n + b) % n = (a + b) % n := Int.emod_add_emod a n b

/-- C104, exact: without overflow checks `width()` is MAX + 1 of the x coordinate modulo 2^64 (2^32 on 32-bit machines); it panics if MAX is
negative or does not fit in `usize`. Likewise `height()`. -/
theorem C104_width_height [Target] (hc : Target.checks = false) (T : PosTy) :
    T.width = (if 0 ≤ T.X.MAX ∧ T.X.MAX ≤ limit then .ok ((T.X.MAX + 1) % (limit + 1)) else .panic) ∧
    T.height = (if 0 ≤ T.Y.MAX ∧ T.Y.MAX ≤ limit then .ok ((T.Y.MAX + 1) % (limit + 1)) else .panic) := by
  have key : ∀ (B : BTy) (v : Int), (do let m ← PosTy.intoUsize B v; IntTy.usize.add m 1) =
      (if 0 ≤ v ∧ v ≤ limit then .ok ((v + 1) % (limit + 1)) else .panic) := by
    intro B v
    rw [intoUsize_exact]
    by_cases h : 0 ≤ v ∧ v ≤ limit
    · rw [if_pos h, if_pos h, Out.ok_bind, IntTy.add, usize_arith_release hc]
    · rw [if_neg h, if_neg h, Out.panic_bind]
  exact ⟨key _ _, key _ _⟩

/-- C104, exact: without overflow checks `dimensions()` is the product of both lengths modulo 2^64 (2^32). -/
theorem C104_dimensions [Target] (hc : Target.checks = false) (T : PosTy) :
    T.dimensions = if (0 ≤ T.X.MAX ∧ T.X.MAX ≤ limit) ∧ 0 ≤ T.Y.MAX ∧ T.Y.MAX ≤ limit
      then .ok ((T.X.MAX + 1) * (T.Y.MAX + 1) % (limit + 1)) else .panic := by
  have := C104_width_height hc T
  rw [PosTy.dimensions, this.1, this.2]
  by_cases h1 : 0 ≤ T.X.MAX ∧ T.X.MAX ≤ limit
  · by_cases h2 : 0 ≤ T.Y.MAX ∧ T.Y.MAX ≤ limit
    · rw [if_pos h1, if_pos h2, if_pos ⟨h1, h2⟩, Out.ok_bind, Out.ok_bind, IntTy.mul, usize_arith_release hc, ← Int.mul_emod]
    · rw [if_pos h1, if_neg h2, if_neg (fun h => h2 h.2)]; rfl
  · rw [if_neg h1, if_neg (c := _ ∧ (0 ≤ T.Y.MAX ∧ _)) (fun h => h1 h.1)]; rfl

/-- C104, exact: without overflow checks `to_usize` of (x, y) is y * (XMAX + 1) + x modulo 2^64 (2^32); it panics if x, y or XMAX is negative or does
not fit in `usize`. -/
theorem C104_to_usize [Target] (hc : Target.checks = false) (T : PosTy) (p : Int × Int) :
    T.toUsize p = if (0 ≤ p.1 ∧ p.1 ≤ limit) ∧ (0 ≤ p.2 ∧ p.2 ≤ limit) ∧ 0 ≤ T.X.MAX ∧ T.X.MAX ≤ limit
      then .ok ((p.2 * (T.X.MAX + 1) + p.1) % (limit + 1)) else .panic := by
  simp only [PosTy.toUsize]
  rw [intoUsize_exact, intoUsize_exact, (C104_width_height hc T).1]
  by_cases h1 : 0 ≤ p.1 ∧ p.1 ≤ limit <;> by_cases h2 : 0 ≤ p.2 ∧ p.2 ≤ limit <;> by_cases h3 : 0 ≤ T.X.MAX ∧ T.X.MAX ≤ limit <;>
    simp only [h1, h2, h3, and_self, and_false, false_and, if_true, if_false, Out.ok_bind, Out.panic_bind]
  simp only [IntTy.mul, IntTy.add, usize_arith_release hc, Out.ok_bind]
  rw [emod_add_emod, Int.add_emod, Int.mul_emod, Int.emod_emod, ← Int.mul_emod, ← Int.add_emod]

/-- C104, exact: without overflow checks `tryfrom_usize(i)` is the position with x = i mod (XMAX + 1) and y = i div (XMAX + 1) if there is one and
OutOfBounds if not; it panics if XMAX is negative or at least `usize::MAX`. -/
theorem C104_tryfrom_usize [Target] (hc : Target.checks = false) (T : PosTy) (hT : T.WF) (i : Int) :
    T.tryFromUsize i = if 0 ≤ T.X.MAX ∧ T.X.MAX + 1 ≤ limit then
      .ok (if T.Valid (i % (T.X.MAX + 1), i / (T.X.MAX + 1)) then .ok (i % (T.X.MAX + 1), i / (T.X.MAX + 1)) else .error .outOfBounds)
      else .panic := by
  rw [PosTy.tryFromUsize, (C104_width_height hc T).1]
  by_cases h : 0 ≤ T.X.MAX ∧ T.X.MAX + 1 ≤ limit
  · rw [if_pos (by omega), if_pos h, Out.ok_bind, Int.emod_eq_of_lt (by omega) (by omega), IntTy.rem, IntTy.div, if_neg (by omega), if_neg (by omega),
      Out.ok_bind, Out.ok_bind, PosTy.new_eq hT]
  · rw [if_neg h]
    by_cases h2 : 0 ≤ T.X.MAX ∧ T.X.MAX ≤ limit
    · rw [if_pos h2, Out.ok_bind, show T.X.MAX + 1 = limit + 1 by omega, Int.emod_self]; rfl
    · rw [if_neg h2]; rfl

/-- C104, exact: without overflow checks `manhattan` is the L1 distance modulo 2^64 (2^32); it panics when one of the two differences of coordinates
does not fit in the type of the coordinates or in `usize`. -/
theorem C104_manhattan [Target] (hc : Target.checks = false) (T : PosTy) (hT : T.WF) (p q : Int × Int) :
    T.manhattan p q = if (T.X.Valid |p.1 - q.1| ∧ T.Y.Valid |p.2 - q.2|) ∧ |p.1 - q.1| ≤ limit ∧ |p.2 - q.2| ≤ limit
      then .ok (l1 p q % (limit + 1)) else .panic := by
  have key : ∀ (B : BTy) (a b : Int), B.WF →
      Out.unwrap (if a > b then B.checkedSub a b else B.checkedSub b a) = if B.Valid |a - b| then .ok |a - b| else .panic := by
    intro B a b hB
    rw [BTy.checkedSub_eq hB, BTy.checkedSub_eq hB]
    rcases lt_or_ge b a with h | h
    · rw [if_pos h, abs_of_pos (by omega)]
      split <;> rfl
    · rw [if_neg (by omega), abs_of_nonpos (by omega), Int.neg_sub]
      split <;> rfl
  have hx := abs_nonneg (p.1 - q.1)
  have hy := abs_nonneg (p.2 - q.2)
  have hl : l1 p q = |p.1 - q.1| + |p.2 - q.2| := by simp only [l1, Int.abs_eq_natAbs]
  simp only [PosTy.manhattan]
  rw [key T.X _ _ hT.1, key T.Y _ _ hT.2, hl]
  generalize |p.1 - q.1| = dx at *
  generalize |p.2 - q.2| = dy at *
  by_cases h1 : T.X.Valid dx
  · by_cases h2 : T.Y.Valid dy
    · rw [if_pos h1, if_pos h2, Out.ok_bind, Out.ok_bind, intoUsize_exact, intoUsize_exact]
      by_cases h3 : dx ≤ limit
      · by_cases h4 : dy ≤ limit
        · rw [if_pos ⟨hx, h3⟩, if_pos ⟨hy, h4⟩, if_pos ⟨⟨h1, h2⟩, h3, h4⟩]
          simp only [Out.ok_bind, IntTy.add, usize_arith_release hc]
        · rw [if_pos ⟨hx, h3⟩, if_neg (fun h => h4 h.2), if_neg (fun h => h4 h.2.2)]; rfl
      · rw [if_neg (c := 0 ≤ dx ∧ _) (fun h => h3 h.2), if_neg (c := _ ∧ (dx ≤ limit ∧ _)) (fun h => h3 h.2.1)]; rfl
    · rw [if_pos h1, if_neg h2, if_neg (fun h => h2 h.1.2)]; rfl
  · rw [if_neg h1, Out.panic_bind, if_neg (fun h => h1 h.1.1)]

/-- C104, exact: without overflow checks `rotate_cw` sends (x, y) to (YMAX - y, x) and `rotate_cc` sends it to (y, XMAX - x), the subtraction modulo the
number of values of the base type; they panic if the result is not a position. -/
theorem C104_rotate [Target] (hc : Target.checks = false) (T : PosTy) (hT : T.WF) (p : Int × Int) :
    T.rotateCw p = (if InGrid T (T.Y.base.cast (T.Y.MAX - p.2), p.1) then .ok (T.Y.base.cast (T.Y.MAX - p.2), p.1) else .panic) ∧
    T.rotateCc p = (if InGrid T (p.2, T.X.base.cast (T.X.MAX - p.1)) then .ok (p.2, T.X.base.cast (T.X.MAX - p.1)) else .panic) := by
  have key : ∀ (B : IntTy) (v : Int), B.arith v = .ok (B.cast v) := by
    intro B v
    rw [IntTy.arith, hc]
    by_cases h : B.Has v
    · rw [if_pos h]
      simp only [IntTy.Has] at h
      rw [IntTy.cast, Int.emod_eq_of_lt (by omega) (by omega)]
      congr 1; omega
    · rw [if_neg h, if_neg (by decide)]
  constructor
  · rw [PosTy.rotateCw, IntTy.sub, key, BTy.tryFrom_eq hT.2, Out.ok_bind, BTy.tryFrom_eq hT.1]
    by_cases h2 : T.X.Valid (T.Y.base.cast (T.Y.MAX - p.2))
    · rw [if_pos h2, Out.unwrapRes_ok, Out.ok_bind]
      by_cases h3 : T.Y.Valid p.1
      · rw [if_pos h3, if_pos ⟨h2, h3⟩]; rfl
      · rw [if_neg h3, if_neg (fun h => h3 h.2)]; rfl
    · rw [if_neg h2, if_neg (c := InGrid T (T.Y.base.cast (T.Y.MAX - p.2), p.1)) (fun h => h2 h.1)]; rfl
  · rw [PosTy.rotateCc, IntTy.sub, key, BTy.tryFrom_eq hT.1]
    by_cases h2 : T.X.Valid p.2
    · rw [if_pos h2, Out.unwrapRes_ok, Out.ok_bind, Out.ok_bind, BTy.tryFrom_eq hT.2]
      by_cases h3 : T.Y.Valid (T.X.base.cast (T.X.MAX - p.1))
      · rw [if_pos h3, if_pos ⟨h2, h3⟩]; rfl
      · rw [if_neg h3, if_neg (fun h => h3 h.2)]; rfl
    · rw [if_neg h2, if_neg (c := InGrid T (p.2, T.X.base.cast (T.X.MAX - p.1))) (fun h => h2 h.1)]; rfl

/-- What C104 claims: whatever the build, `to_usize` gives different positions different numbers, where it gives a number. -/
def C104_claim : Prop := ∀ [Target] (T : PosTy), T.WF → ∀ p q i, InGrid T p → InGrid T q → T.toUsize p = .ok i → T.toUsize q = .ok i → p = q

/-- C104 does not hold: in a 64-bit release build both `(0u64, 0u64)` and `(0u64, 1u64)` give 0. -/
theorem C104_refuted : ¬ C104_claim := fun h =>
  absurd (@h release64 (PosTy.tuple .u64) (by decide) (0, 0) (0, 1) 0 (by unfold InGrid; decide) (by unfold InGrid; decide) (by decide) (by decide)) (by decide)

/-- C104, the part that holds: `to_usize` of a release build gives different numbers to different positions if the number of the last one fits in
`usize`. -/
theorem C104_injective_partial [Target] (hc : Target.checks = false) (T : PosTy) (hfit : T.Y.MAX * (T.X.MAX + 1) + T.X.MAX ≤ limit) (p q : Int × Int) (i : Int)
    (hp : InGrid T p) (hq : InGrid T q) (h1 : T.toUsize p = .ok i) (h2 : T.toUsize q = .ok i) : p = q := by
  rw [C104_to_usize hc] at h1 h2
  split at h1
  · rename_i c1
    split at h2
    · rename_i c2
      simp only [Out.ok.injEq] at h1 h2
      simp only [InGrid] at hp hq
      have hw : 0 < T.X.MAX + 1 := by omega
      have b : ∀ r : Int × Int, InGrid T r → 0 ≤ r.1 → 0 ≤ r.2 → r.2 * (T.X.MAX + 1) + r.1 ≤ limit := by
        intro r hr _ _
        simp only [InGrid] at hr
        have := Int.mul_le_mul_of_nonneg_right hr.2.2 (Int.le_of_lt hw)
        omega
      have b1 := b p hp (by omega) (by omega)
      have b2 := b q hq (by omega) (by omega)
      have n1 : 0 ≤ p.2 * (T.X.MAX + 1) := Int.mul_nonneg (by omega) (by omega)
      have n2 : 0 ≤ q.2 * (T.X.MAX + 1) := Int.mul_nonneg (by omega) (by omega)
      rw [Int.emod_eq_of_lt (by omega) (by omega)] at h1 h2
      have e : (p.2 * (T.X.MAX + 1) + p.1) / (T.X.MAX + 1) = (q.2 * (T.X.MAX + 1) + q.1) / (T.X.MAX + 1) := by rw [h1, h2]
      rw [Int.add_comm, Int.add_mul_ediv_right _ _ (by omega), Int.add_comm (q.2 * _), Int.add_mul_ediv_right _ _ (by omega),
        Int.ediv_eq_zero_of_lt (by omega) (by omega), Int.ediv_eq_zero_of_lt (by omega) (by omega)] at e
      have e2 : p.2 = q.2 := by omega
      rw [e2] at h1
      exact Prod.ext (by omega) e2
    · cases h2
  · cases h1

example : @PosTy.toUsize release64 (PosTy.tuple .u64) (3, 5) = .ok 3 ∧ @PosTy.toUsize debug64 (PosTy.tuple .u64) (3, 5) = .panic ∧
    @PosTy.dimensions release64 (PosTy.tuple .u32) = .ok 0 ∧ @PosTy.dimensions debug64 (PosTy.tuple .u32) = .panic ∧
    @PosTy.tryFromUsize release64 (PosTy.tuple .u64) 7 = .panic ∧
    @PosTy.manhattan release64 (PosTy.tuple .u64) (0, 0) (18446744073709551615, 2) = .ok 1 ∧
    @PosTy.rotateCw release64 (PosTy.tuple .i8) (5, -100) = .ok (-29, 5) ∧ @PosTy.rotateCw debug64 (PosTy.tuple .i8) (5, -100) = .panic ∧
    @PosTy.toUsize release64 (PosTy.tuple .u32) (3, 5) = .ok 21474836483 ∧
    (PosTy.tuple .u32).Y.MAX * ((PosTy.tuple .u32).X.MAX + 1) + (PosTy.tuple .u32).X.MAX ≤ @limit release64 := by decide

/-! ## C105 -/

/-- What C105 claims of a release build: the path of a uniform-cost search is a cheapest one, if the cost of a step depends only on the position it leads to. -/
def C105_claim [Target] (T : PosTy) : Prop :=
  ∀ ucs, Ucs.IsSearch T ucs → ∀ (D : Bool) (go : Int × Int → Dir → Option ((Int × Int) × Int)), Adjacent T (dropCost go) → UsizeCosts go → EnterCost go →
    ∀ orig dest, InGrid T orig → InGrid T dest → ∀ fuel : Nat, Ucs.steps T < (fuel : Int) → ∀ path, ucs D go orig dest fuel = .ok (.ok path) →
    ∃ n, IsCostPath go D orig path dest n ∧ ∀ ds m, IsCostPath go D orig ds dest m → n ≤ m

/-- Entering (2, 0) costs as much as a `usize` can hold, entering the second row 5. -/
def hugeCosts (p : Int × Int) (d : Dir) : Int := if neighbour p d = (2, 0) then 18446744073709551615 else if (neighbour p d).2 = 1 then 5 else 1

theorem hugeCosts_bounds (p : Int × Int) (d : Dir) : 0 ≤ hugeCosts p d ∧ hugeCosts p d ≤ @limit release64 := by
  have : @limit release64 = 18446744073709551615 := rfl
  unfold hugeCosts
  split
  · omega
  · split <;> omega

theorem hugeCosts_enter : EnterCost (stepCosts (PosTy.pos 3 1) [] hugeCosts) := by
  have key : ∀ u d q w, stepCosts (PosTy.pos 3 1) [] hugeCosts u d = some (q, w) → w = if q = (2, 0) then 18446744073709551615 else if q.2 = 1 then 5 else 1 := by
    intro u d q w h
    unfold stepCosts aroundWalls at h
    split at h
    · injection h with h
      injection h with h1 h2
      rw [← h2, ← h1]
      rfl
    · cases h
  intro u u' d d' q w w' h h'
  rw [key _ _ _ _ h, key _ _ _ _ h']

/-- C105 does not hold without overflow checks: the sum of the costs of E, E wraps around to 0, and the search goes through the costliest position. -/
theorem C105_refuted : ¬ @C105_claim release64 (PosTy.pos 3 1) := by
  intro h
  obtain ⟨n, h1, h2⟩ := h (@Ucs.pathHash release64 (PosTy.pos 3 1)) (.inr (.inl rfl)) false (stepCosts (PosTy.pos 3 1) [] hugeCosts) (stepCosts_adjacent _ _ _)
    (@stepCosts_usize release64 _ _ _ hugeCosts_bounds) hugeCosts_enter
    (0, 0) (3, 0) (by decide) (by decide) 100 (by decide) [.E, .E, .E] (by decide +kernel)
  have h3 := h2 [.S, .E, .E, .E, .N] 21 ⟨⟨by intro d hd; revert d; simp [Allowed, unit], by decide⟩, by decide⟩
  have h4 : pathCost (stepCosts (PosTy.pos 3 1) [] hugeCosts) (0, 0) [.E, .E, .E] = some 18446744073709551617 := by decide
  have h5 := h1.2
  rw [h4] at h5
  injection h5 with h5
  omega

/-- C105, what holds: without overflow checks uniform-cost search always ends and never panics, also if sums of costs wrap around. If there is no path, it
says so. If there is one, the answer is a path (maybe not a cheapest one), `DestinationUnreachable` or `Loop`. -/
theorem C105_any_costs_partial [Target] (hc : Target.checks = false) (T : PosTy) (hT : T.Searchable) (ucs) (hucs : Ucs.IsSearch T ucs) (D : Bool)
    (go : Int × Int → Dir → Option ((Int × Int) × Int)) (hgo : Adjacent T (dropCost go)) (hcost : UsizeCosts go) (orig dest : Int × Int)
    (ho : InGrid T orig) (hd : InGrid T dest) (fuel : Nat) (hfuel : 1 + limit * (cols T * rows T) < (fuel : Int)) :
    (¬ Reachable (dropCost go) D orig dest → ucs D go orig dest fuel = .ok (.error .destinationUnreachable)) ∧
    (Reachable (dropCost go) D orig dest → (dest ≠ orig ∧ ucs D go orig dest fuel = .ok (.error .destinationUnreachable)) ∨
      ucs D go orig dest fuel = .ok (.error .loop) ∨
      ∃ path, IsPath (dropCost go) D orig path dest ∧ ucs D go orig dest fuel = .ok (.ok path)) := by
  have hl := limit_pos
  let go' : WGo := fun p d => if InGrid T p then go p d else none
  have e : ucs D go orig dest fuel = Ucs.pathHash T D go' orig dest fuel := by
    rw [hucs.eq hT hgo.staysIn ho hd fuel, C84_ucs T (Ucs.pathHash T) (.inr (.inl rfl)) D go go' orig dest (fun p d hp _ => ?_) fuel]
    · exact (Ucs.IsSearch.eq hT (.inr (.inl rfl)) hgo.staysIn ho hd fuel).symm
    · obtain ⟨ds, hds⟩ := hp
      simp only [go', if_pos (isPath_inGrid hgo.staysIn ho hds)]
  have h94 := C94_ucs T (MapImpl.hash none) (MapImpl.hash 0) D _ go' (answers_pure go') orig dest fuel ()
  have key : ∃ r, ucs D go orig dest fuel = .ok r ∧ ((r = .error .destinationUnreachable ∧ dest ≠ orig) ∨ r = .error .loop ∨ ∃ path, r = .ok path) := by
    rcases C100_ucs_granted T hT (MapImpl.hash none) (.inr (.inl rfl)) (MapImpl.hash 0) (.inr (.inl rfl)) D limit (by omega) (fun p d (w : Unit) => .ok (go' p d, w))
      (fun p d w hp => .inr ⟨_, _, rfl, fun q c hq => by
        simp only [go', if_pos hp] at hq
        exact ⟨(hgo p d q hp (by simp [dropCost, hq])).1, hcost p d q c hq⟩⟩)
      (fun p d w q c w' h => by
        injection h with h
        injection h with h
        simp only [go'] at h
        split at h
        · rename_i hp
          exact (hgo p d q hp (by simp [dropCost, h])).2
        · cases h) orig dest ho hd fuel hfuel () with ⟨-, h⟩ | ⟨r, w', log, h1, h2, h3⟩
    · exact absurd ⟨fun p d w _ h => (by cases h), .inl hc⟩ h
    · rw [h1, Out.ok_bind] at h94
      refine ⟨r, e.trans h94.symm, ?_⟩
      rcases h3 with h3 | h3 | ⟨path, h3, -⟩
      · exact .inl h3
      · exact .inr (.inl h3)
      · exact .inr (.inr ⟨path, h3⟩)
  obtain ⟨r, hr, h⟩ := key
  refine ⟨fun hn => ?_, fun _ => ?_⟩
  · rw [hr]
    rw [hucs.eq hT hgo.staysIn ho hd] at hr
    rw [Ucs.searchPath_unreachable hgo ho fuel hn hr]
  · rcases h with ⟨rfl, h⟩ | rfl | ⟨path, rfl⟩
    · exact .inl ⟨h, hr⟩
    · exact .inr (.inl hr)
    · exact .inr (.inr ⟨path, C61_valid_path T hT ucs hucs D go hgo orig dest ho hd fuel path hr, hr⟩)

/-- C105. Where no sum of costs goes over the limit, the release build finds a cheapest path, as the debug build does. -/
theorem C105_no_overflow_partial [Target] (T : PosTy) (hT : T.Searchable) (ucs) (hucs : Ucs.IsSearch T ucs) (D : Bool)
    (go : Int × Int → Dir → Option ((Int × Int) × Int)) (hgo : Adjacent T (dropCost go)) (hc : UsizeCosts go) (henter : EnterCost go)
    (orig dest : Int × Int) (hov : NoOverflow go D orig) (ho : InGrid T orig) (hd : InGrid T dest) (fuel : Nat)
    (path : List Dir) (h : ucs D go orig dest fuel = .ok (.ok path)) :
    ∃ n, IsCostPath go D orig path dest n ∧ ∀ ds m, IsCostPath go D orig ds dest m → n ≤ m :=
  C63_enter_cost_partial T hT ucs hucs D go hgo hc henter orig dest (.inr hov) ho hd fuel path h

/-- Costs that send the search into a cycle of zero cost. -/
def cycleCosts (p : Int × Int) (d : Dir) : Int :=
  if p = (1, 0) ∧ d = .E then 18446744073709551615 else if p = (2, 0) ∧ d = .W then 0 else 1

-- The three answers to a search with a path, and the answer to one without.
example : @Ucs.pathHash release64 (PosTy.pos 3 1) false (stepCosts (PosTy.pos 3 1) [] hugeCosts) (0, 0) (3, 0) 100 = .ok (.ok [.E, .E, .E]) ∧
    @Ucs.pathHash release64 (PosTy.pos 3 0) false (stepCosts (PosTy.pos 3 0) [] cycleCosts) (0, 0) (3, 0) 100 = .ok (.error .loop) ∧
    @Ucs.pathHash release64 (PosTy.pos 1 0) false (stepCosts (PosTy.pos 1 0) [] fun _ _ => 18446744073709551615) (0, 0) (1, 0) 100 =
      .ok (.error .destinationUnreachable) ∧
    @Ucs.pathHash debug64 (PosTy.pos 3 1) false (stepCosts (PosTy.pos 3 1) [] hugeCosts) (0, 0) (3, 0) 100 = .panic := by decide +kernel
example : @UsizeCosts release64 (stepCosts (PosTy.pos 3 1) [] hugeCosts) ∧ Adjacent (PosTy.pos 3 1) (dropCost (stepCosts (PosTy.pos 3 1) [] hugeCosts)) :=
  ⟨@stepCosts_usize release64 _ _ _ hugeCosts_bounds, stepCosts_adjacent _ _ _⟩

/-! ## C106 -/

/-- C106. On every machine and in every build, for every `Pos<XMAX, YMAX>`: `width()` and `height()` are the numbers of columns and lines, `to_usize` is the
rank in reading order, `tryfrom_usize` inverts it and gives OutOfBounds for every other number. -/
theorem C106_pos [Target] (xmax ymax : Int) (hx : 0 ≤ xmax ∧ xmax ≤ 65535) (hy : 0 ≤ ymax ∧ ymax ≤ 65535) :
    (PosTy.pos xmax ymax).width = .ok (xmax + 1) ∧ (PosTy.pos xmax ymax).height = .ok (ymax + 1) ∧
    (∀ p, InGrid (PosTy.pos xmax ymax) p → (PosTy.pos xmax ymax).toUsize p = .ok (p.2 * (xmax + 1) + p.1) ∧
      (PosTy.pos xmax ymax).tryFromUsize (p.2 * (xmax + 1) + p.1) = .ok (.ok p)) ∧
    ∀ i, (xmax + 1) * (ymax + 1) ≤ i → (PosTy.pos xmax ymax).tryFromUsize i = .ok (.error .outOfBounds) := by
  have hl := limit_pos
  have hW : (PosTy.pos xmax ymax).X.MAX = xmax ∧ (PosTy.pos xmax ymax).Y.MAX = ymax ∧ (PosTy.pos xmax ymax).X.MIN = 0 ∧ (PosTy.pos xmax ymax).Y.MIN = 0 := ⟨rfl, rfl, rfl, rfl⟩
  have hWF : (PosTy.pos xmax ymax).WF := ⟨⟨by decide, Int.le_refl 0, hx.1, hx.2⟩, ⟨by decide, Int.le_refl 0, hy.1, hy.2⟩⟩
  generalize PosTy.pos xmax ymax = T at *
  obtain ⟨a, b, c, d⟩ := hW
  have wh : T.width = .ok (xmax + 1) ∧ T.height = .ok (ymax + 1) := by
    cases hc : Target.checks with
    | true => rw [(C76_width_height_exact hc T).1, (C76_width_height_exact hc T).2, a, b, if_pos (by omega), if_pos (by omega)]; exact ⟨rfl, rfl⟩
    | false =>
      rw [(C104_width_height hc T).1, (C104_width_height hc T).2, a, b, if_pos (by omega), if_pos (by omega), Int.emod_eq_of_lt (by omega) (by omega),
        Int.emod_eq_of_lt (by omega) (by omega)]
      exact ⟨rfl, rfl⟩
  have tf : ∀ i, T.tryFromUsize i = .ok (if T.Valid (i % (xmax + 1), i / (xmax + 1)) then .ok (i % (xmax + 1), i / (xmax + 1)) else .error .outOfBounds) := by
    intro i
    cases hc : Target.checks with
    | true => rw [C76_tryfrom_usize_exact hc T hWF, a, if_pos (by omega)]
    | false => rw [C104_tryfrom_usize hc T hWF, a, if_pos (by omega)]
  refine ⟨wh.1, wh.2, fun p hp => ⟨?_, ?_⟩, fun i hi => ?_⟩
  · have hp' := hp
    simp only [InGrid, a, b, c, d] at hp'
    have h1 : 0 ≤ p.2 * (xmax + 1) := Int.mul_nonneg (by omega) (by omega)
    have h2 : p.2 * (xmax + 1) ≤ 65535 * 65536 := Int.mul_le_mul (by omega) (by omega) (by omega) (by omega)
    cases hc : Target.checks with
    | true => rw [C76_to_usize_exact hc T p hp, a, if_pos ⟨by omega, by omega, by omega, by omega⟩]
    | false =>
      rw [C104_to_usize hc, a, if_pos ⟨⟨by omega, by omega⟩, ⟨by omega, by omega⟩, by omega, by omega⟩, Int.emod_eq_of_lt (by omega) (by omega)]
  · have hp' := hp
    simp only [InGrid, a, b, c, d] at hp'
    have e1 : (p.2 * (xmax + 1) + p.1) / (xmax + 1) = p.2 := by
      rw [Int.add_comm, Int.add_mul_ediv_right _ _ (by omega), Int.ediv_eq_zero_of_lt (by omega) (by omega)]; omega
    have e2 : (p.2 * (xmax + 1) + p.1) % (xmax + 1) = p.1 := by
      rw [Int.add_comm, Int.add_mul_emod_self_right, Int.emod_eq_of_lt (by omega) (by omega)]
    rw [tf, e1, e2, if_pos (show T.Valid (p.1, p.2) from hp)]
  · rw [tf, if_neg]
    intro h
    have h := h.2
    simp only [BTy.Valid, b] at h
    have : ymax + 1 ≤ i / (xmax + 1) := by
      rw [Int.le_ediv_iff_mul_le (by omega), Int.mul_comm]
      exact hi
    omega

/-- What C106 claims: on every machine `dimensions()` is the number of positions of every `Pos<XMAX, YMAX>`. -/
def C106_claim : Prop := ∀ [Target] (xmax ymax : Int), 0 ≤ xmax ∧ xmax ≤ 65535 → 0 ≤ ymax ∧ ymax ≤ 65535 →
  (PosTy.pos xmax ymax).dimensions = .ok ((xmax + 1) * (ymax + 1))

/-- C106 does not hold: on a 32-bit machine `Pos::<65535, 65535>::dimensions()` panics in a debug build and is 0 in a release build. -/
theorem C106_refuted : ¬ C106_claim := fun h => absurd (@h release32 65535 65535 (by decide) (by decide)) (by decide)

/-- C106, exact: `dimensions()` of `Pos<XMAX, YMAX>` is the number of positions, except for `Pos<65535, 65535>` on a 32-bit machine, where it panics with
overflow checks and is 0 without. -/
theorem C106_dimensions_exact [Target] (xmax ymax : Int) (hx : 0 ≤ xmax ∧ xmax ≤ 65535) (hy : 0 ≤ ymax ∧ ymax ≤ 65535) :
    (PosTy.pos xmax ymax).dimensions = if Target.wide = false ∧ xmax = 65535 ∧ ymax = 65535
      then (if Target.checks then .panic else .ok 0) else .ok ((xmax + 1) * (ymax + 1)) := by
  obtain ⟨h1, h2, -⟩ := C106_pos xmax ymax hx hy
  rw [PosTy.dimensions, h1, h2, Out.ok_bind, Out.ok_bind, IntTy.mul, IntTy.arith]
  by_cases h : Target.wide = false ∧ xmax = 65535 ∧ ymax = 65535
  · rw [if_pos h]
    obtain ⟨h, rfl, rfl⟩ := h
    have hl : limit = 4294967295 := by rw [limit, h]; rfl
    rw [if_neg (by rw [IntTy.usize_has, hl]; decide), usize_cast_release, hl]
    rfl
  · rw [if_neg h, if_pos]
    rw [IntTy.usize_has]
    have h0 : 0 ≤ (xmax + 1) * (ymax + 1) := Int.mul_nonneg (by omega) (by omega)
    refine ⟨h0, ?_⟩
    by_cases hw : Target.wide = true
    · have hl : limit = 18446744073709551615 := by rw [limit, hw]; rfl
      have : (xmax + 1) * (ymax + 1) ≤ 65536 * 65536 := Int.mul_le_mul (by omega) (by omega) (by omega) (by omega)
      omega
    · have hw : Target.wide = false := by simpa using hw
      have hl : limit = 4294967295 := by rw [limit, hw]; rfl
      by_cases h3 : xmax = 65535
      · subst h3
        have : ymax ≠ 65535 := fun e => h ⟨hw, rfl, e⟩
        omega
      · have : (xmax + 1) * (ymax + 1) ≤ 65535 * 65536 := Int.mul_le_mul (by omega) (by omega) (by omega) (by omega)
        omega

/-- C106, the part that holds: the claim for every `Pos<XMAX, YMAX>` with at most 4294967295 positions. -/
theorem C106_dimensions_partial [Target] (xmax ymax : Int) (hx : 0 ≤ xmax ∧ xmax ≤ 65535) (hy : 0 ≤ ymax ∧ ymax ≤ 65535)
    (h : xmax ≠ 65535 ∨ ymax ≠ 65535) : (PosTy.pos xmax ymax).dimensions = .ok ((xmax + 1) * (ymax + 1)) := by
  rw [C106_dimensions_exact _ _ hx hy, if_neg (by omega)]

example : @PosTy.dimensions debug32 (PosTy.pos 65535 65535) = .panic ∧ @PosTy.dimensions release32 (PosTy.pos 65535 65535) = .ok 0 ∧
    @PosTy.dimensions debug32 (PosTy.pos 65535 65534) = .ok 4294901760 ∧ @PosTy.toUsize release32 (PosTy.pos 65535 65535) (65535, 65535) = .ok 4294967295 ∧
    @PosTy.tryFromUsize release32 (PosTy.pos 65535 65535) 4294967295 = .ok (.ok (65535, 65535)) := by decide

end Sqrid
