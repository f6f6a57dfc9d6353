import Verif.Proofs.NoUb
import Verif.Props.Ucs
import Verif.Props.Gridbool
/-!
# Properties of the functions of `Sqrid` types: C92, C93

`SqridTy` is the list of const parameters of a `Sqrid` type, `SqridTy.create` is `sqrid_create!`; each function takes the position type it is used with.
-/

namespace Sqrid

-- Statements that do not mention a target are about a debug build for a 64-bit machine.
attribute [local instance] debug64

open Spec

/-! ## C92 -/

theorem SqridTy.words_of_compiles [Target] {T : PosTy} (hw : T.WIDTH = cols T) (hh : T.HEIGHT = rows T) {S : SqridTy} (h : S.compiles T = true) :
    cols T * rows T ≤ 32 * (S.WORDS : Int) := by
  simp only [compiles, Gridbool.staticOk, Bool.and_eq_true, decide_eq_true_eq] at h
  have h1 := h.2.1
  rw [hw, hh] at h1
  omega

theorem PosTy.pos_WIDTH (xmax ymax : Int) : (PosTy.pos xmax ymax).WIDTH = cols (PosTy.pos xmax ymax) := by
  show xmax + 1 = xmax - 0 + 1
  omega

theorem PosTy.pos_HEIGHT (xmax ymax : Int) : (PosTy.pos xmax ymax).HEIGHT = rows (PosTy.pos xmax ymax) := by
  show ymax + 1 = ymax - 0 + 1
  omega

/-- C92. The parameters computed by `sqrid_create!`, in both of its forms, and by `grid_create!` and `gridbool_create!`, fit the positions made by
`pos_create!`: the calls compile and every theorem about the traversal and the three searches applies to the functions of the type. -/
theorem C92_own_positions [Target] (xmax ymax : Nat) (hx : xmax ≤ 65535) (hy : ymax ≤ 65535) (hfit : FitsSearch xmax ymax) (D : Bool) (S : SqridTy)
    (hS : S = SqridTy.create xmax ymax D ∨ S = SqridTy.createPos (xmax, ymax) D) :
    S.posCreate = PosTy.pos xmax ymax ∧ S.posCreate.Searchable ∧ S.D = D ∧
    S.compiles S.posCreate = true ∧ Gridbool.staticOk S.posCreate S.gridboolCreateWords = true ∧
    (S.gridCreateSize : Int) = cols S.posCreate * rows S.posCreate ∧
    (∃ iter, Bf.IsIter S.posCreate iter ∧ S.bfIter S.posCreate = iter D) ∧
    (∃ iter, Bf.IsIter S.posCreate iter ∧ S.bfIterHash = iter D) ∧
    (∃ iter, Bf.IsIter S.posCreate iter ∧ S.bfIterBtree = iter D) ∧
    (∃ bfs, Bf.IsSearch S.posCreate bfs ∧ S.bfsPath S.posCreate = bfs D) ∧
    (∃ bfs, Bf.IsSearch S.posCreate bfs ∧ S.bfsPathHash S.posCreate = bfs D) ∧
    (∃ bfs, Bf.IsSearch S.posCreate bfs ∧ S.bfsPathBtree S.posCreate = bfs D) ∧
    (∃ astar, Astar.IsSearch S.posCreate astar ∧ S.astarPath S.posCreate = astar D) ∧
    (∃ astar, Astar.IsSearch S.posCreate astar ∧ S.astarPathHash S.posCreate = astar D) ∧
    (∃ astar, Astar.IsSearch S.posCreate astar ∧ S.astarPathBtree S.posCreate = astar D) ∧
    (∃ ucs, Ucs.IsSearch S.posCreate ucs ∧ S.ucsPath S.posCreate = ucs D) ∧
    (∃ ucs, Ucs.IsSearch S.posCreate ucs ∧ S.ucsPathHash S.posCreate = ucs D) ∧
    (∃ ucs, Ucs.IsSearch S.posCreate ucs ∧ S.ucsPathBtree S.posCreate = ucs D) := by
  have e : SqridTy.createPos (xmax, ymax) D = SqridTy.create xmax ymax D := rfl
  rw [e, or_self] at hS
  subst hS
  have hT : (PosTy.pos xmax ymax).Searchable := PosTy.pos_searchable (by omega) (by omega) hfit
  have hfit' : Fits xmax ymax := hfit.imp id fun h => .inl h.1
  obtain ⟨h1, -, h3⟩ := C43_macros xmax ymax hx hy hfit' _ (.inr rfl)
  obtain ⟨h4, -, -⟩ := C43_macros xmax ymax hx hy hfit' _ (.inl rfl)
  have hW := SqridTy.words_of_compiles (PosTy.pos_WIDTH _ _) (PosTy.pos_HEIGHT _ _) (S := SqridTy.create xmax ymax D) h1
  have hZ : cols (PosTy.pos xmax ymax) * rows (PosTy.pos xmax ymax) ≤ ((SqridTy.create xmax ymax D).SIZE : Int) := Int.le_of_eq h3.symm
  exact ⟨rfl, hT, rfl, h1, h4, h3, ⟨_, .inl ⟨_, hW, rfl⟩, rfl⟩, ⟨_, .inr (.inl rfl), rfl⟩, ⟨_, .inr (.inr rfl), rfl⟩,
    ⟨_, .inl ⟨_, _, hW, hZ, rfl⟩, rfl⟩, ⟨_, .inr (.inl rfl), rfl⟩, ⟨_, .inr (.inr rfl), rfl⟩,
    ⟨_, .inl ⟨_, hZ, rfl⟩, rfl⟩, ⟨_, .inr (.inl rfl), rfl⟩, ⟨_, .inr (.inr rfl), rfl⟩,
    ⟨_, .inl ⟨_, hZ, rfl⟩, rfl⟩, ⟨_, .inr (.inl rfl), rfl⟩, ⟨_, .inr (.inr rfl), rfl⟩⟩

example : (SqridTy.create 7 3 true).bfsPath (PosTy.pos 7 3) (aroundWalls (PosTy.pos 7 3) [(1, 0)]) (0, 0) (fun p => p.1 == 2) 33 =
    .ok (.ok ((2, 0), [.SE, .NE])) := by decide +kernel
-- a grid with a multiple of 32 cells: `sqrid_create!` adds one word, `gridbool_create!` does not
example : (SqridTy.create 7 3 true).WORDS = 2 ∧ (SqridTy.create 7 3 true).gridboolCreateWords = 1 := by decide

/-! ## C93 -/

/-- C93, the full claim for the functions that use a `Grid`, with any position type that compiles. -/
def C93_bfs_claim [Target] : Prop :=
  ∀ (S : SqridTy) (T : PosTy), T.Searchable → S.compiles T = true → ∀ go, StaysIn T go → ∀ orig, InGrid T orig → ∀ found fuel,
    S.bfsPath T go orig found fuel ≠ .ub

@[inherit_doc C93_bfs_claim]
def C93_astar_claim [Target] : Prop :=
  ∀ (S : SqridTy) (T : PosTy), T.Searchable → ∀ go, StaysIn T go → ∀ orig dest, InGrid T orig → InGrid T dest → ∀ fuel,
    S.astarPath T go orig dest fuel ≠ .ub

@[inherit_doc C93_bfs_claim]
def C93_ucs_claim [Target] : Prop :=
  ∀ (S : SqridTy) (T : PosTy), T.Searchable → ∀ go, StaysIn T (dropCost go) → ∀ orig dest, InGrid T orig → InGrid T dest → ∀ fuel,
    S.ucsPath T go orig dest fuel ≠ .ub

/-- C93 does not hold: `sqrid_create!(1, 1, false)` has SIZE 4, and nothing stops its `bfs_path` from being called with positions of `Pos<2, 1>`, of
which there are 6. -/
theorem C93_refuted_bfs [Target] : ¬ C93_bfs_claim := fun h =>
  h (SqridTy.create 1 1 false) (PosTy.pos 2 1) (PosTy.pos_searchable (by decide_target) (by decide_target) (by fits_small)) (by decide_target) (aroundWalls (PosTy.pos 2 1) [])
    (aroundWalls_adjacent _ _).staysIn (0, 0) (by decide_target) (fun p => p == (2, 1)) 7 (by decide_target)

/-- C93 does not hold for `astar_path` either, with positions of a type of any size. -/
theorem C93_refuted_astar [Target] : ¬ C93_astar_claim := fun h =>
  h (SqridTy.create 1 1 false) (PosTy.pos 99 99) (PosTy.pos_searchable (by decide_target) (by decide_target) (by fits_small)) (aroundWalls (PosTy.pos 99 99) [])
    (aroundWalls_adjacent _ _).staysIn (0, 0) (0, 9) (by decide_target) (by decide_target) 9 (by decide_target)

/-- C93 does not hold for `ucs_path` either. -/
theorem C93_refuted_ucs [Target] : ¬ C93_ucs_claim := fun h =>
  h (SqridTy.create 1 1 false) (PosTy.pos 99 99) (PosTy.pos_searchable (by decide_target) (by decide_target) (by fits_small))
    (stepCosts (PosTy.pos 99 99) [] fun _ _ => 1) (by rw [dropCost_stepCosts]; exact (aroundWalls_adjacent _ _).staysIn)
    (0, 0) (0, 9) (by decide_target) (by decide_target) 9 (by decide_target)

/-- C93, the part that holds, for `bfs_path`: when the type has at least as many cells as there are positions, there is no undefined behaviour, and the
result is the one of `bfs_path_hash`. Missing: nothing checks that. -/
theorem C93_bfs_partial [Target] (S : SqridTy) (T : PosTy) (hT : T.Searchable) (hw : T.WIDTH = cols T) (hh : T.HEIGHT = rows T)
    (hS : S.compiles T = true) (hsize : cols T * rows T ≤ (S.SIZE : Int)) (go)
    (hgo : StaysIn T go) (orig : Int × Int) (ho : InGrid T orig) (found fuel) :
    S.bfsPath T go orig found fuel ≠ .ub ∧ S.bfsPath T go orig found fuel = S.bfsPathHash T go orig found fuel := by
  have h := (C54_search_agree T hT S.WORDS S.SIZE (SqridTy.words_of_compiles hw hh hS) hsize S.D go hgo orig ho found fuel).1
  have h' : S.bfsPath T go orig found fuel = S.bfsPathHash T go orig found fuel := h.symm
  exact ⟨by rw [h']; exact Bf.searchPath_noUb T SetImpl.hash_safe (MapImpl.hash_safe none) S.D go orig found fuel, h'⟩

/-- C93, the part that holds, for `bf_iter`: it only uses a `Gridbool`, whose size is checked. The constants WIDTH and HEIGHT are
right for `Pos`; for tuples see C44. -/
theorem C93_bf_iter [Target] (S : SqridTy) (T : PosTy) (hT : T.IsGrid) (hw : T.WIDTH = cols T) (hh : T.HEIGHT = rows T) (hS : S.compiles T = true) (go) (hgo : StaysIn T go) (orig : Int × Int)
    (ho : InGrid T orig) (fuel) :
    S.bfIter T go orig fuel ≠ .ub ∧ S.bfIter T go orig fuel = S.bfIterHash go orig fuel := by
  have h := (C54_iter_agree T hT S.WORDS (SqridTy.words_of_compiles hw hh hS) S.D go hgo orig ho fuel).1
  have h' : S.bfIter T go orig fuel = S.bfIterHash go orig fuel := h.symm
  exact ⟨by rw [h']; exact Bf.iterAll_noUb SetImpl.hash_safe S.D go orig fuel, h'⟩

/-- C93, the part that holds, for `astar_path`. -/
theorem C93_astar_partial [Target] (S : SqridTy) (T : PosTy) (hT : T.Searchable) (hsize : cols T * rows T ≤ (S.SIZE : Int)) (go) (hgo : StaysIn T go)
    (orig dest : Int × Int) (ho : InGrid T orig) (hd : InGrid T dest) (fuel) :
    S.astarPath T go orig dest fuel ≠ .ub ∧ S.astarPath T go orig dest fuel = S.astarPathHash T go orig dest fuel := by
  have h' : S.astarPath T go orig dest fuel = S.astarPathHash T go orig dest fuel :=
    C59_agree T hT _ _ (.inl ⟨S.SIZE, hsize, rfl⟩) (.inr (.inl rfl)) S.D go hgo orig dest ho hd fuel
  exact ⟨by rw [h']; exact Astar.searchPath_noUb T (MapImpl.hash_safe none) (MapImpl.hash_safe 0) S.D go orig dest fuel, h'⟩

/-- C93, the part that holds, for `ucs_path`. -/
theorem C93_ucs_partial [Target] (S : SqridTy) (T : PosTy) (hT : T.Searchable) (hsize : cols T * rows T ≤ (S.SIZE : Int)) (go)
    (hgo : StaysIn T (dropCost go)) (orig dest : Int × Int) (ho : InGrid T orig) (hd : InGrid T dest) (fuel) :
    S.ucsPath T go orig dest fuel ≠ .ub ∧ S.ucsPath T go orig dest fuel = S.ucsPathHash T go orig dest fuel := by
  have h' : S.ucsPath T go orig dest fuel = S.ucsPathHash T go orig dest fuel :=
    C65_agree T hT _ _ (.inl ⟨S.SIZE, hsize, rfl⟩) (.inr (.inl rfl)) S.D go hgo orig dest ho hd fuel
  exact ⟨by rw [h']; exact Ucs.searchPath_noUb T (MapImpl.hash_safe none) (MapImpl.hash_safe 0) S.D go orig dest fuel, h'⟩

/-- C93. The functions that use the std collections have no undefined behaviour, whatever the types, the positions and the movement function. -/
theorem C93_std [Target] (S : SqridTy) (T : PosTy) (go) (wgo) (orig dest : Int × Int) (found fuel) :
    S.bfIterHash go orig fuel ≠ .ub ∧ S.bfIterBtree go orig fuel ≠ .ub ∧
    S.bfsPathHash T go orig found fuel ≠ .ub ∧ S.bfsPathBtree T go orig found fuel ≠ .ub ∧
    S.astarPathHash T go orig dest fuel ≠ .ub ∧ S.astarPathBtree T go orig dest fuel ≠ .ub ∧
    S.ucsPathHash T wgo orig dest fuel ≠ .ub ∧ S.ucsPathBtree T wgo orig dest fuel ≠ .ub :=
  ⟨Bf.iterAll_noUb SetImpl.hash_safe _ _ _ _, Bf.iterAll_noUb SetImpl.btree_safe _ _ _ _,
   Bf.searchPath_noUb T SetImpl.hash_safe (MapImpl.hash_safe none) _ _ _ _ _, Bf.searchPath_noUb T SetImpl.btree_safe (MapImpl.btree_safe none) _ _ _ _ _,
   Astar.searchPath_noUb T (MapImpl.hash_safe none) (MapImpl.hash_safe 0) _ _ _ _ _, Astar.searchPath_noUb T (MapImpl.btree_safe none) (MapImpl.btree_safe 0) _ _ _ _ _,
   Ucs.searchPath_noUb T (MapImpl.hash_safe none) (MapImpl.hash_safe 0) _ _ _ _ _, Ucs.searchPath_noUb T (MapImpl.btree_safe none) (MapImpl.btree_safe 0) _ _ _ _ _⟩

-- positions of a smaller type
example : (SqridTy.create 5 5 false).compiles (PosTy.pos 6 4) = true ∧ cols (PosTy.pos 6 4) * rows (PosTy.pos 6 4) ≤ ((SqridTy.create 5 5 false).SIZE : Int) := by
  decide
example : (PosTy.pos 6 4).WIDTH = cols (PosTy.pos 6 4) ∧ (PosTy.pos 6 4).HEIGHT = rows (PosTy.pos 6 4) := by decide
example : (SqridTy.create 5 5 false).astarPath (PosTy.pos 6 4) (aroundWalls (PosTy.pos 6 4) []) (6, 3) (4, 4) 3000 = .ok (.ok [.S, .W, .W]) := by
  decide +kernel

end Sqrid
