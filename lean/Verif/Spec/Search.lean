import Verif.Spec.Grid
/-!
# Specification vocabulary: sets, maps, paths and distances

`go p d` is the position reached from `p` by moving in direction `d`, if the movement is allowed. In a weighted movement function it comes with
the cost of the step.
-/

namespace Sqrid

/-- A grid on which the arithmetic of the searches fits a `usize`: the square of the number of columns, the number of positions plus twice the
longest distance, and four times the longest distance (a capacity of twice the distance has to fit `isize`). On a 64-bit machine every `Pos<XMAX, YMAX>` is one (`PosTy.pos_searchable`), and so are `(u8, u8)` and `(u16, u16)`. -/
structure PosTy.Searchable [Target] (T : PosTy) : Prop extends T.IsGrid where
  square : (T.X.MAX + 1) * (T.X.MAX + 1) + 1 ≤ Spec.limit
  room : (T.X.MAX + 1) * (T.Y.MAX + 1) + 2 * (T.X.MAX + T.Y.MAX) ≤ Spec.limit
  alloc : 4 * (T.X.MAX + T.Y.MAX) ≤ Spec.limit

namespace Spec

/-- The arithmetic of the searches on `Pos<XMAX, YMAX>` fits a `usize`: always with 64 bits; with 32 bits, almost up to the largest types (for
instance if XMAX and YMAX are at most 65000). -/
def FitsSearch [Target] (xmax ymax : Int) : Prop :=
  Target.wide = true ∨ xmax < 65535 ∧ (xmax + 1) * (ymax + 1) + 2 * (xmax + ymax) ≤ 4294967295

instance (T : PosTy) (p : Int × Int) : Decidable (InGrid T p) := inferInstanceAs (Decidable ((_ ∧ _) ∧ (_ ∧ _)))

/-- The operations that change a set of positions. -/
inductive SetOp where
  /-- `insert(p)` -/
  | insert (p : Int × Int)
  /-- `remove(p)` -/
  | remove (p : Int × Int)
  /-- `set(p, add)` -/
  | set (p : Int × Int) (add : Bool)

/-- The membership an operation writes. -/
def SetOp.write : SetOp → (Int × Int) × Bool
  | .insert p => (p, true)
  | .remove p => (p, false)
  | .set p add => (p, add)

/-! ### Paths -/

/-- Follows a list of directions from `p`; nothing if a movement is not allowed. -/
def follow (go : Int × Int → Dir → Option (Int × Int)) : Int × Int → List Dir → Option (Int × Int)
  | p, [] => some p
  | p, d :: ds => match go p d with
    | none => none
    | some q => follow go q ds

/-- The directions of a mode: all of them with diagonals, the ones along an axis without. -/
def Allowed (D : Bool) (d : Dir) : Prop := D = true ∨ (unit d).1 = 0 ∨ (unit d).2 = 0

/-- `ds` is a path from `p` to `q` in the mode `D`. -/
def IsPath (go : Int × Int → Dir → Option (Int × Int)) (D : Bool) (p : Int × Int) (ds : List Dir) (q : Int × Int) : Prop :=
  (∀ d ∈ ds, Allowed D d) ∧ follow go p ds = some q

/-- There is a path. -/
def Reachable (go : Int × Int → Dir → Option (Int × Int)) (D : Bool) (p q : Int × Int) : Prop := ∃ ds, IsPath go D p ds q

/-- `n` is the length of the shortest paths from `p` to `q`. -/
def IsDist (go : Int × Int → Dir → Option (Int × Int)) (D : Bool) (p q : Int × Int) (n : Nat) : Prop :=
  (∃ ds, IsPath go D p ds q ∧ ds.length = n) ∧ ∀ ds, IsPath go D p ds q → n ≤ ds.length

/-- The movement function stays in the grid. -/
def StaysIn (T : PosTy) (go : Int × Int → Dir → Option (Int × Int)) : Prop :=
  ∀ p d q, InGrid T p → go p d = some q → InGrid T q

/-- The movement function only goes to the neighbour in the given direction. -/
def Adjacent (T : PosTy) (go : Int × Int → Dir → Option (Int × Int)) : Prop :=
  ∀ p d q, InGrid T p → go p d = some q → InGrid T q ∧ q = neighbour p d

/-- The usual movement function: to the neighbour in the direction, if it is in the grid and not a wall. -/
def aroundWalls (T : PosTy) (walls : List (Int × Int)) (p : Int × Int) (d : Dir) : Option (Int × Int) :=
  if InGrid T (neighbour p d) ∧ neighbour p d ∉ walls then some (neighbour p d) else none

/-! ### Weighted paths -/

/-- A weighted movement function without the costs. -/
def dropCost (go : Int × Int → Dir → Option ((Int × Int) × Int)) (p : Int × Int) (d : Dir) : Option (Int × Int) := (go p d).map Prod.fst

/-- Sum of the costs of the steps. -/
def pathCost (go : Int × Int → Dir → Option ((Int × Int) × Int)) : Int × Int → List Dir → Option Int
  | _, [] => some 0
  | p, d :: ds => match go p d with
    | none => none
    | some (q, w) => (pathCost go q ds).map fun c => w + c

/-- `ds` is a path from `p` to `q` of total cost `n`. -/
def IsCostPath (go : Int × Int → Dir → Option ((Int × Int) × Int)) (D : Bool) (p : Int × Int) (ds : List Dir) (q : Int × Int) (n : Int) : Prop :=
  IsPath (dropCost go) D p ds q ∧ pathCost go p ds = some n

/-- `n` is the cost of the cheapest paths from `p` to `q`. -/
def IsMinCost (go : Int × Int → Dir → Option ((Int × Int) × Int)) (D : Bool) (p q : Int × Int) (n : Int) : Prop :=
  (∃ ds, IsCostPath go D p ds q n) ∧ ∀ ds m, IsCostPath go D p ds q m → n ≤ m

/-- The costs are `usize`s. -/
def UsizeCosts [Target] (go : Int × Int → Dir → Option ((Int × Int) × Int)) : Prop := ∀ p d q w, go p d = some (q, w) → 0 ≤ w ∧ w ≤ limit

/-- The cheapest way to a position, plus a step from it, never goes over the limit; except where the cheapest way already costs as much as the limit. -/
def NoOverflow [Target] (go : Int × Int → Dir → Option ((Int × Int) × Int)) (D : Bool) (orig : Int × Int) : Prop :=
  ∀ p n d q w, IsMinCost go D orig p n → n < limit → Allowed D d → go p d = some (q, w) → n + w ≤ limit

/-- The same, strictly below the limit. -/
def BelowLimit [Target] (go : Int × Int → Dir → Option ((Int × Int) × Int)) (D : Bool) (orig : Int × Int) : Prop :=
  ∀ p n d q w, IsMinCost go D orig p n → Allowed D d → go p d = some (q, w) → n + w < limit

/-- The cost of a step depends only on the position it leads to. -/
def EnterCost (go : Int × Int → Dir → Option ((Int × Int) × Int)) : Prop :=
  ∀ u u' d d' q w w', go u d = some (q, w) → go u' d' = some (q, w') → w = w'

/-- Every step costs 1. -/
def unitCost (go : Int × Int → Dir → Option (Int × Int)) : Int × Int → Dir → Option ((Int × Int) × Int) := fun p d => (go p d).map fun q => (q, 1)

/-- Around walls, with a cost for each step. -/
def stepCosts (T : PosTy) (walls : List (Int × Int)) (cost : Int × Int → Dir → Int) (p : Int × Int) (d : Dir) : Option ((Int × Int) × Int) :=
  (aroundWalls T walls p d).map fun q => (q, cost p d)

/-! ### Following a "came from" map backwards -/

/-- The arithmetic of `camefrom_into_path` from `orig` to `dest` stays within its types: the differences of the coordinates are values of the types of
the coordinates, twice the distance is at most the largest `isize`, and the largest x coordinate is not negative and the square of the number of
columns from 0 on, plus 1, is a `usize`. -/
structure WayFits [Target] (T : PosTy) (orig dest : Int × Int) : Prop where
  dx : T.X.Valid (orig.1 - dest.1).natAbs
  dy : T.Y.Valid (orig.2 - dest.2).natAbs
  room : 4 * l1 orig dest ≤ limit
  nonneg : 0 ≤ T.X.MAX
  square : (T.X.MAX + 1) * (T.X.MAX + 1) + 1 ≤ limit

instance [Target] (T : PosTy) (orig dest : Int × Int) : Decidable (WayFits T orig dest) :=
  decidable_of_iff (T.X.Valid (orig.1 - dest.1).natAbs ∧ T.Y.Valid (orig.2 - dest.2).natAbs ∧ 4 * l1 orig dest ≤ limit ∧ 0 ≤ T.X.MAX ∧
    (T.X.MAX + 1) * (T.X.MAX + 1) + 1 ≤ limit) ⟨fun ⟨a, b, c, d, e⟩ => ⟨a, b, c, d, e⟩, fun ⟨a, b, c, d, e⟩ => ⟨a, b, c, d, e⟩⟩

/-- The result `r` of a search that has found the way `path` from `orig` to `dest`, and that returns `a` if it returns it. -/
structure ReturnsWay [Target] {α : Type} (T : PosTy) (orig dest : Int × Int) (path : List Dir) (a : α) (r : Out (Res α)) : Prop where
  fits : WayFits T orig dest → r = .ok (if (path.length : Int) ≤ (T.X.MAX + 1) * (T.X.MAX + 1) then .ok a else .error .loop)
  far : ¬ (T.X.Valid (orig.1 - dest.1).natAbs ∧ T.Y.Valid (orig.2 - dest.2).natAbs) → r = .panic
  checked : ¬ WayFits T orig dest → Target.checks = true → r = .panic
  only : r = .ok (.ok a) ∨ r = .ok (.error .loop) ∨ r = .panic

/-- The sums of A* stay within their types: at each position that can be reached the differences of the coordinates to those of the destination are
values of their types, and the distance to the destination plus `n` is a `usize`. -/
def SumsFit [Target] (T : PosTy) (go : Int × Int → Dir → Option (Int × Int)) (D : Bool) (orig dest : Int × Int) (n : Nat) : Prop :=
  ∀ q, Reachable go D orig q → T.X.Valid (q.1 - dest.1).natAbs ∧ T.Y.Valid (q.2 - dest.2).natAbs ∧ n + l1 q dest ≤ limit

/-- Following the directions of the map from `p` leads to `orig` for the first time after as many steps as `path` has; `path` is the way back. -/
inductive Arrives (T : PosTy) (map : Int × Int → Option Dir) (orig : Int × Int) : Int × Int → List Dir → Prop
  | here : Arrives T map orig orig []
  | step {p d path} : p ≠ orig → map p = some d → InGrid T (neighbour p d) → Arrives T map orig (neighbour p d) path →
      Arrives T map orig p (path ++ [opposite d])

/-- Following the directions of the map from `p` leads, after `n` steps and without going through `orig`, to a position with no direction, or whose direction
leads out of the grid. -/
inductive GetsStuck (T : PosTy) (map : Int × Int → Option Dir) (orig : Int × Int) : Int × Int → Nat → Prop
  | here {p} : p ≠ orig → (∀ d, map p = some d → ¬ InGrid T (neighbour p d)) → GetsStuck T map orig p 0
  | step {p d n} : p ≠ orig → map p = some d → InGrid T (neighbour p d) → GetsStuck T map orig (neighbour p d) n →
      GetsStuck T map orig p (n + 1)

end Spec

end Sqrid
