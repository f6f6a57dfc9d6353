import Verif.Model.SetMap
import Verif.Model.Heap
/-!
# Model of /repo/src/sqrid/astar.rs

`go` is a total function; Closure.lean has the same code with closures that panic or have side effects. Closures that never return are not modelled. Fuel bounds the number of calls to `next` (Rust has
no bound; running out is reported as `timeout`).
-/

namespace Sqrid

/-- `usize::MAX`. -/
def usizeMax [Target] : Int := IntTy.usize.hi

/-- `AstarIterator`, astar.rs:63-75 (without `go` and `dest`). -/
structure AstarIter (C : MapImpl Int) where
  cost : C.σ
  frontier : List Entry

namespace AstarIter

/-- `AstarIterator::new`, astar.rs:83-99. -/
def new [Target] (C : MapImpl Int) (orig : Int × Int) : Out (AstarIter C) := do
  let cost ← C.set (C.new usizeMax) orig 0
  .ok { cost, frontier := Heap.push [] (0, orig, Dir.N) }

/-- Body of the loop of `next`, astar.rs:115-122. -/
def relax [Target] (T : PosTy) (C : MapImpl Int) (go : Int × Int → Dir → Option (Int × Int)) (dest pos : Int × Int) (st : AstarIter C) (dir : Dir) :
    Out (AstarIter C) := do
  let c ← C.get st.cost pos
  let newcost ← IntTy.usize.add c 1
  match go pos dir with
  | none => .ok st
  | some nextPos => do
    let old ← C.get st.cost nextPos
    if newcost < old then do
      let cost ← C.set st.cost nextPos newcost
      let h ← T.manhattan nextPos dest
      let priority ← IntTy.usize.add newcost h
      let neg ← dir.flip
      .ok { cost, frontier := Heap.push st.frontier (priority, nextPos, neg) }
    else .ok st

/-- `AstarIterator::next`, astar.rs:111-128. -/
def next [Target] (T : PosTy) (C : MapImpl Int) (D : Bool) (go : Int × Int → Dir → Option (Int × Int)) (dest : Int × Int) (s : AstarIter C) :
    Out (Option ((Int × Int) × Dir) × AstarIter C) :=
  match Heap.pop s.frontier with
  | some ((_, mov), frontier) => do
    let dirs ← DirIter.toList D
    let s ← dirs.foldlM (relax T C go dest mov.1) { s with frontier }
    .ok (some mov, s)
  | none => .ok (none, s)

end AstarIter

namespace Astar

/-- The loop of `search_mapmov`, astar.rs:158-164. -/
def searchLoop [Target] (T : PosTy) (M : MapImpl (Option Dir)) (C : MapImpl Int) (D : Bool) (go : Int × Int → Dir → Option (Int × Int))
    (dest : Int × Int) : Nat → AstarIter C → M.σ → Out (Res M.σ)
  | 0, _, _ => .timeout
  | fuel + 1, it, camefrom => do
    let (mov, it) ← it.next T C D go dest
    match mov with
    | none => .ok (.error .destinationUnreachable)
    | some (pos, dir) => do
      let camefrom ← M.set camefrom pos (some dir)
      if pos = dest then .ok (.ok camefrom) else searchLoop T M C D go dest fuel it camefrom

/-- `search_mapmov`, astar.rs:136-165. -/
def searchMapmov [Target] (T : PosTy) (M : MapImpl (Option Dir)) (C : MapImpl Int) (D : Bool) (go : Int × Int → Dir → Option (Int × Int))
    (orig dest : Int × Int) (fuel : Nat) : Out (Res M.σ) := do
  let it ← AstarIter.new C orig
  searchLoop T M C D go dest fuel it M.default

/-- `search_path`, astar.rs:173-197. -/
def searchPath [Target] (T : PosTy) (M : MapImpl (Option Dir)) (C : MapImpl Int) (D : Bool) (go : Int × Int → Dir → Option (Int × Int))
    (orig dest : Int × Int) (fuel : Nat) : Out (Res (List Dir)) := do
  match ← searchMapmov T M C D go orig dest fuel with
  | .error e => .ok (.error e)
  | .ok mapmov => camefromIntoPath T M mapmov orig dest

/-- `search_path_grid`, astar.rs:202-217; `Sqrid::astar_path` and `astar_path_grid`, astar.rs:277-299. -/
def pathGrid [Target] (T : PosTy) (SIZE : Nat) (D : Bool) := searchPath T (.grid T SIZE none) (.grid T SIZE 0) D

/-- `search_path_hash`, astar.rs:221-243; `Sqrid::astar_path_hash`, astar.rs:303-313. -/
def pathHash [Target] (T : PosTy) (D : Bool) := searchPath T (.hash none) (.hash 0) D

/-- `search_path_btree`, astar.rs:247-268; `Sqrid::astar_path_btree`, astar.rs:317-326. -/
def pathBtree [Target] (T : PosTy) (D : Bool) := searchPath T (.btree none) (.btree 0) D

end Astar

end Sqrid
