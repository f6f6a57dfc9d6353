import Verif.Model.Astar
/-!
# Model of /repo/src/sqrid/ucs.rs

Same conventions as Astar.lean. A cost is a `usize` (ucs.rs:67), that is an integer from 0 to `usizeMax`.
-/

namespace Sqrid

/-- `UcsIterator`, ucs.rs:73-84 (without `go`). -/
structure UcsIter (C : MapImpl Int) where
  cost : C.σ
  frontier : List Entry

namespace UcsIter

/-- `UcsIterator::new`, ucs.rs:92-107. -/
def new [Target] (C : MapImpl Int) (orig : Int × Int) : Out (UcsIter C) := do
  let cost ← C.set (C.new usizeMax) orig 0
  .ok { cost, frontier := Heap.push [] (0, orig, Dir.N) }

/-- Body of the loop of `next`, ucs.rs:123-130. -/
def relax [Target] (C : MapImpl Int) (go : Int × Int → Dir → Option ((Int × Int) × Int)) (pos : Int × Int) (st : UcsIter C) (dir : Dir) :
    Out (UcsIter C) :=
  match go pos dir with
  | none => .ok st
  | some (nextPos, costincr) => do
    let c ← C.get st.cost pos
    let newcost ← IntTy.usize.add c costincr
    let old ← C.get st.cost nextPos
    if newcost < old then do
      let cost ← C.set st.cost nextPos newcost
      let priority := newcost
      let neg ← dir.flip
      .ok { cost, frontier := Heap.push st.frontier (priority, nextPos, neg) }
    else .ok st

/-- `UcsIterator::next`, ucs.rs:119-136. -/
def next [Target] (C : MapImpl Int) (D : Bool) (go : Int × Int → Dir → Option ((Int × Int) × Int)) (s : UcsIter C) :
    Out (Option ((Int × Int) × Dir) × UcsIter C) :=
  match Heap.pop s.frontier with
  | some ((_, mov), frontier) => do
    let dirs ← DirIter.toList D
    let s ← dirs.foldlM (relax C go mov.1) { s with frontier }
    .ok (some mov, s)
  | none => .ok (none, s)

end UcsIter

namespace Ucs

/-- The loop of `search_mapmov`, ucs.rs:166-172. -/
def searchLoop [Target] (M : MapImpl (Option Dir)) (C : MapImpl Int) (D : Bool) (go : Int × Int → Dir → Option ((Int × Int) × Int))
    (dest : Int × Int) : Nat → UcsIter C → M.σ → Out (Res M.σ)
  | 0, _, _ => .timeout
  | fuel + 1, it, camefrom => do
    let (mov, it) ← it.next C D go
    match mov with
    | none => .ok (.error .destinationUnreachable)
    | some (pos, dir) => do
      let camefrom ← M.set camefrom pos (some dir)
      if pos = dest then .ok (.ok camefrom) else searchLoop M C D go dest fuel it camefrom

/-- `search_mapmov`, ucs.rs:144-173. -/
def searchMapmov [Target] (M : MapImpl (Option Dir)) (C : MapImpl Int) (D : Bool) (go : Int × Int → Dir → Option ((Int × Int) × Int))
    (orig dest : Int × Int) (fuel : Nat) : Out (Res M.σ) := do
  let it ← UcsIter.new C orig
  searchLoop M C D go dest fuel it M.default

/-- `search_path`, ucs.rs:181-205. -/
def searchPath [Target] (T : PosTy) (M : MapImpl (Option Dir)) (C : MapImpl Int) (D : Bool) (go : Int × Int → Dir → Option ((Int × Int) × Int))
    (orig dest : Int × Int) (fuel : Nat) : Out (Res (List Dir)) := do
  match ← searchMapmov M C D go orig dest fuel with
  | .error e => .ok (.error e)
  | .ok mapmov => camefromIntoPath T M mapmov orig dest

/-- `search_path_grid`, ucs.rs:210-225; `Sqrid::ucs_path` and `ucs_path_grid`, ucs.rs:285-307. -/
def pathGrid [Target] (T : PosTy) (SIZE : Nat) (D : Bool) := searchPath T (.grid T SIZE none) (.grid T SIZE 0) D

/-- `search_path_hash`, ucs.rs:229-251; `Sqrid::ucs_path_hash`, ucs.rs:311-321. -/
def pathHash [Target] (T : PosTy) (D : Bool) := searchPath T (.hash none) (.hash 0) D

/-- `search_path_btree`, ucs.rs:255-276; `Sqrid::ucs_path_btree`, ucs.rs:326-335. -/
def pathBtree [Target] (T : PosTy) (D : Bool) := searchPath T (.btree none) (.btree 0) D

end Ucs

end Sqrid
