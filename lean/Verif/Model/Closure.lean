import Verif.Model.Ucs
import Verif.Model.Bf
/-!
# The traversals and searches with closures that have effects

In Bf.lean, Astar.lean and Ucs.lean the closures `go` and `found` are functions. In Rust they are values of a type that implements `Fn`, so they can also panic, count
their calls, or answer differently each time (through a `Cell`, a `static`, a random number generator). Here a call of a closure is a computation: `W` is everything
closures can read and change, and a call takes the state of the world, and returns the answer and the new state, or panics. The code around the calls is that of bf.rs,
astar.rs and ucs.rs again. For closures that are functions both models give the same results (C94).
-/

namespace Sqrid

/-- A computation that can call closures. -/
abbrev Eff (W : Type) (α : Type) := StateT W Out α

/-- Code that calls no closure. -/
def Eff.code {W α : Type} (x : Out α) : Eff W α := fun w => x >>= fun a => .ok (a, w)

variable {W : Type}

namespace BfIter

/-- Body of the inner loop of `next`, bf.rs:139-145. -/
def visitDirM (S : SetImpl) (go : Int × Int → Dir → Eff W (Option (Int × Int))) (pos : Int × Int) (st : BfIter S) (dir : Dir) : Eff W (BfIter S) := do
  match ← go pos dir with
  | none => return st
  | some nextPos =>
    let seen ← Eff.code (S.contains st.visited nextPos)
    if seen then return st
    else
      let neg ← Eff.code dir.flip
      let visited ← Eff.code (S.insert st.visited nextPos)
      return { visited, nextfront := st.nextfront ++ [(nextPos, neg)] }

/-- Body of the outer loop of `next`, bf.rs:138-147. -/
def visitPosM (S : SetImpl) (D : Bool) (go : Int × Int → Dir → Eff W (Option (Int × Int))) (st : BfIter S) (mov : (Int × Int) × Dir) :
    Eff W (BfIter S) := do
  let dirs ← Eff.code (DirIter.toList D)
  let st ← dirs.foldlM (visitDirM S go mov.1) st
  let visited ← Eff.code (S.insert st.visited mov.1)
  return { st with visited }

/-- `BfIterator::next`, bf.rs:132-150. -/
def nextM (S : SetImpl) (D : Bool) (go : Int × Int → Dir → Eff W (Option (Int × Int))) (s : BfIter S) :
    Eff W (Option (List ((Int × Int) × Dir)) × BfIter S) :=
  let front := s.nextfront
  let s := { s with nextfront := [] }
  if front.isEmpty then return (none, s)
  else do
    let s ← front.foldlM (visitPosM S D go) s
    return (some front, s)

/-- `BfIterator::new`, bf.rs:109-121, and `bf_iter`, bf.rs:158-169. -/
def newM (S : SetImpl) (D : Bool) (go : Int × Int → Dir → Eff W (Option (Int × Int))) (orig : Int × Int) : Eff W (BfIter S) := do
  let (_, s) ← nextM S D go { visited := S.default, nextfront := [(orig, Dir.N)] }
  return s

end BfIter

/-- At most `n` calls of `next`, up to the first one that returns `None`: the items and the state of the iterator after them. -/
def takeM {σ α : Type} (next : σ → Eff W (Option α × σ)) : Nat → σ → Eff W (List α × σ)
  | 0, s => return ([], s)
  | n + 1, s => do
    let (o, s) ← next s
    match o with
    | none => return ([], s)
    | some a =>
      let (l, s) ← takeM next n s
      return (a :: l, s)

/-- All the items of an iterator; `timeout` if it has not ended after `fuel` calls of `next`. -/
def collectM {σ α : Type} (next : σ → Eff W (Option α × σ)) : Nat → σ → Eff W (List α)
  | 0, _ => Eff.code .timeout
  | n + 1, s => do
    let (o, s) ← next s
    match o with
    | none => return []
    | some a =>
      let l ← collectM next n s
      return a :: l

namespace Bf

/-- The loop body over one layer in `search_mapmov`, bf.rs:197-202. -/
def scanLayerM (M : MapImpl (Option Dir)) (found : Int × Int → Eff W Bool) :
    List ((Int × Int) × Dir) → M.σ → Eff W (M.σ × Option (Int × Int))
  | [], camefrom => return (camefrom, none)
  | (pos, dir) :: rest, camefrom => do
    let camefrom ← Eff.code (M.set camefrom pos (some dir))
    let hit ← found pos
    if hit then return (camefrom, some pos) else scanLayerM M found rest camefrom

/-- The loop of `search_mapmov` over the flattened iterator, bf.rs:197-203. -/
def searchLoopM (S : SetImpl) (M : MapImpl (Option Dir)) (D : Bool) (go : Int × Int → Dir → Eff W (Option (Int × Int)))
    (found : Int × Int → Eff W Bool) : Nat → BfIter S → M.σ → Eff W (Res ((Int × Int) × M.σ))
  | 0, _, _ => Eff.code .timeout
  | fuel + 1, it, camefrom => do
    let (layer, it) ← it.nextM S D go
    match layer with
    | none => return .error .destinationUnreachable
    | some layer =>
      let (camefrom, hit) ← scanLayerM M found layer camefrom
      match hit with
      | some pos => return .ok (pos, camefrom)
      | none => searchLoopM S M D go found fuel it camefrom

/-- `search_mapmov`, bf.rs:174-204. -/
def searchMapmovM (S : SetImpl) (M : MapImpl (Option Dir)) (D : Bool) (go : Int × Int → Dir → Eff W (Option (Int × Int))) (orig : Int × Int)
    (found : Int × Int → Eff W Bool) (fuel : Nat) : Eff W (Res ((Int × Int) × M.σ)) := do
  let it ← BfIter.newM S D go orig
  searchLoopM S M D go found fuel it M.default

/-- `search_path`, bf.rs:212-239. -/
def searchPathM [Target] (T : PosTy) (S : SetImpl) (M : MapImpl (Option Dir)) (D : Bool) (go : Int × Int → Dir → Eff W (Option (Int × Int)))
    (orig : Int × Int) (found : Int × Int → Eff W Bool) (fuel : Nat) : Eff W (Res ((Int × Int) × List Dir)) := do
  match ← searchMapmovM S M D go orig found fuel with
  | .error e => return .error e
  | .ok (dest, mapmov) =>
    match ← Eff.code (camefromIntoPath T M mapmov orig dest) with
    | .error e => return .error e
    | .ok path => return .ok (dest, path)

/-- All the items of `bf_iter(go, orig)` for a given set implementation; bf.rs:158-169. -/
def iterAllM (S : SetImpl) (D : Bool) (go : Int × Int → Dir → Eff W (Option (Int × Int))) (orig : Int × Int) (fuel : Nat) :
    Eff W (List (List ((Int × Int) × Dir))) := do
  let it ← BfIter.newM S D go orig
  collectM (BfIter.nextM S D go) fuel it

/-- The first `n` items of `bf_iter(go, orig)`, or all of them if there are fewer: `new`, and then at most `n` calls of `next`; bf.rs:158-169. -/
def iterTakeM (S : SetImpl) (D : Bool) (go : Int × Int → Dir → Eff W (Option (Int × Int))) (orig : Int × Int) (n : Nat) :
    Eff W (List (List ((Int × Int) × Dir))) := do
  let it ← BfIter.newM S D go orig
  let (layers, _) ← takeM (BfIter.nextM S D go) n it
  return layers

end Bf

namespace AstarIter

/-- Body of the loop of `next`, astar.rs:115-122. -/
def relaxM [Target] (T : PosTy) (C : MapImpl Int) (go : Int × Int → Dir → Eff W (Option (Int × Int))) (dest pos : Int × Int) (st : AstarIter C) (dir : Dir) :
    Eff W (AstarIter C) := do
  let c ← Eff.code (C.get st.cost pos)
  let newcost ← Eff.code (IntTy.usize.add c 1)
  match ← go pos dir with
  | none => return st
  | some nextPos =>
    let old ← Eff.code (C.get st.cost nextPos)
    if newcost < old then
      let cost ← Eff.code (C.set st.cost nextPos newcost)
      let h ← Eff.code (T.manhattan nextPos dest)
      let priority ← Eff.code (IntTy.usize.add newcost h)
      let neg ← Eff.code dir.flip
      return { cost, frontier := Heap.push st.frontier (priority, nextPos, neg) }
    else return st

/-- `AstarIterator::next`, astar.rs:111-128. -/
def nextM [Target] (T : PosTy) (C : MapImpl Int) (D : Bool) (go : Int × Int → Dir → Eff W (Option (Int × Int))) (dest : Int × Int) (s : AstarIter C) :
    Eff W (Option ((Int × Int) × Dir) × AstarIter C) :=
  match Heap.pop s.frontier with
  | some ((_, mov), frontier) => do
    let dirs ← Eff.code (DirIter.toList D)
    let s ← dirs.foldlM (relaxM T C go dest mov.1) { s with frontier }
    return (some mov, s)
  | none => return (none, s)

/-- The first `n` items of the iterator: `new`, and then at most `n` calls of `next`; astar.rs:83-128. -/
def takeFromM [Target] (T : PosTy) (C : MapImpl Int) (D : Bool) (go : Int × Int → Dir → Eff W (Option (Int × Int))) (orig dest : Int × Int) (n : Nat) :
    Eff W (List ((Int × Int) × Dir)) := do
  let it ← Eff.code (AstarIter.new C orig)
  let (items, _) ← takeM (nextM T C D go dest) n it
  return items

end AstarIter

namespace Astar

/-- The loop of `search_mapmov`, astar.rs:158-164. -/
def searchLoopM [Target] (T : PosTy) (M : MapImpl (Option Dir)) (C : MapImpl Int) (D : Bool) (go : Int × Int → Dir → Eff W (Option (Int × Int)))
    (dest : Int × Int) : Nat → AstarIter C → M.σ → Eff W (Res M.σ)
  | 0, _, _ => Eff.code .timeout
  | fuel + 1, it, camefrom => do
    let (mov, it) ← it.nextM T C D go dest
    match mov with
    | none => return .error .destinationUnreachable
    | some (pos, dir) =>
      let camefrom ← Eff.code (M.set camefrom pos (some dir))
      if pos = dest then return .ok camefrom else searchLoopM T M C D go dest fuel it camefrom

/-- `search_path`, astar.rs:173-197, with `search_mapmov`, astar.rs:136-165. -/
def searchPathM [Target] (T : PosTy) (M : MapImpl (Option Dir)) (C : MapImpl Int) (D : Bool) (go : Int × Int → Dir → Eff W (Option (Int × Int)))
    (orig dest : Int × Int) (fuel : Nat) : Eff W (Res (List Dir)) := do
  let it ← Eff.code (AstarIter.new C orig)
  match ← searchLoopM T M C D go dest fuel it M.default with
  | .error e => return .error e
  | .ok mapmov => Eff.code (camefromIntoPath T M mapmov orig dest)

end Astar

namespace UcsIter

/-- Body of the loop of `next`, ucs.rs:123-130. -/
def relaxM [Target] (C : MapImpl Int) (go : Int × Int → Dir → Eff W (Option ((Int × Int) × Int))) (pos : Int × Int) (st : UcsIter C) (dir : Dir) :
    Eff W (UcsIter C) := do
  match ← go pos dir with
  | none => return st
  | some (nextPos, costincr) =>
    let c ← Eff.code (C.get st.cost pos)
    let newcost ← Eff.code (IntTy.usize.add c costincr)
    let old ← Eff.code (C.get st.cost nextPos)
    if newcost < old then
      let cost ← Eff.code (C.set st.cost nextPos newcost)
      let priority := newcost
      let neg ← Eff.code dir.flip
      return { cost, frontier := Heap.push st.frontier (priority, nextPos, neg) }
    else return st

/-- `UcsIterator::next`, ucs.rs:119-136. -/
def nextM [Target] (C : MapImpl Int) (D : Bool) (go : Int × Int → Dir → Eff W (Option ((Int × Int) × Int))) (s : UcsIter C) :
    Eff W (Option ((Int × Int) × Dir) × UcsIter C) :=
  match Heap.pop s.frontier with
  | some ((_, mov), frontier) => do
    let dirs ← Eff.code (DirIter.toList D)
    let s ← dirs.foldlM (relaxM C go mov.1) { s with frontier }
    return (some mov, s)
  | none => return (none, s)

/-- The first `n` items of the iterator: `new`, and then at most `n` calls of `next`; ucs.rs:91-136. -/
def takeFromM [Target] (C : MapImpl Int) (D : Bool) (go : Int × Int → Dir → Eff W (Option ((Int × Int) × Int))) (orig : Int × Int) (n : Nat) :
    Eff W (List ((Int × Int) × Dir)) := do
  let it ← Eff.code (UcsIter.new C orig)
  let (items, _) ← takeM (nextM C D go) n it
  return items

end UcsIter

namespace Ucs

/-- The loop of `search_mapmov`, ucs.rs:166-172. -/
def searchLoopM [Target] (M : MapImpl (Option Dir)) (C : MapImpl Int) (D : Bool) (go : Int × Int → Dir → Eff W (Option ((Int × Int) × Int)))
    (dest : Int × Int) : Nat → UcsIter C → M.σ → Eff W (Res M.σ)
  | 0, _, _ => Eff.code .timeout
  | fuel + 1, it, camefrom => do
    let (mov, it) ← it.nextM C D go
    match mov with
    | none => return .error .destinationUnreachable
    | some (pos, dir) =>
      let camefrom ← Eff.code (M.set camefrom pos (some dir))
      if pos = dest then return .ok camefrom else searchLoopM M C D go dest fuel it camefrom

/-- `search_path`, ucs.rs:181-205, with `search_mapmov`, ucs.rs:144-173. -/
def searchPathM [Target] (T : PosTy) (M : MapImpl (Option Dir)) (C : MapImpl Int) (D : Bool) (go : Int × Int → Dir → Eff W (Option ((Int × Int) × Int)))
    (orig dest : Int × Int) (fuel : Nat) : Eff W (Res (List Dir)) := do
  let it ← Eff.code (UcsIter.new C orig)
  match ← searchLoopM M C D go dest fuel it M.default with
  | .error e => return .error e
  | .ok mapmov => Eff.code (camefromIntoPath T M mapmov orig dest)

end Ucs

end Sqrid
