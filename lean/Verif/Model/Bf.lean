import Verif.Model.SetMap
/-!
# Model of /repo/src/sqrid/bf.rs

`go` and `found` are total functions; Closure.lean has the same code with closures that panic or have side effects. Closures that never return are not modelled. Fuel bounds the number of calls to
`next` (Rust has no bound; running out is reported as `timeout`).
-/

namespace Sqrid

/-- `BfIterator`, bf.rs:95-100 (without `go`). -/
structure BfIter (S : SetImpl) where
  visited : S.σ
  nextfront : List ((Int × Int) × Dir)

namespace BfIter

/-- Body of the inner loop of `next`, bf.rs:139-145. -/
def visitDir (S : SetImpl) (go : Int × Int → Dir → Option (Int × Int)) (pos : Int × Int) (st : BfIter S) (dir : Dir) : Out (BfIter S) :=
  match go pos dir with
  | none => .ok st
  | some nextPos => do
    let seen ← S.contains st.visited nextPos
    if seen then .ok st
    else do
      let neg ← dir.flip
      let visited ← S.insert st.visited nextPos
      .ok { visited, nextfront := st.nextfront ++ [(nextPos, neg)] }

/-- Body of the outer loop of `next`, bf.rs:138-147. -/
def visitPos (S : SetImpl) (D : Bool) (go : Int × Int → Dir → Option (Int × Int)) (st : BfIter S) (mov : (Int × Int) × Dir) :
    Out (BfIter S) := do
  let dirs ← DirIter.toList D
  let st ← dirs.foldlM (visitDir S go mov.1) st
  let visited ← S.insert st.visited mov.1
  .ok { st with visited }

/-- `BfIterator::next`, bf.rs:132-150. -/
def next (S : SetImpl) (D : Bool) (go : Int × Int → Dir → Option (Int × Int)) (s : BfIter S) :
    Out (Option (List ((Int × Int) × Dir)) × BfIter S) :=
  let front := s.nextfront
  let s := { s with nextfront := [] }
  if front.isEmpty then .ok (none, s)
  else do
    let s ← front.foldlM (visitPos S D go) s
    .ok (some front, s)

/-- `BfIterator::new`, bf.rs:109-121, and `bf_iter`, bf.rs:158-169. -/
def new (S : SetImpl) (D : Bool) (go : Int × Int → Dir → Option (Int × Int)) (orig : Int × Int) : Out (BfIter S) := do
  let (_, s) ← next S D go { visited := S.default, nextfront := [(orig, Dir.N)] }
  .ok s

end BfIter

namespace Bf

/-- The loop body over one layer in `search_mapmov`, bf.rs:197-202: sets `from` and stops at the first goal. -/
def scanLayer (M : MapImpl (Option Dir)) (found : Int × Int → Bool) :
    List ((Int × Int) × Dir) → M.σ → Out (M.σ × Option (Int × Int))
  | [], camefrom => .ok (camefrom, none)
  | (pos, dir) :: rest, camefrom => do
    let camefrom ← M.set camefrom pos (some dir)
    if found pos then .ok (camefrom, some pos) else scanLayer M found rest camefrom

/-- The loop of `search_mapmov` over the flattened iterator, bf.rs:197-203. -/
def searchLoop (S : SetImpl) (M : MapImpl (Option Dir)) (D : Bool) (go : Int × Int → Dir → Option (Int × Int)) (found : Int × Int → Bool) :
    Nat → BfIter S → M.σ → Out (Res ((Int × Int) × M.σ))
  | 0, _, _ => .timeout
  | fuel + 1, it, camefrom => do
    let (layer, it) ← it.next S D go
    match layer with
    | none => .ok (.error .destinationUnreachable)
    | some layer => do
      let (camefrom, hit) ← scanLayer M found layer camefrom
      match hit with
      | some pos => .ok (.ok (pos, camefrom))
      | none => searchLoop S M D go found fuel it camefrom

/-- `search_mapmov`, bf.rs:174-204. -/
def searchMapmov (S : SetImpl) (M : MapImpl (Option Dir)) (D : Bool) (go : Int × Int → Dir → Option (Int × Int)) (orig : Int × Int)
    (found : Int × Int → Bool) (fuel : Nat) : Out (Res ((Int × Int) × M.σ)) := do
  let it ← BfIter.new S D go orig
  searchLoop S M D go found fuel it M.default

/-- `search_path`, bf.rs:212-239. -/
def searchPath [Target] (T : PosTy) (S : SetImpl) (M : MapImpl (Option Dir)) (D : Bool) (go : Int × Int → Dir → Option (Int × Int))
    (orig : Int × Int) (found : Int × Int → Bool) (fuel : Nat) : Out (Res ((Int × Int) × List Dir)) := do
  match ← searchMapmov S M D go orig found fuel with
  | .error e => .ok (.error e)
  | .ok (dest, mapmov) => do
    match ← camefromIntoPath T M mapmov orig dest with
    | .error e => .ok (.error e)
    | .ok path => .ok (.ok (dest, path))

/-- `search_path_grid`, bf.rs:291-307; `Sqrid::bfs_path` and `bfs_path_grid`, bf.rs:440-472. -/
def pathGrid [Target] (T : PosTy) (WORDS SIZE : Nat) (D : Bool) := searchPath T (.gridbool T WORDS) (.grid T SIZE none) D

/-- `search_path_hash`, bf.rs:312-335; `Sqrid::bfs_path_hash`, bf.rs:477-491. -/
def pathHash [Target] (T : PosTy) (D : Bool) := searchPath T .hash (.hash none) D

/-- `search_path_btree`, bf.rs:340-363; `Sqrid::bfs_path_btree`, bf.rs:496-510. -/
def pathBtree [Target] (T : PosTy) (D : Bool) := searchPath T .btree (.btree none) D

/-- All the items of `bf_iter(go, orig)` for a given set implementation; bf.rs:158-169. -/
def iterAll (S : SetImpl) (D : Bool) (go : Int × Int → Dir → Option (Int × Int)) (orig : Int × Int) (fuel : Nat) :
    Out (List (List ((Int × Int) × Dir))) := do
  let it ← BfIter.new S D go orig
  collectWith (BfIter.next S D go) fuel it

/-- `bf_iter_grid` and `Sqrid::bf_iter`, bf.rs:246-256, 374-398. -/
def iterGrid [Target] (T : PosTy) (WORDS : Nat) := iterAll (.gridbool T WORDS)
/-- `bf_iter_hash`, bf.rs:260-271, 403-414. -/
def iterHash := iterAll .hash
/-- `bf_iter_btree`, bf.rs:275-286, 419-430. -/
def iterBtree := iterAll .btree

end Bf

end Sqrid
