import Verif.Model.Ucs
/-!
# Priority queues

The frontier of astar.rs and ucs.rs is a `BinaryHeap` of the standard library, which Heap.lean models by its contract. Here are the same iterators and searches
with any implementation of the queue, and the implementation that std has: an array that is a binary tree, with the operations `sift_up` and
`sift_down_to_bottom` of std's `binary_heap/mod.rs`. That file is not part of /repo and not at hand; it is modelled from its published text.
-/

namespace Sqrid

/-- A priority queue: the operations of `BinaryHeap` that astar.rs and ucs.rs use. -/
structure PQueue where
  /-- the type of the queue -/
  σ : Type
  /-- `BinaryHeap::default` -/
  empty : σ
  /-- `BinaryHeap::push` -/
  push : σ → Entry → Out σ
  /-- `BinaryHeap::pop` -/
  pop : σ → Out (Option Entry × σ)

/-! ## The `BinaryHeap` of std -/

namespace BinHeap

/-- `hole.get(index)` in std, `get_unchecked`: out of range it is undefined behaviour. -/
def at? (data : List Entry) (i : Nat) : Out Entry :=
  match data[i]? with
  | some e => .ok e
  | none => .ub

/-- `a <= b` in the derived order of the entries. -/
def le (a b : Entry) : Bool := !Heap.lt b a

/-- std `sift_up(0, pos)`: the element `elt` is taken out, and the hole moves up while the parent is smaller. `pos` is at most the first argument. -/
def siftUp (elt : Entry) : Nat → List Entry → Nat → Out (List Entry)
  | 0, data, pos => .ok (data.set pos elt)
  | n + 1, data, pos =>
    if pos > 0 then do
      let parent := (pos - 1) / 2
      let e ← at? data parent
      if le elt e then .ok (data.set pos elt)
      else siftUp elt n (data.set pos e) parent
    else .ok (data.set pos elt)

/-- std `sift_down_to_bottom(0)`: the hole moves down to the greater child as long as there are two, then to the single child if there is one, and the
element goes up from there by `sift_up`. -/
def siftDown (elt : Entry) : Nat → List Entry → Nat → Out (List Entry)
  | 0, data, pos => siftUp elt pos data pos
  | n + 1, data, pos => do
    let child := 2 * pos + 1
    if child ≤ data.length - 2 then do
      let a ← at? data child
      let b ← at? data (child + 1)
      let (child, e) := if le a b then (child + 1, b) else (child, a)
      siftDown elt n (data.set pos e) child
    else if child = data.length - 1 then do
      let e ← at? data child
      siftUp elt child (data.set pos e) child
    else siftUp elt pos data pos

/-- std `BinaryHeap::push`: the new element is put at the end of the array, and goes up from there. -/
def push (data : List Entry) (e : Entry) : Out (List Entry) := siftUp e data.length (data ++ [e]) data.length

/-- std `BinaryHeap::pop`: the last element of the array is taken out, changes place with the first one, and goes down from there. -/
def pop (data : List Entry) : Out (Option Entry × List Entry) :=
  match data.getLast? with
  | none => .ok (none, data)
  | some item =>
    match data.dropLast with
    | [] => .ok (some item, [])
    | first :: rest => do
      let data ← siftDown item (first :: rest).length (first :: rest) 0
      .ok (some first, data)

end BinHeap

/-- The `BinaryHeap` of std. -/
def PQueue.binaryHeap : PQueue where
  σ := List Entry
  empty := []
  push := BinHeap.push
  pop := BinHeap.pop

/-! ## A* -/

/-- `AstarIterator`, astar.rs:63-75, with a priority queue `Q`. -/
structure AstarIterQ (Q : PQueue) (C : MapImpl Int) where
  cost : C.σ
  frontier : Q.σ

namespace AstarIterQ

/-- `AstarIterator::new`, astar.rs:83-99. -/
def new [Target] (Q : PQueue) (C : MapImpl Int) (orig : Int × Int) : Out (AstarIterQ Q C) := do
  let frontier ← Q.push Q.empty (0, orig, Dir.N)
  let cost ← C.set (C.new usizeMax) orig 0
  .ok { cost, frontier }

/-- Body of the loop of `next`, astar.rs:115-122. -/
def relax [Target] (Q : PQueue) (T : PosTy) (C : MapImpl Int) (go : Int × Int → Dir → Option (Int × Int)) (dest pos : Int × Int) (st : AstarIterQ Q C)
    (dir : Dir) : Out (AstarIterQ Q C) := do
  let c ← C.get st.cost pos
  let newcost ← IntTy.usize.add c 1
  match go pos dir with
  | none => .ok st
  | some nextPos => do
    let old ← C.get st.cost nextPos
    if newcost < old then do
      let cost ← C.set st.cost nextPos newcost
      let h ← T.manhattan nextPos dest
      let priority ← IntTy.usize.add newcost h
      let neg ← dir.flip
      let frontier ← Q.push st.frontier (priority, nextPos, neg)
      .ok { cost, frontier }
    else .ok st

/-- `AstarIterator::next`, astar.rs:111-128. -/
def next [Target] (Q : PQueue) (T : PosTy) (C : MapImpl Int) (D : Bool) (go : Int × Int → Dir → Option (Int × Int)) (dest : Int × Int) (s : AstarIterQ Q C) :
    Out (Option ((Int × Int) × Dir) × AstarIterQ Q C) := do
  let (popped, frontier) ← Q.pop s.frontier
  match popped with
  | some (_, mov) => do
    let dirs ← DirIter.toList D
    let s ← dirs.foldlM (relax Q T C go dest mov.1) { s with frontier }
    .ok (some mov, s)
  | none => .ok (none, { s with frontier })

end AstarIterQ

namespace Astar

/-- The loop of `search_mapmov`, astar.rs:158-164. -/
def searchLoopQ [Target] (Q : PQueue) (T : PosTy) (M : MapImpl (Option Dir)) (C : MapImpl Int) (D : Bool) (go : Int × Int → Dir → Option (Int × Int))
    (dest : Int × Int) : Nat → AstarIterQ Q C → M.σ → Out (Res M.σ)
  | 0, _, _ => .timeout
  | fuel + 1, it, camefrom => do
    let (mov, it) ← it.next Q T C D go dest
    match mov with
    | none => .ok (.error .destinationUnreachable)
    | some (pos, dir) => do
      let camefrom ← M.set camefrom pos (some dir)
      if pos = dest then .ok (.ok camefrom) else searchLoopQ Q T M C D go dest fuel it camefrom

/-- `search_mapmov`, astar.rs:136-165. -/
def searchMapmovQ [Target] (Q : PQueue) (T : PosTy) (M : MapImpl (Option Dir)) (C : MapImpl Int) (D : Bool) (go : Int × Int → Dir → Option (Int × Int))
    (orig dest : Int × Int) (fuel : Nat) : Out (Res M.σ) := do
  let it ← AstarIterQ.new Q C orig
  searchLoopQ Q T M C D go dest fuel it M.default

/-- `search_path`, astar.rs:173-197. -/
def searchPathQ [Target] (Q : PQueue) (T : PosTy) (M : MapImpl (Option Dir)) (C : MapImpl Int) (D : Bool) (go : Int × Int → Dir → Option (Int × Int))
    (orig dest : Int × Int) (fuel : Nat) : Out (Res (List Dir)) := do
  match ← searchMapmovQ Q T M C D go orig dest fuel with
  | .error e => .ok (.error e)
  | .ok mapmov => camefromIntoPath T M mapmov orig dest

end Astar

/-! ## Uniform-cost search -/

/-- `UcsIterator`, ucs.rs:73-84, with a priority queue `Q`. -/
structure UcsIterQ (Q : PQueue) (C : MapImpl Int) where
  cost : C.σ
  frontier : Q.σ

namespace UcsIterQ

/-- `UcsIterator::new`, ucs.rs:92-107. -/
def new [Target] (Q : PQueue) (C : MapImpl Int) (orig : Int × Int) : Out (UcsIterQ Q C) := do
  let frontier ← Q.push Q.empty (0, orig, Dir.N)
  let cost ← C.set (C.new usizeMax) orig 0
  .ok { cost, frontier }

/-- Body of the loop of `next`, ucs.rs:123-130. -/
def relax [Target] (Q : PQueue) (C : MapImpl Int) (go : Int × Int → Dir → Option ((Int × Int) × Int)) (pos : Int × Int) (st : UcsIterQ Q C) (dir : Dir) :
    Out (UcsIterQ Q C) :=
  match go pos dir with
  | none => .ok st
  | some (nextPos, costincr) => do
    let c ← C.get st.cost pos
    let newcost ← IntTy.usize.add c costincr
    let old ← C.get st.cost nextPos
    if newcost < old then do
      let cost ← C.set st.cost nextPos newcost
      let priority := newcost
      let neg ← dir.flip
      let frontier ← Q.push st.frontier (priority, nextPos, neg)
      .ok { cost, frontier }
    else .ok st

/-- `UcsIterator::next`, ucs.rs:119-136. -/
def next [Target] (Q : PQueue) (C : MapImpl Int) (D : Bool) (go : Int × Int → Dir → Option ((Int × Int) × Int)) (s : UcsIterQ Q C) :
    Out (Option ((Int × Int) × Dir) × UcsIterQ Q C) := do
  let (popped, frontier) ← Q.pop s.frontier
  match popped with
  | some (_, mov) => do
    let dirs ← DirIter.toList D
    let s ← dirs.foldlM (relax Q C go mov.1) { s with frontier }
    .ok (some mov, s)
  | none => .ok (none, { s with frontier })

end UcsIterQ

namespace Ucs

/-- The loop of `search_mapmov`, ucs.rs:166-172. -/
def searchLoopQ [Target] (Q : PQueue) (M : MapImpl (Option Dir)) (C : MapImpl Int) (D : Bool) (go : Int × Int → Dir → Option ((Int × Int) × Int))
    (dest : Int × Int) : Nat → UcsIterQ Q C → M.σ → Out (Res M.σ)
  | 0, _, _ => .timeout
  | fuel + 1, it, camefrom => do
    let (mov, it) ← it.next Q C D go
    match mov with
    | none => .ok (.error .destinationUnreachable)
    | some (pos, dir) => do
      let camefrom ← M.set camefrom pos (some dir)
      if pos = dest then .ok (.ok camefrom) else searchLoopQ Q M C D go dest fuel it camefrom

/-- `search_mapmov`, ucs.rs:144-173. -/
def searchMapmovQ [Target] (Q : PQueue) (M : MapImpl (Option Dir)) (C : MapImpl Int) (D : Bool) (go : Int × Int → Dir → Option ((Int × Int) × Int))
    (orig dest : Int × Int) (fuel : Nat) : Out (Res M.σ) := do
  let it ← UcsIterQ.new Q C orig
  searchLoopQ Q M C D go dest fuel it M.default

/-- `search_path`, ucs.rs:181-205. -/
def searchPathQ [Target] (Q : PQueue) (T : PosTy) (M : MapImpl (Option Dir)) (C : MapImpl Int) (D : Bool) (go : Int × Int → Dir → Option ((Int × Int) × Int))
    (orig dest : Int × Int) (fuel : Nat) : Out (Res (List Dir)) := do
  match ← searchMapmovQ Q M C D go orig dest fuel with
  | .error e => .ok (.error e)
  | .ok mapmov => camefromIntoPath T M mapmov orig dest

end Ucs

end Sqrid
