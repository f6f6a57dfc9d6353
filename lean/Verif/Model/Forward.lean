import Verif.Model.Adapters
import Verif.Model.Grid
import Verif.Model.Gridbool
/-!
# Methods of std's iterators on the iterators that go forward only

`PosTIterRange` (postrait.rs:511-533), `PosTIterInX` and `PosTIterInY` (postrait.rs:544-581), `DirIter` (dir.rs:347-364), `BfIterator` (bf.rs:124-150),
`AstarIterator` (astar.rs:102-127) and `UcsIterator` (ucs.rs:110-135) define `next` and, the first four, `size_hint`. Every other method of `Iterator` is the one std
provides; these are models of std's code for a `next` that can panic. The iterators of `Gridbool` and `Grid::iter_pos` are std's `Map` and `Filter` over `P::iter()`.
-/

namespace Sqrid

/-- std `Iterator::advance_by(n)`: calls `next` up to `n` times; whether there were as many items. -/
def advanceOut (next : σ → Out (Option α × σ)) : Nat → σ → Out (Bool × σ)
  | 0, s => .ok (true, s)
  | n + 1, s => do
    let (v, s) ← next s
    match v with
    | none => .ok (false, s)
    | some _ => advanceOut next n s

/-- std `Iterator::nth(n)`. -/
def nthOut (next : σ → Out (Option α × σ)) (n : Nat) (s : σ) : Out (Option α × σ) := do
  let (b, s) ← advanceOut next n s
  if b then next s else .ok (none, s)

/-- std `Iterator::find(f)`, with an `f` that can panic. `fuel` bounds the number of calls of `next`; Rust has no bound. -/
def findOut (next : σ → Out (Option α × σ)) (f : α → Out Bool) : Nat → σ → Out (Option α × σ)
  | 0, _ => .timeout
  | fuel + 1, s => do
    let (v, s) ← next s
    match v with
    | none => .ok (none, s)
    | some a => do
      let b ← f a
      if b then .ok (some a, s) else findOut next f fuel s

/-- std `Iterator::fold(init, f)`. -/
def foldOut (next : σ → Out (Option α × σ)) (f : β → α → β) : Nat → β → σ → Out β
  | 0, _, _ => .timeout
  | fuel + 1, b, s => do
    let (v, s) ← next s
    match v with
    | none => .ok b
    | some a => foldOut next f fuel (f b a) s

/-- std `Iterator::count()`. -/
def countOut (next : σ → Out (Option α × σ)) (fuel : Nat) (s : σ) : Out Nat := foldOut next (fun n _ => n + 1) fuel 0 s

/-- std `Iterator::last()`. -/
def lastOut (next : σ → Out (Option α × σ)) (fuel : Nat) (s : σ) : Out (Option α) := foldOut next (fun _ a => some a) fuel none s

/-- A call that takes items from the front. -/
inductive ForwardCall (α : Type _) where
  | next
  | nth (n : Nat)
  | find (f : α → Bool)

/-- One call: its answer and the state after it. -/
def ForwardCall.run (next : σ → Out (Option α × σ)) (fuel : Nat) : ForwardCall α → σ → Out (Option α × σ)
  | .next, s => next s
  | .nth n, s => nthOut next n s
  | .find f, s => findOut next (fun a => .ok (f a)) fuel s

/-- Any number of calls, one after the other. -/
def runForward (next : σ → Out (Option α × σ)) (fuel : Nat) : List (ForwardCall α) → σ → Out (List (Option α) × σ)
  | [], s => .ok ([], s)
  | c :: cs, s => do
    let (a, s) ← c.run next fuel s
    let (as, s) ← runForward next fuel cs s
    .ok (a :: as, s)

/-- std `Map::next`: `self.iter.next().map(&mut self.f)`, with an `f` that can panic. -/
def mapNext (f : α → Out β) (next : σ → Out (Option α × σ)) (s : σ) : Out (Option β × σ) := do
  let (v, s) ← next s
  match v with
  | none => .ok (none, s)
  | some a => do
    let b ← f a
    .ok (some b, s)

/-- std `Filter::next`: `self.iter.find(&mut self.predicate)`, with a predicate that can panic. -/
def filterNext (f : α → Out Bool) (next : σ → Out (Option α × σ)) (fuel : Nat) (s : σ) : Out (Option α × σ) := findOut next f fuel s

namespace Gridbool

/-- One call of `next` on `iter()`, gridbool.rs:151-153; the state is that of the iterator over the positions. `iter` in Model/Gridbool.lean is the list of all items. -/
def iterNext [Target] (T : PosTy) (gb : List (BitVec 32)) : PosIter → Out (Option Bool × PosIter) :=
  mapNext (fun p => get T gb p) (liftNext (PosIter.next T true))

/-- One call of `next` on `iter_pos()`, gridbool.rs:157-162. -/
def iterPosNext [Target] (T : PosTy) (gb : List (BitVec 32)) : PosIter → Out (Option ((Int × Int) × Bool) × PosIter) :=
  mapNext (fun p => do let v ← get T gb p; .ok (p, v)) (liftNext (PosIter.next T true))

/-- One call of `next` on `iter_t()`, gridbool.rs:166-168. -/
def iterTNext [Target] (T : PosTy) (gb : List (BitVec 32)) (fuel : Nat) : PosIter → Out (Option (Int × Int) × PosIter) :=
  filterNext (fun p => get T gb p) (liftNext (PosIter.next T true)) fuel

/-- One call of `next` on `iter_f()`, gridbool.rs:172-174. -/
def iterFNext [Target] (T : PosTy) (gb : List (BitVec 32)) (fuel : Nat) : PosIter → Out (Option (Int × Int) × PosIter) :=
  filterNext (fun p => do let b ← get T gb p; .ok (!b)) (liftNext (PosIter.next T true)) fuel

end Gridbool

/-- One call of `next` on `Grid::iter_pos()`, grid.rs:161-166. -/
def Grid.iterPosNext [Target] (T : PosTy) (g : List α) : PosIter → Out (Option ((Int × Int) × α) × PosIter) :=
  mapNext (fun p => do let v ← get T g p; .ok (p, v)) (liftNext (PosIter.next T true))

end Sqrid
