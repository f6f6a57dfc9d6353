import Verif.Model.Iter
/-!
# Methods of std's iterators

`PosTIter` (postrait.rs:446-485) and `BoundedIntIterator` (boundedint.rs:157-182) define `next`, `next_back` and, the first of them, `size_hint`. Every other
method of `Iterator` and `DoubleEndedIterator` is the one std provides. These are models of std's code.
-/

namespace Sqrid

/-- std `Iterator::advance_by(n)`: calls `next` up to `n` times; whether there were as many items. With `next_back` in the place of `next`:
`DoubleEndedIterator::advance_back_by`. -/
def advanceBy (next : σ → Option α × σ) : Nat → σ → Bool × σ
  | 0, s => (true, s)
  | n + 1, s => match next s with
    | (none, s) => (false, s)
    | (some _, s) => advanceBy next n s

/-- std `Iterator::nth(n)`, and with `next_back` in the place of `next` `DoubleEndedIterator::nth_back(n)`. -/
def nthWith (next : σ → Option α × σ) (n : Nat) (s : σ) : Option α × σ :=
  match advanceBy next n s with
  | (false, s) => (none, s)
  | (true, s) => next s

/-- std `Iterator::find(f)`, and with `next_back` in the place of `next` `DoubleEndedIterator::rfind(f)`. `fuel` bounds the number of calls of `next`; Rust has no bound. -/
def findWith (next : σ → Option α × σ) (f : α → Bool) : Nat → σ → Out (Option α × σ)
  | 0, _ => .timeout
  | fuel + 1, s => match next s with
    | (none, s) => .ok (none, s)
    | (some a, s) => if f a then .ok (some a, s) else findWith next f fuel s

/-- std `Iterator::fold(init, f)`, and with `next_back` in the place of `next` `DoubleEndedIterator::rfold`. -/
def foldWith (next : σ → Option α × σ) (f : β → α → β) : Nat → β → σ → Out β
  | 0, _, _ => .timeout
  | fuel + 1, b, s => match next s with
    | (none, _) => .ok b
    | (some a, s) => foldWith next f fuel (f b a) s

/-- std `Iterator::count()`. -/
def countWith (next : σ → Option α × σ) (fuel : Nat) (s : σ) : Out Nat := foldWith next (fun n _ => n + 1) fuel 0 s

/-- std `Iterator::last()`. -/
def lastWith (next : σ → Option α × σ) (fuel : Nat) (s : σ) : Out (Option α) := foldWith next (fun _ a => some a) fuel none s

/-- A call that takes items from a double-ended iterator. -/
inductive IterCall (α : Type _) where
  | next
  | nextBack
  | nth (n : Nat)
  | nthBack (n : Nat)
  | find (f : α → Bool)
  | rfind (f : α → Bool)

/-- One call: its answer and the state after it. -/
def IterCall.run (next nextBack : σ → Option α × σ) (fuel : Nat) : IterCall α → σ → Out (Option α × σ)
  | .next, s => .ok (next s)
  | .nextBack, s => .ok (nextBack s)
  | .nth n, s => .ok (nthWith next n s)
  | .nthBack n, s => .ok (nthWith nextBack n s)
  | .find f, s => findWith next f fuel s
  | .rfind f, s => findWith nextBack f fuel s

/-- Any number of calls, one after the other. -/
def runCalls (next nextBack : σ → Option α × σ) (fuel : Nat) : List (IterCall α) → σ → Out (List (Option α) × σ)
  | [], s => .ok ([], s)
  | c :: cs, s => do
    let (a, s) ← c.run next nextBack fuel s
    let (as, s) ← runCalls next nextBack fuel cs s
    .ok (a :: as, s)

end Sqrid
