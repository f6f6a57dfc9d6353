import Verif.Model.Forward
/-!
# Specification vocabulary: taking items from the front of a list
-/

namespace Sqrid.Spec

open Sqrid

/-- What a call answers if the items of the list are left, and the items that are left after it. -/
def forward : ForwardCall α → List α → Option α × List α
  | .next, l => (l.head?, l.tail)
  | .nth n, l => (l[n]?, l.drop (n + 1))
  | .find f, l => (l.find? f, (l.dropWhile fun a => !f a).tail)

/-- The answers of any number of calls, and the items that are left. -/
def forwards : List (ForwardCall α) → List α → List (Option α) × List α
  | [], l => ([], l)
  | c :: cs, l => ((forward c l).1 :: (forwards cs (forward c l).2).1, (forwards cs (forward c l).2).2)

/-- The iterator in the state `s` hands out the items of `l`: any calls of `next`, `nth` and `find`, in any order and any number, also after the end, answer as for the
list, and after them `collect`, `count`, `last` and every other `fold` are about the items that are left. -/
def HandsOut (next : σ → Out (Option α × σ)) (s : σ) (l : List α) : Prop :=
  ∀ (calls : List (ForwardCall α)) (fuel : Nat), l.length < fuel →
    ∃ it, runForward next fuel calls s = .ok ((forwards calls l).1, it) ∧
      collectWith next fuel it = .ok (forwards calls l).2 ∧
      countOut next fuel it = .ok (forwards calls l).2.length ∧
      lastOut next fuel it = .ok (forwards calls l).2.getLast? ∧
      ∀ {β : Type} (f : β → α → β) (b : β), foldOut next f fuel b it = .ok ((forwards calls l).2.foldl f b)

end Sqrid.Spec
