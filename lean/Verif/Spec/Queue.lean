import Verif.Model.BinHeap
import Mathlib.Data.List.Perm.Basic
/-!
# Specification of a priority queue

The order of the entries of the frontier, and what it means for an implementation to be a correct priority queue.
-/

namespace Sqrid.Spec


/-- How many times one clockNumber by 45 degrees, clockwise, to get from north to a direction. -/
def clockNumber : Dir → Nat
  | .N => 0
  | .NE => 1
  | .E => 2
  | .SE => 3
  | .S => 4
  | .SW => 5
  | .W => 6
  | .NW => 7

/-- `a` is to be taken before `b`: it has a smaller priority number; with the same number, a position with a greater x, or the same x and a greater
y; with the same position, a direction that is further clockwise from north. -/
def Earlier (a b : Entry) : Prop :=
  a.1 < b.1 ∨ a.1 = b.1 ∧ (b.2.1.1 < a.2.1.1 ∨ b.2.1.1 = a.2.1.1 ∧ (b.2.1.2 < a.2.1.2 ∨ b.2.1.2 = a.2.1.2 ∧ clockNumber b.2.2 < clockNumber a.2.2))

/-- A correct priority queue: `contents` lists the entries of a queue, in no relevant order; `good` are the queues that the operations make. `push` adds an entry
and `pop` takes out one that no other is to be taken before. -/
structure IsQueue (Q : PQueue) (good : Q.σ → Prop) (contents : Q.σ → List Entry) : Prop where
  empty : good Q.empty ∧ contents Q.empty = []
  push : ∀ s e, good s → ∃ s', Q.push s e = .ok s' ∧ good s' ∧ (contents s').Perm (e :: contents s)
  pop : ∀ s, good s →
    (contents s = [] ∧ ∃ s', Q.pop s = .ok (none, s') ∧ good s' ∧ contents s' = []) ∨
    ∃ e s', Q.pop s = .ok (some e, s') ∧ good s' ∧ (contents s).Perm (e :: contents s') ∧ ∀ x ∈ contents s, ¬ Earlier x e

end Sqrid.Spec
