import Verif.Spec.Target
import Verif.Spec.Search
import Verif.Model.Closure
/-!
# Specification vocabulary: closures with effects

A call of a closure takes the state of the world `w : W`, and gives an answer and a new state, or panics.
-/

namespace Sqrid.Spec

variable {W α : Type}

/-- A closure that is the function `f`, as far as answers go: it may change the world but the answers do not depend on it. -/
def Answers (go : Int × Int → Dir → Eff W α) (f : Int × Int → Dir → α) : Prop := ∀ p d w, ∃ w', go p d w = .ok (f p d, w')

/-- The same for a predicate. -/
def Decides (found : Int × Int → Eff W Bool) (f : Int × Int → Bool) : Prop := ∀ p w, ∃ w', found p w = .ok (f p, w')

/-- Any movement closure, as far as the type system goes: called with a position of the grid, it panics, or answers nothing or a position of the grid. What it
answers can be different each time. -/
def Returns (T : PosTy) (go : Int × Int → Dir → Eff W (Option (Int × Int))) : Prop :=
  ∀ p d w, InGrid T p → go p d w = .panic ∨ ∃ a w', go p d w = .ok (a, w') ∧ ∀ q, a = some q → InGrid T q

/-- Any movement closure with costs up to `B`; `B = limit` is no restriction. -/
def ReturnsCost (T : PosTy) (B : Int) (go : Int × Int → Dir → Eff W (Option ((Int × Int) × Int))) : Prop :=
  ∀ p d w, InGrid T p → go p d w = .panic ∨ ∃ a w', go p d w = .ok (a, w') ∧ ∀ q c, a = some (q, c) → InGrid T q ∧ 0 ≤ c ∧ c ≤ B

/-- A closure that answers nothing or the neighbour in the direction of the call, but maybe not always the same for the same call. -/
def Steps (go : Int × Int → Dir → Eff W (Option (Int × Int))) : Prop := ∀ p d w q w', go p d w = .ok (some q, w') → q = neighbour p d

/-- The same with costs. -/
def StepsCost (go : Int × Int → Dir → Eff W (Option ((Int × Int) × Int))) : Prop := ∀ p d w q c w', go p d w = .ok (some (q, c), w') → q = neighbour p d

/-- Any predicate closure. -/
def Tests (T : PosTy) (found : Int × Int → Eff W Bool) : Prop := ∀ p w, InGrid T p → found p w = .panic ∨ ∃ a w', found p w = .ok (a, w')

/-- The closure never panics. -/
def NoPanic (T : PosTy) (go : Int × Int → Dir → Eff W α) : Prop := ∀ p d w, InGrid T p → go p d w ≠ .panic

/-- The predicate never panics. -/
def NoPanic1 (T : PosTy) (found : Int × Int → Eff W Bool) : Prop := ∀ p w, InGrid T p → found p w ≠ .panic

/-! ### Observing the calls -/

/-- The closure, with a log of its calls and answers in the world. -/
def logged (go : Int × Int → Dir → Eff W α) : Int × Int → Dir → Eff (W × List ((Int × Int) × Dir × α)) α := fun p d s =>
  match go p d s.1 with
  | .ok (a, w) => .ok (a, (w, s.2 ++ [(p, d, a)]))
  | .panic => .panic
  | .ub => .ub
  | .timeout => .timeout

/-- The predicate, with a log. -/
def logged1 (found : Int × Int → Eff W Bool) : Int × Int → Eff (W × List ((Int × Int) × Bool)) Bool := fun p s =>
  match found p s.1 with
  | .ok (a, w) => .ok (a, (w, s.2 ++ [(p, a)]))
  | .panic => .panic
  | .ub => .ub
  | .timeout => .timeout

/-- A closure in a world that has a log of something else. -/
def unlogged {L : Type} (m : Eff W α) : Eff (W × L) α := fun s =>
  match m s.1 with
  | .ok (a, w) => .ok (a, (w, s.2))
  | .panic => .panic
  | .ub => .ub
  | .timeout => .timeout

/-- A movement closure and a predicate in the same world, with a log for each. -/
def bothGo (go : Int × Int → Dir → Eff W α) : Int × Int → Dir → Eff ((W × List ((Int × Int) × Dir × α)) × List ((Int × Int) × Bool)) α :=
  fun p d => unlogged (logged go p d)

/-- See `bothGo`. -/
def bothFound (found : Int × Int → Eff W Bool) : Int × Int → Eff ((W × List ((Int × Int) × Dir × α)) × List ((Int × Int) × Bool)) Bool :=
  logged1 fun p => unlogged (found p)

/-- The calls of a log. -/
def calls (log : List ((Int × Int) × Dir × α)) : List ((Int × Int) × Dir) := log.map fun e => (e.1, e.2.1)

/-- All the directions of the mode, from each of the positions, in order. -/
def sweep (D : Bool) (ps : List (Int × Int)) : List ((Int × Int) × Dir) := ps.flatMap fun p => (clockwise D).map fun d => (p, d)

/-- The positions answered, each one the first time only, with the opposite of the direction of the call; without the position `skip`. -/
def firstAnswers (skip : Int × Int) (log : List ((Int × Int) × Dir × Option (Int × Int))) : List ((Int × Int) × Dir) :=
  log.foldl (fun acc e =>
    match e.2.2 with
    | none => acc
    | some q => if q = skip ∨ q ∈ acc.map Prod.fst then acc else acc ++ [(q, opposite e.2.1)]) []

/-- All the answers with a position, with the opposite of the direction of the call. -/
def answers (log : List ((Int × Int) × Dir × Option (Int × Int))) : List ((Int × Int) × Dir) :=
  log.filterMap fun e => e.2.2.map fun q => (q, opposite e.2.1)

/-- The steps to neighbours that were granted by an answer. -/
def granted (log : List ((Int × Int) × Dir × Option (Int × Int))) (p : Int × Int) (d : Dir) : Option (Int × Int) :=
  if (p, d, some (neighbour p d)) ∈ log then some (neighbour p d) else none

/-- A log of calls of a closure with costs, without the costs. -/
def withoutCosts (log : List ((Int × Int) × Dir × Option ((Int × Int) × Int))) : List ((Int × Int) × Dir × Option (Int × Int)) :=
  log.map fun e => (e.1, e.2.1, e.2.2.map Prod.fst)

end Sqrid.Spec
