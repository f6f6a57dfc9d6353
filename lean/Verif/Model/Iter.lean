import Verif.Model.Prim
/-!
# Driving iterators

Rust `Iterator`s are modelled as state machines; these drivers model `for`/`collect` and
arbitrary call sequences.
-/

namespace Sqrid

/-- `for`/`collect` over an iterator: call `next` until it returns `None` and gather the items.
`fuel` bounds the number of calls (Rust has no bound; running out is reported as `timeout`). -/
def collectWith (next : σ → Out (Option α × σ)) : Nat → σ → Out (List α)
  | 0, _ => .timeout
  | fuel + 1, s => do
    let (v, s') ← next s
    match v with
    | none => .ok []
    | some a => do
      let rest ← collectWith next fuel s'
      .ok (a :: rest)

/-- A pure `next` as an `Out` step. -/
def liftNext (next : σ → Option α × σ) : σ → Out (Option α × σ) := fun s => .ok (next s)

/-- The result of `n` consecutive calls to `next`: all answers, and the final state. -/
def callN (next : σ → Option α × σ) : Nat → σ → List (Option α) × σ
  | 0, s => ([], s)
  | n + 1, s =>
    let (v, s') := next s
    let (vs, s'') := callN next n s'
    (v :: vs, s'')

/-- One call in a schedule for a double-ended iterator. -/
inductive End where
  | front
  | back
  deriving DecidableEq, Repr

/-- Run a schedule of `next` / `next_back` calls; answers in call order. -/
def runSchedule (next nextBack : σ → Option α × σ) : List End → σ → List (Option α) × σ
  | [], s => ([], s)
  | .front :: es, s =>
    let (v, s') := next s
    let (vs, s'') := runSchedule next nextBack es s'
    (v :: vs, s'')
  | .back :: es, s =>
    let (v, s') := nextBack s
    let (vs, s'') := runSchedule next nextBack es s'
    (v :: vs, s'')

end Sqrid
