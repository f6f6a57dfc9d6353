import Verif.Spec.Search
/-! Going along a path while calculating it anew before each step. -/

namespace Sqrid

namespace Spec

/-- Where somebody gets in `n` steps who, before each step, calls a search from where they are, and takes the first step of the path that it returns. They stay where they
are if the path has no steps; nothing if the search returns no path or the step is not possible. -/
def replan (search : Int × Int → Out (Res (List Dir))) (go : Int × Int → Dir → Option (Int × Int)) (orig : Int × Int) : Nat → Option (Int × Int)
  | 0 => some orig
  | n + 1 => match replan search go orig n with
    | none => none
    | some p => match search p with
      | .ok (.ok (d :: _)) => go p d
      | .ok (.ok []) => some p
      | _ => none

/-- Some of the steps of `go` are closed in `go'`. -/
def Closes (go go' : Int × Int → Dir → Option (Int × Int)) : Prop := ∀ p d q, go' p d = some q → go p d = some q

/-- Some of the steps of `go` are closed in `go'`, and some of the others may be dearer. -/
def ClosesOrRaises (go go' : Int × Int → Dir → Option ((Int × Int) × Int)) : Prop := ∀ p d q w', go' p d = some (q, w') → ∃ w, go p d = some (q, w) ∧ w ≤ w'

/-- The height of a position in a landscape, given as a list of lines. -/
def heightAt (lines : List (List Int)) (p : Int × Int) : Int := ((lines[p.2.toNat]?).bind fun line => line[p.1.toNat]?).getD 0

/-- The steps in a landscape: each costs one, and one more for each unit of height that it leads up or down. -/
def hills (T : PosTy) (lines : List (List Int)) : Int × Int → Dir → Option ((Int × Int) × Int) :=
  stepCosts T [] fun p d => 1 + ((heightAt lines p - heightAt lines (neighbour p d)).natAbs : Int)

end Spec

end Sqrid
