import Verif.Model.PosT
import Verif.Spec.Pos
/-! Going through the smallest rectangle around some positions. -/

namespace Sqrid

namespace Spec

/-- A program that uses the library: it passes positions to `tlbr_of`, and goes through the `iter_range` of the two corners. -/
def boxPositions (T : PosTy) (items : List (Int × Int)) (fuel : Nat) : Out (Res (List (Int × Int))) :=
  match PosTy.tlbrOf items with
  | .error e => .ok (.error e)
  | .ok (tl, br) => do
    let l ← collectWith (liftNext (PosIterRange.next T)) fuel (PosIterRange.new tl br)
    .ok (.ok l)

/-- `iter_range` leaves out the corner `br` (C12): it is on the last line, but not in the last column. -/
def LeavesOut (T : PosTy) (br : Int × Int) : Prop := br.2 = T.Y.MAX ∧ br.1 < T.X.MAX

/-- Reading order: line by line, and from left to right in each line. -/
def ReadsBefore (p q : Int × Int) : Prop := p.2 < q.2 ∨ p.2 = q.2 ∧ p.1 < q.1

end Spec

end Sqrid
