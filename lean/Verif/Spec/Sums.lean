import Verif.Model.SetMap
import Verif.Spec.Pos
import Mathlib.Algebra.Group.Defs
/-! Running sums over a grid. The numbers are of any type with an addition and a subtraction that obey the usual laws; integers that wrap around do. -/

namespace Sqrid

namespace Spec

/-- What a map has at the position next to `p`, and zero if that is outside the grid. -/
def lookBeside {G : Type} [AddCommGroup G] (T : PosTy) (C : MapImpl G) (s : C.σ) (p : Int × Int) (d : Dir) : Out G :=
  match T.addDirOk p d with
  | some q => C.get s q
  | none => .ok 0

/-- A program that uses the library: it goes through `P::iter()`, or a `PosTIter` that goes column by column, and sets each position of a map to the sum of everything to the
left of it and above it, itself included, from what it has set before. -/
def runningSums {G : Type} [AddCommGroup G] (T : PosTy) (C : MapImpl G) (XFIRST : Bool) (value : Int × Int → G) : Out C.σ := do
  let ps ← PosIter.toList T XFIRST
  ps.foldlM (fun s p => do
    let w ← lookBeside T C s p .W
    let n ← lookBeside T C s p .N
    let nw ← lookBeside T C s p .NW
    C.set s p (value p + w + n - nw)) (C.new 0)

/-- Another: from such a map, the sum over the rectangle with the corners `tl` and `br`. -/
def boxSum {G : Type} [AddCommGroup G] (T : PosTy) (C : MapImpl G) (s : C.σ) (tl br : Int × Int) : Out G := do
  let all ← C.get s br
  let w ← lookBeside T C s (tl.1, br.2) .W
  let n ← lookBeside T C s (br.1, tl.2) .N
  let nw ← lookBeside T C s tl .NW
  .ok (all - w - n + nw)

/-- The sum over the rectangle itself. -/
def rectSum {G : Type} [AddCommGroup G] (value : Int × Int → G) (tl br : Int × Int) : G := ((rectRows tl br).map value).sum

end Spec

end Sqrid
