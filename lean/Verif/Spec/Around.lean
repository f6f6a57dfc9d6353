import Verif.Model.SetMap
import Verif.Spec.Pos
/-! The positions around a position, and counting around positions. -/

namespace Sqrid

namespace Spec

/-- A program that uses the library: it goes through `Dir::iter()`, adds each direction to the position and keeps what is in the grid. -/
def around (T : PosTy) (D : Bool) (p : Int × Int) : Out (List (Int × Int)) := do
  let dirs ← DirIter.toList D
  .ok (dirs.filterMap (T.addDirOk p))

/-- Another program: it goes through positions, such as those of the `iter_t` of a `Gridbool`, and adds one in a map to each position around each of them. With
positions that differ the numbers are at most eight, so they fit every type of integer. -/
def tally (T : PosTy) (C : MapImpl Int) (D : Bool) : List (Int × Int) → C.σ → Out C.σ
  | [], counts => .ok counts
  | p :: ps, counts => do
    let qs ← around T D p
    let counts ← qs.foldlM (fun counts q => do
      let n ← C.get counts q
      C.set counts q (n + 1)) counts
    tally T C D ps counts

end Spec

end Sqrid
