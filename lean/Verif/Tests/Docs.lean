import Verif.Model.Base
import Verif.Model.Conv
import Verif.Model.Display
import Verif.Spec.Target
/-!
# The examples of the documentation, run on the model

/repo/src/lib.rs:50-279 and the doc comments of the modules. As `Tests/Unit.lean`, these are tests of the model and not proofs of properties. The examples mostly
print; here is what they print.
-/

namespace Sqrid.Tests

attribute [local instance] debug64

set_option maxRecDepth 8000

/-- lib.rs:50-58, pos.rs:40-62. -/
example : Pos.new 6 7 3 3 = .ok (3, 3) ∧ Pos.new 4 4 3 3 = .ok (3, 3) ∧ Pos.newUnwrap 4 4 3 3 = .ok (3, 3) := by decide

/-- pos.rs:69-73: `new_static::<3, 30>()` of `Pos<4, 4>` does not compile. -/
example : Pos.newUnwrap 4 4 3 30 = .panic := by decide

/-- `sqrid_create!(2, 2, false)`, lib.rs:91. -/
abbrev S2 : SqridTy := SqridTy.create 2 2 false

/-- lib.rs:95-97: what `grid_create!` is equivalent to. -/
example : S2.gridCreateSize = (S2.XMAX + 1) * (S2.YMAX + 1) := by decide

/-- The grid of lib.rs:99-120: collected, each member times ten, reversed. -/
example : (do let g ← Grid.fromIter S2.gridCreateSize (List.range 9)
              let g := (Grid.iter g).map (· * 10)
              let ps ← Grid.iterPos S2.posCreate g
              .ok (g, ps.map Prod.fst, g.reverse)) =
    .ok ([0, 10, 20, 30, 40, 50, 60, 70, 80], [(0, 0), (1, 0), (2, 0), (0, 1), (1, 1), (2, 1), (0, 2), (1, 2), (2, 2)], [80, 70, 60, 50, 40, 30, 20, 10, 0]) := by
  decide

/-- `sqrid_create!(3, 3, false)`, lib.rs:137. -/
abbrev S3 : SqridTy := SqridTy.create 3 3 false

/-- The gridbool of lib.rs:142-147: the corners, then the sides. -/
def docGridbool : Out (List (BitVec 32)) := do
  let all ← PosIter.toList S3.posCreate true
  let gb ← Gridbool.fromPositions S3.posCreate S3.gridboolCreateWords (all.filter (S3.posCreate.isCorner ·))
  Gridbool.setIterT S3.posCreate gb (all.filter (S3.posCreate.isSide ·))

/-- lib.rs:148-156: the values, and the assertion that the true ones are sides. -/
example : (docGridbool >>= Gridbool.iter S3.posCreate) =
      .ok [true, true, true, true, true, false, false, true, true, false, false, true, true, true, true, true] ∧
    (docGridbool >>= Gridbool.iterT S3.posCreate >>= fun ps => .ok (ps.length, ps.all (S3.posCreate.isSide ·))) = .ok (12, true) := by decide +kernel

/-- lib.rs:197-205, base.rs:33-41: `bf_iter` from the center. -/
example : Pos.CENTER 3 3 = .ok (1, 1) ∧ (S3.bfIter S3.posCreate S3.posCreate.addDirOk (1, 1) 20 >>= fun ls => .ok (ls.map (List.map Prod.fst))) =
    .ok [[(1, 0), (2, 1), (1, 2), (0, 1)], [(2, 0), (0, 0), (3, 1), (2, 2), (1, 3), (0, 2)], [(3, 0), (3, 2), (2, 3), (0, 3)], [(3, 3)]] := by decide +kernel

/-- bf.rs:28-46: `enumerate` starts at 0 with the positions one step away. -/
example : (S2.bfIter S2.posCreate S2.posCreate.addDirOk (1, 1) 20) =
    .ok [[((1, 0), .S), ((2, 1), .W), ((1, 2), .N), ((0, 1), .E)], [((2, 0), .W), ((0, 0), .E), ((2, 2), .N), ((0, 2), .E)]] := by decide +kernel

/-- lib.rs:218-229, bf.rs:65-76: `bfs_path` from the top left to the bottom right. -/
example : S3.bfsPath S3.posCreate S3.posCreate.addDirOk (0, 0) (fun p => p == (3, 3)) 20 = .ok (.ok ((3, 3), [.E, .E, .E, .S, .S, .S])) ∧
    S2.bfsPath S2.posCreate S2.posCreate.addDirOk (0, 0) (fun p => p == (2, 2)) 20 = .ok (.ok ((2, 2), [.E, .E, .S, .S])) := by decide +kernel

/-- lib.rs:240-250, astar.rs:36-45: `astar_path`. -/
example : S3.astarPath S3.posCreate S3.posCreate.addDirOk (0, 0) (3, 3) 40 = .ok (.ok [.E, .E, .E, .S, .S, .S]) := by decide +kernel

/-- lib.rs:263-279, ucs.rs:36-52: `ucs_path` with all costs 1. -/
example : S3.ucsPath S3.posCreate (fun p d => (S3.posCreate.addDirOk p d).map fun q => (q, 1)) (0, 0) (3, 3) 80 =
    .ok (.ok [.E, .E, .E, .S, .S, .S]) := by decide +kernel

/-- dir.rs:324-337. -/
example : DirIter.toList false = .ok [.N, .E, .S, .W] ∧ DirIter.toList true = .ok [.N, .NE, .E, .SE, .S, .SW, .W, .NW] := by decide

/-- boundedint.rs:222-224, pos.rs:163-165: do not compile. -/
example : (BTy.bounded .u8 0 5).newUnwrap 9 = .panic ∧ Pos.newUnwrap 5 5 9 9 = .panic := by decide

end Sqrid.Tests
