import Verif.Model.Base
import Verif.Spec.Target
/-!
# The search tests of the repository, run on the model

/repo/tests/search_tests.rs. As `Tests/Unit.lean`, these are tests of the model and not proofs of properties. The larger ones are evaluated by Lean's
interpreter (`#guard`): nothing else uses them.
-/

namespace Sqrid.Tests

attribute [local instance] debug64

/-- `sqrid_create!(29, 14, false)`, search_tests.rs:13. -/
abbrev S : SqridTy := SqridTy.create 29 14 false

/-- `pos_create!(Sqrid)`, search_tests.rs:14. -/
abbrev P : PosTy := S.posCreate

/-- A maze: walls, start and end. -/
structure Maze where
  wall : List (BitVec 32)
  start : Int × Int
  stop : Int × Int

/-- One character of a maze, search_tests.rs:25-31. -/
def Maze.put (m : Maze) (p : Int × Int) (c : Char) : Out Maze := do
  let wall ← Gridbool.set P m.wall p (c == '#')
  .ok { wall, start := if c == 'T' then p else m.start, stop := if c == 'C' then p else m.stop }

/-- `walls_from_str`, search_tests.rs:18-35. -/
def wallsFromStr (rows : List String) : Out Maze :=
  (rows.zipIdx).foldlM (fun m r => (r.1.toList.zipIdx).foldlM (fun m c => m.put (c.2, r.2) c.1) m)
    { wall := Gridbool.ALL_FALSE S.gridboolCreateWords, start := P.first, stop := P.last }

/-- `calc_path`, search_tests.rs:37-45. -/
def calcPath (wall : List (BitVec 32)) (p : Int × Int) (d : Dir) : Option (Int × Int) :=
  (P.addDirOk p d).filter fun q => Gridbool.get P wall q == .ok false

/-- `calc_ucs_path`, search_tests.rs:47-55. -/
def calcUcsPath (wall : List (BitVec 32)) (p : Int × Int) (d : Dir) : Option ((Int × Int) × Int) := (calcPath wall p d).map fun q => (q, 1)

/-- `test_path`, search_tests.rs:61-69. -/
def follow (wall : List (BitVec 32)) (p : Int × Int) (path : List Dir) : Option (Int × Int) := path.foldlM (calcPath wall) p

/-- Whether a search returned a path of `distance` steps that leads to the end. -/
def good (m : Maze) (distance : Nat) : Out (Res (List Dir)) → Bool
  | .ok (.ok path) => path.length == distance && follow m.wall m.start path == some m.stop
  | _ => false

/-- The path of a result of a breadth-first search. -/
def pathOf : Out (Res ((Int × Int) × List Dir)) → Out (Res (List Dir))
  | .ok (.ok r) => .ok (.ok r.2)
  | .ok (.error e) => .ok (.error e)
  | .panic => .panic
  | .ub => .ub
  | .timeout => .timeout

/-- The three searches with grids, search_tests.rs:79-82, 92-95, 105-108. -/
def gridSearches (distance fuel : Nat) (m : Maze) : Bool :=
  good m distance (pathOf (S.bfsPath P (calcPath m.wall) m.start (fun q => q == m.stop) fuel)) &&
    good m distance (S.astarPath P (calcPath m.wall) m.start m.stop fuel) && good m distance (S.ucsPath P (calcUcsPath m.wall) m.start m.stop fuel)

/-- The other searches, search_tests.rs:83-90, 96-103, 109-116. -/
def otherSearches (distance fuel : Nat) (m : Maze) : Bool :=
  good m distance (pathOf (S.bfsPathHash P (calcPath m.wall) m.start (fun q => q == m.stop) fuel)) &&
    good m distance (pathOf (S.bfsPathBtree P (calcPath m.wall) m.start (fun q => q == m.stop) fuel)) &&
    good m distance (S.astarPathHash P (calcPath m.wall) m.start m.stop fuel) && good m distance (S.astarPathBtree P (calcPath m.wall) m.start m.stop fuel) &&
    good m distance (S.ucsPathHash P (calcUcsPath m.wall) m.start m.stop fuel) && good m distance (S.ucsPathBtree P (calcUcsPath m.wall) m.start m.stop fuel)

/-- `wall.flip_h()` with the start and the end, search_tests.rs:128-130. -/
def Maze.flipH (m : Maze) : Out Maze := do
  .ok { wall := ← Gridbool.flipH P m.wall, start := ← P.flipH m.start, stop := ← P.flipH m.stop }

/-- `wall.flip_v()` with the start and the end, search_tests.rs:132-134. -/
def Maze.flipV (m : Maze) : Out Maze := do
  .ok { wall := ← Gridbool.flipV P m.wall, start := ← P.flipV m.start, stop := ← P.flipV m.stop }

/-- `do_test`, search_tests.rs:125-141, from the start only. -/
def doTest (distance : Nat) (rows : List String) : Out Bool := do
  let m ← wallsFromStr rows
  let m1 ← m.flipH
  let m2 ← m1.flipV
  let m3 ← m2.flipH
  .ok ([m, m1, m2, m3].all fun m => gridSearches distance 4000 m && otherSearches distance 4000 m)

/-- `test_loop`, search_tests.rs:143-150: all the directions are north, except that of the first position. -/
example : camefromIntoPath P (.grid P S.gridCreateSize none) (some .S :: List.replicate 449 (some .N)) (29, 14) (0, 0) = .ok (.error .loop) := by decide +kernel

/-- The maze of `test_unreachable`, search_tests.rs:153. -/
def mazeUnreachable : List String := [
  "##############################",
  "#.............#..............#",
  "#.C...........#..............#",
  "#.............#..............#",
  "#.............#..............#",
  "#.............#..............#",
  "#.............#..............#",
  "#.............#..............#",
  "#.............#..............#",
  "#.............#..............#",
  "#.............#..............#",
  "#.............#..............#",
  "#.............#............T.#",
  "#.............#..............#",
  "##############################"]

/-- The maze of `test_bfs1`, search_tests.rs:184. -/
def mazeBfs1 : List String := [
  "##############################",
  "##############################",
  "#####################C.....T##",
  "##############################",
  "##############################",
  "##############################",
  "##############################",
  "##############################",
  "##############################",
  "##############################",
  "##############################",
  "##############################",
  "##############################",
  "##############################",
  "##############################"]

/-- The maze of `test_bfs4`, search_tests.rs:208. -/
def mazeBfs4 : List String := [
  "##############################",
  "##.###########.###############",
  "#...#.######.#......#......T##",
  "###.#.######.#.######.########",
  "##...........#.######.########",
  "###.#.######......###.########",
  "#...#.###....#.##.###.########",
  "#.############.##.....########",
  "#......##......###############",
  "###.###############..........#",
  "###.#####......####.########.#",
  "###.......####............####",
  "##############.######.###.##.#",
  "####C..........###....###....#",
  "##############################"]

/-- The maze of `test_bfs5`, search_tests.rs:234. -/
def mazeBfs5 : List String := [
  "##############################",
  "####.....#..........T........#",
  "##########.#################.#",
  "####.......................#.#",
  "####.##########.##########.#.#",
  "####.......................#.#",
  "##########.#########.#######.#",
  "##########...........#######.#",
  "##########.#########.#######.#",
  "####.......................#.#",
  "####.##########.##########.#.#",
  "####.......................#.#",
  "##########.#########.#######.#",
  "####.....#C###########.....#.#",
  "##############################"]

/-- The maze of `test_bfs6`, search_tests.rs:260. -/
def mazeBfs6 : List String := [
  "##############################",
  "##.##....#.##.....##.###.....#",
  "##....##......####.......###.#",
  "#..##.##.#.##.####.##.##.###.#",
  "##.##.....#........##C.......#",
  "#.....###...###......###.#####",
  "###.#.###.#.....##..........##",
  "#.........###.###.##........##",
  "###.###.#............###.##..#",
  "###.....###.###.#........##.##",
  "#.########...##.##.##.#.#...##",
  "#.............###..#.#......##",
  "#.####.######.###.#######...##",
  "###........T#.......##......##",
  "##############################"]

/-- The maze of `test_bfs7`, search_tests.rs:286. -/
def mazeBfs7 : List String := [
  "##############################",
  "#............................#",
  "#.#######################.#..#",
  "#.....T.................#.#..#",
  "#.....#.................#.#..#",
  "#.#######################.#..#",
  "#.....##......##......#....###",
  "#...####..##..##..##..#..#...#",
  "#.........##......##.....#...#",
  "###########################.##",
  "#......#......#..............#",
  "#...C..#.....................#",
  "#...#..####################..#",
  "#............................#",
  "##############################"]

/-- The maze of `test_bfs8`, search_tests.rs:312. -/
def mazeBfs8 : List String := [
  "##############################",
  "#............................#",
  "#..####################......#",
  "#.....................#..C...#",
  "#............###..##..#..#...#",
  "##.###########################",
  "#...#.....##......##.........#",
  "#...#..#..##..##..##..####...#",
  "###....#......##......##.....#",
  "#..#.#######################.#",
  "#..#.#................#......#",
  "#..#.#................T......#",
  "#..#.#######################.#",
  "#............................#",
  "##############################"]

/-- `test_unreachable`, search_tests.rs:152-181. -/
def testUnreachable : Out Bool := do
  let m ← wallsFromStr mazeUnreachable
  .ok (pathOf (S.bfsPath P (calcPath m.wall) m.start (fun q => q == m.stop) 4000) == .ok (.error .destinationUnreachable) &&
    S.astarPath P (calcPath m.wall) m.start m.stop 4000 == .ok (.error .destinationUnreachable))

#guard testUnreachable == .ok true
#guard doTest 6 mazeBfs1 == .ok true
#guard doTest 68 mazeBfs4 == .ok true
#guard doTest 42 mazeBfs5 == .ok true
#guard doTest 33 mazeBfs6 == .ok true
#guard doTest 70 mazeBfs7 == .ok true
#guard doTest 71 mazeBfs8 == .ok true

end Sqrid.Tests
