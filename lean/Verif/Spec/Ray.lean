import Verif.Model.Grid
import Verif.Model.Dir
import Verif.Spec.Search
/-! Looking along a direction, and finding words in a grid of letters. -/

namespace Sqrid

namespace Spec

/-- A program that uses the library: `std::iter::successors(Some(p), |p| (*p + dir).ok())`, collected. -/
def ray (T : PosTy) (d : Dir) : Nat → Int × Int → Out (List (Int × Int))
  | 0, _ => .timeout
  | fuel + 1, p =>
    match T.addDir p d with
    | .error _ => .ok [p]
    | .ok q => do
      let l ← ray T d fuel q
      .ok (p :: l)

/-- The point `k` steps away in the plane. -/
def along (p : Int × Int) (d : Dir) (k : Nat) : Int × Int := (p.1 + (k : Int) * (unit d).1, p.2 + (k : Int) * (unit d).2)

/-- The items for which a test holds. -/
def keepIf {α : Type} (f : α → Out Bool) : List α → Out (List α)
  | [] => .ok []
  | a :: as => do
    let b ← f a
    let rest ← keepIf f as
    .ok (if b then a :: rest else rest)

/-- Another program: where a word stands in a grid, and in which direction. It goes through `P::iter()` and through `Dir::iter()`, looks along the direction and compares as many items as the
word has. -/
def findWord [Target] {α : Type} [DecidableEq α] (T : PosTy) (D : Bool) (g : List α) (word : List α) (fuel : Nat) : Out (List ((Int × Int) × Dir)) := do
  let ps ← PosIter.toList T true
  let dirs ← DirIter.toList D
  keepIf (fun pd => do
    let l ← ray T pd.2 fuel pd.1
    let items ← (l.take word.length).mapM (Grid.get T g)
    .ok (decide (items = word))) (ps.flatMap fun p => dirs.map fun d => (p, d))

end Spec

end Sqrid
