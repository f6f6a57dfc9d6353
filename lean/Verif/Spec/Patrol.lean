import Verif.Model.SetMap
import Verif.Model.Dir
import Verif.Spec.Pos
/-! A guard who walks straight on, and turns right before walls. -/

namespace Sqrid

namespace Spec

/-- A program that uses the library: one step of the guard. `none` if it leads out of the grid. -/
def patrolStep (T : PosTy) (wall : Int × Int → Bool) (s : (Int × Int) × Dir) : Out (Option ((Int × Int) × Dir)) :=
  match T.addDir s.1 s.2 with
  | .error _ => .ok none
  | .ok q =>
    if wall q then do
      let d ← s.2.rotate .E
      .ok (some (s.1, d))
    else .ok (some (q, s.2))

/-- At most so many steps, and the set of the positions that the guard comes to. `none` if the guard is still in the grid after them. -/
def patrol (T : PosTy) (S : SetImpl) (wall : Int × Int → Bool) : Nat → (Int × Int) × Dir → S.σ → Out (Option S.σ)
  | 0, _, _ => .ok none
  | n + 1, s, seen => do
    let seen ← S.insert seen s.1
    match ← patrolStep T wall s with
    | none => .ok (some seen)
    | some s => patrol T S wall n s seen

/-- A quarter turn to the right. -/
def right : Dir → Dir
  | .N => .E | .NE => .SE | .E => .S | .SE => .SW | .S => .W | .SW => .NW | .W => .N | .NW => .NE

/-- Where the guard is and looks after `n` steps, unless outside by then. -/
def guardAfter (T : PosTy) (wall : Int × Int → Bool) (s : (Int × Int) × Dir) : Nat → Option ((Int × Int) × Dir)
  | 0 => some s
  | n + 1 =>
    match guardAfter T wall s n with
    | none => none
    | some (p, d) =>
      let q := neighbour p d
      if (T.X.MIN ≤ q.1 ∧ q.1 ≤ T.X.MAX) ∧ T.Y.MIN ≤ q.2 ∧ q.2 ≤ T.Y.MAX then
        if wall q then some (p, right d) else some (q, d)
      else none

/-- The guard comes to the position at some time. -/
def ComesTo (T : PosTy) (wall : Int × Int → Bool) (s : (Int × Int) × Dir) (p : Int × Int) : Prop := ∃ n d, guardAfter T wall s n = some (p, d)

/-- The guard is outside at some time. -/
def Leaves (T : PosTy) (wall : Int × Int → Bool) (s : (Int × Int) × Dir) : Prop := ∃ n, guardAfter T wall s n = none

end Spec

end Sqrid
