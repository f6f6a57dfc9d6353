import Verif.Model.Ucs
import Verif.Spec.AllPaths
/-! Looking for the cheapest of several goals with the uniform-cost iterator. -/

namespace Sqrid

namespace Spec

/-- The loop of a program that uses the library: it calls `next`, sets the position to the direction in a map if it has none there yet, and ends at the first position for
which `found` holds. -/
def firstGoal {σ : Type} (next : σ → Out (Option ((Int × Int) × Dir) × σ)) (M : MapImpl (Option Dir)) (found : Int × Int → Bool) :
    Nat → σ → M.σ → Out (Option ((Int × Int) × M.σ))
  | 0, _, _ => .timeout
  | calls + 1, it, map => do
    let (item, it) ← next it
    match item with
    | none => .ok none
    | some (pos, dir) => do
      let map ← setFirst M map (pos, dir)
      if found pos then .ok (some (pos, map)) else firstGoal next M found calls it map

/-- The program: it goes through a `UcsIterator` in this way, and passes the map and the goal to `camefrom_into_path`. -/
def ucsGoal [Target] (T : PosTy) (M : MapImpl (Option Dir)) (C : MapImpl Int) (D : Bool) (go : Int × Int → Dir → Option ((Int × Int) × Int)) (orig : Int × Int)
    (found : Int × Int → Bool) (calls : Nat) : Out (Res ((Int × Int) × List Dir)) := do
  let it ← UcsIter.new C orig
  match ← firstGoal (UcsIter.next C D go) M found calls it M.default with
  | none => .ok (.error .destinationUnreachable)
  | some (dest, map) => do
    let r ← camefromIntoPath T M map orig dest
    .ok (r.map fun path => (dest, path))

end Spec

end Sqrid
