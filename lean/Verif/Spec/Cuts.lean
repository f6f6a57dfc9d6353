import Verif.Spec.Bisect
import Verif.Spec.Tour
/-! The positions that all ways lead through. -/

namespace Sqrid

namespace Spec

/-- A program that uses the library: of the positions that a path enters, those that cut off the destination if they are walls. -/
def cuts {α : Type} (search : Int × Int → Out (Res α)) : List (Int × Int) → Out (List (Int × Int))
  | [] => .ok []
  | p :: ps => do
    let r ← search p
    let rest ← cuts search ps
    .ok (if unreachable r then p :: rest else rest)

end Spec

end Sqrid
