import Verif.Spec.Grid
/-! Words of C136. -/

namespace Sqrid.Spec

/-- How often a list of numbers goes down from one number to the next. -/
def descents : List Nat → Nat
  | a :: b :: l => (if b < a then 1 else 0) + descents (b :: l)
  | _ => 0

/-- How often a list of numbers goes up from one number to the next. -/
def ascents : List Nat → Nat
  | a :: b :: l => (if a < b then 1 else 0) + ascents (b :: l)
  | _ => 0

end Sqrid.Spec
