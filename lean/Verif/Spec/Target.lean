import Verif.Model.Prim
/-!
# Specification vocabulary: targets
-/

namespace Sqrid

namespace Spec

/-- `usize::MAX` of the target. -/
def limit [Target] : Int := if Target.wide then 18446744073709551615 else 4294967295

end Spec

/-- A debug build (arithmetic overflow panics) for a 64-bit machine. -/
@[reducible] def debug64 : Target := { checks := true, wide := true }
/-- A release build (arithmetic overflow wraps around) for a 64-bit machine. -/
@[reducible] def release64 : Target := { checks := false, wide := true }
/-- A debug build for a 32-bit machine. -/
@[reducible] def debug32 : Target := { checks := true, wide := false }
/-- A release build for a 32-bit machine. -/
@[reducible] def release32 : Target := { checks := false, wide := false }

end Sqrid
