import Verif.Spec.Target
/-!
# Specification vocabulary: debug and release builds
-/

namespace Sqrid

namespace Spec

/-- On machines of either size, if the debug build does not panic, the release build has the same outcome. -/
def SameInRelease (f : [Target] → Out α) : Prop :=
  ∀ wide, @f { checks := true, wide } = .panic ∨ @f { checks := false, wide } = @f { checks := true, wide }

end Spec

end Sqrid
