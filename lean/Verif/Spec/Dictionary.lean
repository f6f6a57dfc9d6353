import Verif.Spec.Pos
/-! The order of a dictionary, for lists of directions. -/

namespace Sqrid

namespace Spec

/-- `as` comes before `bs` in the order of a dictionary in which the directions are sorted clockwise from north: where they first differ, the direction of `as` comes
before the one of `bs`. -/
def ComesBefore (as bs : List Dir) : Prop :=
  ∃ pre a as' b bs', as = pre ++ a :: as' ∧ bs = pre ++ b :: bs' ∧ (clockwise true).idxOf a < (clockwise true).idxOf b

end Spec

end Sqrid
