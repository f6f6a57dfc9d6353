import Verif.Model.SetMap
import Verif.Spec.Search
/-! Finding the areas of a grid, by one traversal from each position that was not seen before. -/

namespace Sqrid

namespace Spec

/-- A program that uses the library. It goes through positions, such as those of `Pos::iter()`; from each one that is not in the set of those seen, it starts a
`bf_iter`; the position and all those that the iterator yields are one area, and are inserted in the set. -/
def areas (S : SetImpl) (iter : Int × Int → Out (List (List ((Int × Int) × Dir)))) : List (Int × Int) → S.σ → Out (List (List (Int × Int)))
  | [], _ => .ok []
  | p :: ps, seen => do
    if ← S.contains seen p then areas S iter ps seen
    else
      let layers ← iter p
      let area := p :: layers.flatten.map Prod.fst
      let seen ← area.foldlM S.insert seen
      let rest ← areas S iter ps seen
      .ok (area :: rest)

/-- From the positions for which `free` holds, each step leads to another one, and can be taken back. -/
def BackAndForth (T : PosTy) (D : Bool) (go : Int × Int → Dir → Option (Int × Int)) (free : Int × Int → Prop) : Prop :=
  ∀ p d q, InGrid T p → free p → Allowed D d → go p d = some q → free q ∧ ∃ d', Allowed D d' ∧ go q d' = some p

end Spec

end Sqrid
