import Verif.Model.Adapters
/-!
# Specification vocabulary: taking items from both ends of a list
-/

namespace Sqrid.Spec

open Sqrid

/-- What a call answers if the items of the list are left, and the items that are left after it. -/
def take : IterCall α → List α → Option α × List α
  | .next, l => (l.head?, l.tail)
  | .nextBack, l => (l.getLast?, l.dropLast)
  | .nth n, l => (l[n]?, l.drop (n + 1))
  | .nthBack n, l => (l.reverse[n]?, l.take (l.length - (n + 1)))
  | .find f, l => (l.find? f, (l.dropWhile fun a => !f a).tail)
  | .rfind f, l => (l.reverse.find? f, (l.reverse.dropWhile fun a => !f a).tail.reverse)

/-- The answers of any number of calls, and the items that are left. -/
def takes : List (IterCall α) → List α → List (Option α) × List α
  | [], l => ([], l)
  | c :: cs, l => ((take c l).1 :: (takes cs (take c l).2).1, (takes cs (take c l).2).2)

end Sqrid.Spec
