import Verif.Spec.Search
import Verif.Spec.Tour
/-! What the traversals from both ends of the shortest paths say. -/

namespace Sqrid

namespace Spec

/-- Part of a program that uses the library: the distance of a position, from the layers that a `bf_iter` has yielded. -/
def distIn (orig : Int × Int) (layers : List (List ((Int × Int) × Dir))) (q : Int × Int) : Option Nat :=
  if q = orig then some 0 else (layers.findIdx? fun layer => (layer.map Prod.fst).contains q).map (· + 1)

/-- The sum of two numbers that may not exist. -/
def sumOf : Option Nat → Option Nat → Option Nat
  | some a, some b => some (a + b)
  | _, _ => none

/-- A program: the positions whose distances from both ends add up to the distance between the ends. -/
def seats (a b : Int × Int) (fromA fromB : List (List ((Int × Int) × Dir))) (ps : List (Int × Int)) : List (Int × Int) :=
  ps.filter fun q => (distIn a fromA b).isSome && sumOf (distIn a fromA q) (distIn b fromB q) == distIn a fromA b

/-- Another program: how long the shortest paths would be without the wall `w`, from the traversals with that wall: the old distance, or the way from `a` to beside the wall, two
steps through it, and on from beside it to `b`. -/
def withoutWall (D : Bool) (a b : Int × Int) (fromA fromB : List (List ((Int × Int) × Dir))) (w : Int × Int) : Option Nat :=
  (distIn a fromA b :: (clockwise D).flatMap fun d => (clockwise D).map fun e =>
    (sumOf (distIn a fromA (neighbour w d)) (distIn b fromB (neighbour w e))).map (· + 2)).reduceOption.min?

end Spec

end Sqrid
