import Verif.Spec.Search
/-! Grids whose opposite edges are joined. -/

namespace Sqrid

namespace Spec

/-- One past an edge is the other edge. -/
def wrap1 (lo hi x : Int) : Int := if x < lo then hi else if hi < x then lo else x

/-- One past an edge of the grid is the opposite edge. -/
def wrap (T : PosTy) (p : Int × Int) : Int × Int := (wrap1 T.X.MIN T.X.MAX p.1, wrap1 T.Y.MIN T.Y.MAX p.2)

/-- The movement function of a grid whose opposite edges are joined, with walls. -/
def joinedEdges (T : PosTy) (walls : List (Int × Int)) (p : Int × Int) (d : Dir) : Option (Int × Int) :=
  if wrap T (neighbour p d) ∈ walls then none else some (wrap T (neighbour p d))

/-- How far `x` is from `y` on a ring of `n`: the shorter way round. -/
def ring (n x y : Int) : Nat := min (x - y).natAbs (n - (x - y).natAbs).toNat

/-- The distance if the opposite edges are joined and there are no walls. -/
def ringDist (T : PosTy) (D : Bool) (p q : Int × Int) : Nat :=
  if D then max (ring (cols T) p.1 q.1) (ring (rows T) p.2 q.2) else ring (cols T) p.1 q.1 + ring (rows T) p.2 q.2

end Spec

end Sqrid
