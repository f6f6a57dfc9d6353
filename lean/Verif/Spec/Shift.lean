import Verif.Spec.Search
/-!
# Specification vocabulary: moving a problem elsewhere
-/

namespace Sqrid.Spec

/-- The position `v` away from `p`. -/
def shift (v p : Int × Int) : Int × Int := (p.1 + v.1, p.2 + v.2)

/-- The movement function `go`, moved by `v`. -/
def shiftGo (v : Int × Int) (go : Int × Int → Dir → Option (Int × Int)) (p : Int × Int) (d : Dir) : Option (Int × Int) :=
  (go (p.1 - v.1, p.2 - v.2) d).map (shift v)

/-- `p` comes before `q` in the order of positions: by columns, and from top to bottom in a column. -/
def BeforePos (p q : Int × Int) : Prop := p.1 < q.1 ∨ p.1 = q.1 ∧ p.2 < q.2

/-- The results `r` and `r'` of two searches, on grids of `c` and `c'` columns, agree: `r'` is `r` with the answers renamed by `f`; or both have found the same path, and
each returns it unless it is longer than the square of its number of columns, when the result is `Loop`. `path a` is the path in the answer `a`. -/
def SameAnswer {α α' : Type} (c c' : Int) (path : α → List Dir) (f : α → α') (r : Out (Res α)) (r' : Out (Res α')) : Prop :=
  (r' = do let x ← r; .ok (x.map f)) ∨
  ∃ a, r = .ok (if ((path a).length : Int) ≤ c * c then .ok a else .error .loop) ∧
    r' = .ok (if ((path a).length : Int) ≤ c' * c' then .ok (f a) else .error .loop)

end Sqrid.Spec
