import Verif.Spec.Pos
/-!
# Specification vocabulary: grids
-/

namespace Sqrid.Spec

/-- The value of the last write at `p` in a sequence of writes, if there is one. -/
def lastWrite (ws : List ((Int × Int) × α)) (p : Int × Int) : Option α :=
  (ws.reverse.find? fun w => decide (w.1 = p)).map Prod.snd

/-- The entry `v[y][x]` of a nested vector, if there is one, for a point `p = (x, y)` with non-negative coordinates. -/
def cellAt (v : List (List α)) (p : Int × Int) : Option α := (v[p.2.toNat]?).bind fun line => line[p.1.toNat]?

/-- The entries `v[y][x]` of a nested vector in reading order, each with its column and its line modulo 65536. -/
def entriesMod (v : List (List α)) : List ((Int × Int) × α) :=
  v.zipIdx.flatMap fun (line, y) => line.zipIdx.map fun (c, x) => (((x : Int) % 65536, (y : Int) % 65536), c)

/-- `p` comes before `q` in reading order. -/
def Before (p q : Int × Int) : Prop := p.2 < q.2 ∨ (p.2 = q.2 ∧ p.1 < q.1)

end Sqrid.Spec
