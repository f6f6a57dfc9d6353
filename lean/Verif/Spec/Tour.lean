import Verif.Spec.Search
import Verif.Model.Prim
/-! A shortest way past several positions, in any order. -/

namespace Sqrid

namespace Spec

/-- A way from `p` comes past `t`: some part of it from the start leads there. -/
def Passes (go : Int × Int → Dir → Option (Int × Int)) (p : Int × Int) (ds : List Dir) (t : Int × Int) : Prop :=
  ∃ as bs, ds = as ++ bs ∧ follow go p as = some t

/-- A way from `p` past all of `ts`. -/
def IsTour (go : Int × Int → Dir → Option (Int × Int)) (D : Bool) (p : Int × Int) (ts : List (Int × Int)) (ds : List Dir) : Prop :=
  (∃ q, IsPath go D p ds q) ∧ ∀ t ∈ ts, Passes go p ds t

/-- The shorter of two ways that may not exist. -/
def shorter : Option (List Dir) → Option (List Dir) → Option (List Dir)
  | some a, some b => some (if a.length ≤ b.length then a else b)
  | some a, none => some a
  | none, b => b

/-- The shortest of what `f` gives for some positions. -/
def shortestOf (f : Int × Int → Out (Option (List Dir))) : List (Int × Int) → Out (Option (List Dir))
  | [] => .ok none
  | t :: ts => do
    let a ← f t
    let b ← shortestOf f ts
    .ok (shorter a b)

/-- A program that uses the library: from `p` it tries each of the positions `ts` as the first one to go to, by `way`, and from there past the others in the same manner; `left` is
how many there are. -/
def tour (way : Int × Int → Int × Int → Out (Option (List Dir))) : Nat → Int × Int → List (Int × Int) → Out (Option (List Dir))
  | 0, _, _ => .ok (some [])
  | left + 1, p, ts => shortestOf (fun t => do
      match ← way p t with
      | none => .ok none
      | some as =>
        match ← tour way left t (ts.erase t) with
        | none => .ok none
        | some bs => .ok (some (as ++ bs))) ts

/-- The way from `p` to `t` by a breadth-first search, which does not find the position where it starts. -/
def wayBfs (bfs : Int × Int → (Int × Int → Bool) → Out (Res ((Int × Int) × List Dir))) (p t : Int × Int) : Out (Option (List Dir)) :=
  if p = t then .ok (some [])
  else do
    match ← bfs p (fun q => q == t) with
    | .ok (_, path) => .ok (some path)
    | .error _ => .ok none

/-- Another program: it goes to the nearest of the positions that are left, again and again. -/
def nearestFirst (bfs : Int × Int → (Int × Int → Bool) → Out (Res ((Int × Int) × List Dir))) : Nat → Int × Int → List (Int × Int) → Out (Option (List Dir))
  | 0, _, _ => .ok (some [])
  | left + 1, p, ts => do
    match ← bfs p (fun q => ts.contains q) with
    | .error _ => .ok none
    | .ok (t, as) =>
      match ← nearestFirst bfs left t (ts.erase t) with
      | none => .ok none
      | some bs => .ok (some (as ++ bs))

end Spec

end Sqrid
