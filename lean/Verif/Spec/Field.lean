import Verif.Model.SetMap
import Verif.Spec.Search
/-! A map with the distances of all positions from one of them, and the way down in it. -/

namespace Sqrid

namespace Spec

/-- Part of a program that uses the library: it sets the positions of the layers to `k + 1`, `k + 2`, … in a map. -/
def fillLayers (C : MapImpl Int) : List (List ((Int × Int) × Dir)) → Int → C.σ → Out C.σ
  | [], _, field => .ok field
  | layer :: layers, k, field => do
    let field ← layer.foldlM (fun field m => C.set field m.1 (k + 1)) field
    fillLayers C layers (k + 1) field

/-- It starts with a map that has `usize::MAX` everywhere, sets the origin to 0, and goes through the layers that a `bf_iter` from there yields. -/
def distanceField [Target] (C : MapImpl Int) (orig : Int × Int) (layers : List (List ((Int × Int) × Dir))) : Out C.σ := do
  let field ← C.set (C.new limit) orig 0
  fillLayers C layers 0 field

/-- The first of the directions whose step leads to a smaller number than `k`, and where to. -/
def firstLower (C : MapImpl Int) (go : Int × Int → Dir → Option (Int × Int)) (field : C.σ) (p : Int × Int) (k : Int) : List Dir → Out (Option (Dir × (Int × Int)))
  | [] => .ok none
  | d :: ds => match go p d with
    | none => firstLower C go field p k ds
    | some q => do
      let j ← C.get field q
      if j < k then .ok (some (d, q)) else firstLower C go field p k ds

/-- Later, and for any position, it goes down: at 0 it ends, and elsewhere it takes the first step of `Dir::iter` that leads to a smaller number. -/
def wayDown (C : MapImpl Int) (D : Bool) (go : Int × Int → Dir → Option (Int × Int)) (field : C.σ) : Nat → Int × Int → Out (List Dir)
  | 0, _ => .timeout
  | steps + 1, p => do
    let k ← C.get field p
    if k = 0 then .ok []
    else
      let dirs ← DirIter.toList D
      match ← firstLower C go field p k dirs with
      | none => .ok []
      | some (d, q) => do
        let rest ← wayDown C D go field steps q
        .ok (d :: rest)

end Spec

end Sqrid
