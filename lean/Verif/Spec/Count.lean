import Verif.Spec.Search
/-! Counting shortest paths, layer by layer. -/

namespace Sqrid

namespace Spec

/-- There are exactly `c` paths of `n` steps from `p` to `q`. -/
def NumPaths (go : Int × Int → Dir → Option (Int × Int)) (D : Bool) (p q : Int × Int) (n c : Nat) : Prop :=
  ∃ l : List (List Dir), l.Nodup ∧ (∀ ds, ds ∈ l ↔ IsPath go D p ds q ∧ ds.length = n) ∧ l.length = c

/-- Part of a program that uses the library: the number for each position of a layer is the sum of those of the positions of the layer before, each as often as a step leads from
there to here. The numbers cannot overflow here. -/
def countLayer (D : Bool) (go : Int × Int → Dir → Option (Int × Int)) (before : List ((Int × Int) × Nat)) (layer : List ((Int × Int) × Dir)) : List ((Int × Int) × Nat) :=
  layer.map fun (q, _) => (q, (before.map fun (p, n) => ((clockwise D).filter fun d => go p d = some q).length * n).sum)

/-- The program: it counts, layer after layer of a `bf_iter`, in how many ways one comes to each position. -/
def countWays (D : Bool) (go : Int × Int → Dir → Option (Int × Int)) : List ((Int × Int) × Nat) → List (List ((Int × Int) × Dir)) → List (List ((Int × Int) × Nat))
  | _, [] => []
  | before, layer :: layers => countLayer D go before layer :: countWays D go (countLayer D go before layer) layers

end Spec

end Sqrid
