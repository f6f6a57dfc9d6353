import Verif.Model.Grid
import Verif.Model.Gridbool
/-!
# Model of /repo/src/sqrid/setpos.rs and /repo/src/sqrid/mappos.rs

The two traits are records of operations. The std collections are modelled by their documented contents: a `HashSet` is the list of its
elements (each once, in no relevant order), a `BTreeSet` the sorted list of its elements, and the maps likewise; hashing, tree balancing and allocation are
not modelled.
-/

namespace Sqrid

/-- The trait `SetPos` together with `Default`, setpos.rs:18-33. -/
structure SetImpl where
  /-- the type that implements the trait -/
  σ : Type
  /-- `Default::default` -/
  default : σ
  /-- `contains` -/
  contains : σ → Int × Int → Out Bool
  /-- `insert` -/
  insert : σ → Int × Int → Out σ
  /-- `remove` -/
  remove : σ → Int × Int → Out σ

namespace SetImpl

/-- `SetPos::set`, setpos.rs:26-32. -/
def set (I : SetImpl) (s : I.σ) (p : Int × Int) (add : Bool) : Out I.σ := if add then I.insert s p else I.remove s p

/-- `SetPos for Gridbool`, setpos.rs:35-45; `Default`, gridbool.rs:265-269. -/
def gridbool [Target] (T : PosTy) (WORDS : Nat) : SetImpl where
  σ := List (BitVec 32)
  default := Gridbool.ALL_FALSE WORDS
  contains := Gridbool.get T
  insert := Gridbool.setT T
  remove := Gridbool.setF T

/-- std `HashSet::insert`: no effect if the element is there. -/
def hashInsert (s : List (Int × Int)) (p : Int × Int) : List (Int × Int) := if p ∈ s then s else p :: s

/-- `SetPos for HashSet`, setpos.rs:47-61. -/
def hash : SetImpl where
  σ := List (Int × Int)
  default := []
  contains := fun s p => .ok (decide (p ∈ s))
  insert := fun s p => .ok (hashInsert s p)
  remove := fun s p => .ok (s.filter fun q => decide (q ≠ p))

/-- std `BTreeSet::contains`: search in sorted order. -/
def btreeContains : List (Int × Int) → Int × Int → Bool
  | [], _ => false
  | q :: s, p => if q = p then true else if PosTy.lt p q then false else btreeContains s p

/-- std `BTreeSet::insert`: keeps the elements sorted. -/
def btreeInsert : List (Int × Int) → Int × Int → List (Int × Int)
  | [], p => [p]
  | q :: s, p => if q = p then q :: s else if PosTy.lt p q then p :: q :: s else q :: btreeInsert s p

/-- std `BTreeSet::remove`: search in sorted order. -/
def btreeRemove : List (Int × Int) → Int × Int → List (Int × Int)
  | [], _ => []
  | q :: s, p => if q = p then s else if PosTy.lt p q then q :: s else q :: btreeRemove s p

/-- `SetPos for BTreeSet`, setpos.rs:63-77. -/
def btree : SetImpl where
  σ := List (Int × Int)
  default := []
  contains := fun s p => .ok (btreeContains s p)
  insert := fun s p => .ok (btreeInsert s p)
  remove := fun s p => .ok (btreeRemove s p)

end SetImpl

/-- The trait `MapPos` together with `Default`, mappos.rs:31-38. -/
structure MapImpl (Item : Type) where
  /-- the type that implements the trait -/
  σ : Type
  /-- `Default::default` -/
  default : σ
  /-- `MapPos::new` -/
  new : Item → σ
  /-- `MapPos::get` -/
  get : σ → Int × Int → Out Item
  /-- `MapPos::set` -/
  set : σ → Int × Int → Item → Out σ

namespace MapImpl

/-- `MapPos for Grid`, mappos.rs:40-54; `Default`, grid.rs:240-247. -/
def grid [Target] (T : PosTy) (SIZE : Nat) (dflt : Item) : MapImpl Item where
  σ := List Item
  default := Grid.default SIZE dflt
  new := Grid.repeat SIZE
  get := Grid.get T
  set := Grid.set T

/-- std `HashMap::get`. -/
def hashGet : List ((Int × Int) × Item) → Int × Int → Option Item
  | [], _ => none
  | (q, v) :: s, p => if q = p then some v else hashGet s p

/-- std `HashMap::insert`: replaces the value if the key is there. -/
def hashInsert : List ((Int × Int) × Item) → Int × Int → Item → List ((Int × Int) × Item)
  | [], p, v => [(p, v)]
  | (q, w) :: s, p, v => if q = p then (q, v) :: s else (q, w) :: hashInsert s p v

/-- `MapPos for (HashMap<P, Item>, Item)`, mappos.rs:56-70; the default of a pair is the pair of the defaults. -/
def hash (dflt : Item) : MapImpl Item where
  σ := List ((Int × Int) × Item) × Item
  default := ([], dflt)
  new := fun item => ([], item)
  get := fun s p => .ok ((hashGet s.1 p).getD s.2)
  set := fun s p v => .ok (hashInsert s.1 p v, s.2)

/-- std `BTreeMap::get`: search in sorted order. -/
def btreeGet : List ((Int × Int) × Item) → Int × Int → Option Item
  | [], _ => none
  | (q, v) :: s, p => if q = p then some v else if PosTy.lt p q then none else btreeGet s p

/-- std `BTreeMap::insert`: keeps the keys sorted. -/
def btreeInsert : List ((Int × Int) × Item) → Int × Int → Item → List ((Int × Int) × Item)
  | [], p, v => [(p, v)]
  | (q, w) :: s, p, v =>
    if q = p then (q, v) :: s else if PosTy.lt p q then (p, v) :: (q, w) :: s else (q, w) :: btreeInsert s p v

/-- `MapPos for (BTreeMap<P, Item>, Item)`, mappos.rs:72-86. -/
def btree (dflt : Item) : MapImpl Item where
  σ := List ((Int × Int) × Item) × Item
  default := ([], dflt)
  new := fun item => ([], item)
  get := fun s p => .ok ((btreeGet s.1 p).getD s.2)
  set := fun s p v => .ok (btreeInsert s.1 p v, s.2)

end MapImpl

/-- The loop of `camefrom_into_path`, mappos.rs:117-126, with `maxiter` as first argument; the loop leaves with `Err(Loop)` when it
gets to 0. It is not 0 at first, see `waySteps_pos`. `ret` is the deque so far. -/
def camefromLoop (T : PosTy) (M : MapImpl (Option Dir)) (map : M.σ) (orig : Int × Int) :
    Nat → Int × Int → List Dir → Out (Res (List Dir))
  | 0, _, _ => .ok (.error .loop)
  | maxiter + 1, pos, ret =>
    if pos = orig then .ok (.ok ret)
    else do
      match ← M.get map pos with
      | none => .ok (.error .invalidMovement)
      | some dir => do
        let neg ← dir.flip
        match T.addDir pos dir with
        | .error _ => .ok (.error .invalidMovement)
        | .ok pos' => camefromLoop T M map orig maxiter pos' (neg :: ret)

/-- `VecDeque::<Dir>::with_capacity(n)` of the standard library, used in mappos.rs:109: a `Dir` takes one byte, and a capacity of more than
`isize::MAX` bytes panics. The allocation itself is not modelled: memory does not run out. -/
def withCapacity [Target] (n : Int) : Out Unit := if n ≤ IntTy.usize.hi / 2 then .ok () else .panic

/-- `camefrom_into_path`, mappos.rs:96-128, and the method of `Sqrid`, mappos.rs:132-150. -/
def camefromIntoPath [Target] (T : PosTy) (M : MapImpl (Option Dir)) (map : M.σ) (orig dest : Int × Int) : Out (Res (List Dir)) := do
  let distance ← T.manhattan orig dest
  let capacity ← IntTy.usize.mul 2 distance
  let _ ← withCapacity capacity
  match ← M.get map dest with
  | none => .ok (.error .destinationUnreachable)
  | some _ => do
    let w1 ← T.width
    let w2 ← T.width
    let ww ← IntTy.usize.mul w1 w2
    let maxiter ← IntTy.usize.add ww 1
    camefromLoop T M map orig maxiter.toNat dest []

end Sqrid
