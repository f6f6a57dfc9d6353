import Verif.Spec.Collections
import Verif.Props.AnyType
/-!
# Properties of the searches with collections of one's own: C115
-/

namespace Sqrid

-- Statements that do not mention a target are about a debug build for a 64-bit machine.
attribute [local instance] debug64

open Spec

/-! ## C115 -/

section

open Classical

theorem Spec.IsSet.sim {T : PosTy} {I : SetImpl} {good : I.σ → Prop} {mem : I.σ → Int × Int → Prop} (h : IsSet T I good mem) :
    I.Sim T fun s f => good s ∧ ∀ q, InGrid T q → (f q = true ↔ mem s q) where
  default := ⟨h.default.1, fun q hq => by simp [h.default.2 q hq]⟩
  contains := by
    intro s f p hs hp
    obtain ⟨b, h1, h2⟩ := h.contains s p hs.1 hp
    rw [h1]
    have : b = true ↔ f p = true := h2.trans (hs.2 p hp).symm
    exact congrArg _ (by cases b <;> cases hf : f p <;> simp_all)
  insert := by
    intro s f p hs hp
    obtain ⟨s', h1, h2, h3⟩ := h.insert s p hs.1 hp
    refine ⟨s', h1, h2, fun q hq => ?_⟩
    rw [h3 q hq]
    by_cases e : q = p
    · subst e; simp [upd_same]
    · rw [upd_other _ _ e, hs.2 q hq]; simp [e]
  remove := by
    intro s f p hs hp
    obtain ⟨s', h1, h2, h3⟩ := h.remove s p hs.1 hp
    refine ⟨s', h1, h2, fun q hq => ?_⟩
    rw [h3 q hq]
    by_cases e : q = p
    · subst e; simp [upd_same]
    · rw [upd_other _ _ e, hs.2 q hq]; simp [e]

theorem Spec.IsMap.sim {Item : Type} {T : PosTy} {I : MapImpl Item} {good : I.σ → Prop} {Is : I.σ → Int × Int → Item → Prop} (h : IsMap T I good Is) (dflt : Item)
    (hd : good I.default ∧ ∀ q, InGrid T q → Is I.default q dflt) :
    I.Sim T dflt fun s f => good s ∧ ∀ q, InGrid T q → Is s q (f q) where
  default := hd
  new := h.new
  get := by
    intro s f p hs hp
    obtain ⟨v, h1, h2⟩ := h.get s p hs.1 hp
    rw [h1, (h2 _).1 (hs.2 p hp)]
  set := by
    intro s f p v hs hp
    obtain ⟨s', h1, h2, h3, h4⟩ := h.set s p v hs.1 hp
    refine ⟨s', h1, h2, fun q hq => ?_⟩
    by_cases e : q = p
    · subst e; rw [upd_same]; exact h3
    · rw [upd_other _ _ e]; exact (h4 q _ hq e).2 (hs.2 q hq)

end

/-- A map whose `Default` is that of `new(0)`. -/
@[reducible] def MapImpl.zeroed (C : MapImpl Int) : MapImpl Int := { C with default := C.new 0 }

theorem Spec.IsMap.zeroed_sim {T : PosTy} {C : MapImpl Int} {good : C.σ → Prop} {Is : C.σ → Int × Int → Int → Prop} (h : IsMap T C good Is) :
    C.zeroed.Sim T 0 fun s f => good s ∧ ∀ q, InGrid T q → Is s q (f q) :=
  IsMap.sim (I := C.zeroed) (good := good) (Is := Is) ⟨h.new, h.get, h.set⟩ 0 (h.new 0)

/-! The searches do not use the `Default` of the map of costs. -/

theorem AstarIter.next_zeroed [Target] (T : PosTy) (C : MapImpl Int) (D : Bool) (go : GoFn) (dest : P2) (s : AstarIter C.zeroed) (t : AstarIter C)
    (h : s.cost = t.cost ∧ s.frontier = t.frontier) :
    Out.Rel (fun a b => a.1 = b.1 ∧ a.2.cost = b.2.cost ∧ a.2.frontier = b.2.frontier) (AstarIter.next T C.zeroed D go dest s) (AstarIter.next T C D go dest t) := by
  have hrelax : ∀ (p : P2) (d : Dir) (s : AstarIter C.zeroed) (t : AstarIter C), s.cost = t.cost ∧ s.frontier = t.frontier →
      Out.Rel (fun a b => a.cost = b.cost ∧ a.frontier = b.frontier) (AstarIter.relax T C.zeroed go dest p s d) (AstarIter.relax T C go dest p t d) := by
    rintro p d ⟨c, f⟩ ⟨c', f'⟩ ⟨h1, h2⟩
    simp only at h1 h2
    subst h1 h2
    unfold AstarIter.relax
    refine Out.Rel.bind_same _ fun c => ?_
    refine Out.Rel.bind_same _ fun nc => ?_
    cases go p d with
    | none => exact ⟨rfl, rfl⟩
    | some q =>
      simp only
      refine Out.Rel.bind_same _ fun old => ?_
      by_cases hlt : nc < old
      · rw [if_pos hlt, if_pos hlt]
        refine Out.Rel.bind_same _ fun cost => ?_
        refine Out.Rel.bind_same _ fun hh => ?_
        refine Out.Rel.bind_same _ fun pr => ?_
        exact Out.Rel.bind_same _ fun neg => ⟨rfl, rfl⟩
      · rw [if_neg hlt, if_neg hlt]
        exact ⟨rfl, rfl⟩
  unfold AstarIter.next
  rw [h.2]
  cases Heap.pop t.frontier with
  | none => exact ⟨rfl, h⟩
  | some er =>
    obtain ⟨⟨pr, mov⟩, rest⟩ := er
    simp only
    refine Out.Rel.bind_same _ fun dirs => ?_
    refine (Out.Rel.foldlM dirs (fun s t d _ h => hrelax mov.1 d s t h) _ _ ?_).bind fun a b hab => ?_
    · exact ⟨h.1, rfl⟩
    · exact ⟨rfl, hab⟩

theorem Astar.searchLoop_zeroed [Target] (T : PosTy) (M : MapImpl (Option Dir)) (C : MapImpl Int) (D : Bool) (go : GoFn) (dest : P2) (fuel : Nat) :
    ∀ (s : AstarIter C.zeroed) (t : AstarIter C) (m : M.σ), s.cost = t.cost ∧ s.frontier = t.frontier →
    Out.Rel Eq (Astar.searchLoop T M C.zeroed D go dest fuel s m) (Astar.searchLoop T M C D go dest fuel t m) := by
  induction fuel with
  | zero => intro s t m _; trivial
  | succ n ih =>
    intro s t m h
    unfold Astar.searchLoop
    refine (AstarIter.next_zeroed T C D go dest s t h).bind fun x y hxy => ?_
    obtain ⟨v, s'⟩ := x
    obtain ⟨v', t'⟩ := y
    obtain ⟨h1, h3⟩ := hxy
    simp only at h1 h3
    subst h1
    cases v with
    | none => rfl
    | some pd =>
      obtain ⟨p, d⟩ := pd
      simp only
      refine Out.Rel.bind_same _ fun m => ?_
      by_cases hd : p = dest
      · rw [if_pos hd, if_pos hd]; rfl
      · rw [if_neg hd, if_neg hd]; exact ih s' t' m h3

theorem Astar.searchPath_zeroed [Target] (T : PosTy) (M : MapImpl (Option Dir)) (C : MapImpl Int) (D : Bool) (go : GoFn) (orig dest : P2) (fuel : Nat) :
    Astar.searchPath T M C.zeroed D go orig dest fuel = Astar.searchPath T M C D go orig dest fuel := by
  unfold Astar.searchPath Astar.searchMapmov
  have h : (AstarIter.new C.zeroed orig >>= fun it => Astar.searchLoop T M C.zeroed D go dest fuel it M.default) =
      AstarIter.new C orig >>= fun it => Astar.searchLoop T M C D go dest fuel it M.default := by
    apply Out.Rel.eq
    refine Out.Rel.bind (R := fun (a : AstarIter C.zeroed) (b : AstarIter C) => a.cost = b.cost ∧ a.frontier = b.frontier) ?_
      fun a b hab => Astar.searchLoop_zeroed T M C D go dest fuel a b _ hab
    exact Out.Rel.bind_same _ fun cost => ⟨rfl, rfl⟩
  rw [h]

theorem UcsIter.next_zeroed [Target] (C : MapImpl Int) (D : Bool) (go : WGo) (s : UcsIter C.zeroed) (t : UcsIter C)
    (h : s.cost = t.cost ∧ s.frontier = t.frontier) :
    Out.Rel (fun a b => a.1 = b.1 ∧ a.2.cost = b.2.cost ∧ a.2.frontier = b.2.frontier) (UcsIter.next C.zeroed D go s) (UcsIter.next C D go t) := by
  have hrelax : ∀ (p : P2) (d : Dir) (s : UcsIter C.zeroed) (t : UcsIter C), s.cost = t.cost ∧ s.frontier = t.frontier →
      Out.Rel (fun a b => a.cost = b.cost ∧ a.frontier = b.frontier) (UcsIter.relax C.zeroed go p s d) (UcsIter.relax C go p t d) := by
    rintro p d ⟨c, f⟩ ⟨c', f'⟩ ⟨h1, h2⟩
    simp only at h1 h2
    subst h1 h2
    unfold UcsIter.relax
    cases go p d with
    | none => exact ⟨rfl, rfl⟩
    | some qw =>
      obtain ⟨q, w⟩ := qw
      simp only
      refine Out.Rel.bind_same _ fun c => ?_
      refine Out.Rel.bind_same _ fun nc => ?_
      refine Out.Rel.bind_same _ fun old => ?_
      by_cases hlt : nc < old
      · rw [if_pos hlt, if_pos hlt]
        refine Out.Rel.bind_same _ fun cost => ?_
        exact Out.Rel.bind_same _ fun neg => ⟨rfl, rfl⟩
      · rw [if_neg hlt, if_neg hlt]
        exact ⟨rfl, rfl⟩
  unfold UcsIter.next
  rw [h.2]
  cases Heap.pop t.frontier with
  | none => exact ⟨rfl, h⟩
  | some er =>
    obtain ⟨⟨pr, mov⟩, rest⟩ := er
    simp only
    refine Out.Rel.bind_same _ fun dirs => ?_
    refine (Out.Rel.foldlM dirs (fun s t d _ h => hrelax mov.1 d s t h) _ _ ?_).bind fun a b hab => ?_
    · exact ⟨h.1, rfl⟩
    · exact ⟨rfl, hab⟩

theorem Ucs.searchLoop_zeroed [Target] (M : MapImpl (Option Dir)) (C : MapImpl Int) (D : Bool) (go : WGo) (dest : P2) (fuel : Nat) :
    ∀ (s : UcsIter C.zeroed) (t : UcsIter C) (m : M.σ), s.cost = t.cost ∧ s.frontier = t.frontier →
    Out.Rel Eq (Ucs.searchLoop M C.zeroed D go dest fuel s m) (Ucs.searchLoop M C D go dest fuel t m) := by
  induction fuel with
  | zero => intro s t m _; trivial
  | succ n ih =>
    intro s t m h
    unfold Ucs.searchLoop
    refine (UcsIter.next_zeroed C D go s t h).bind fun x y hxy => ?_
    obtain ⟨v, s'⟩ := x
    obtain ⟨v', t'⟩ := y
    obtain ⟨h1, h3⟩ := hxy
    simp only at h1 h3
    subst h1
    cases v with
    | none => rfl
    | some pd =>
      obtain ⟨p, d⟩ := pd
      simp only
      refine Out.Rel.bind_same _ fun m => ?_
      by_cases hd : p = dest
      · rw [if_pos hd, if_pos hd]; rfl
      · rw [if_neg hd, if_neg hd]; exact ih s' t' m h3

theorem Ucs.searchPath_zeroed [Target] (T : PosTy) (M : MapImpl (Option Dir)) (C : MapImpl Int) (D : Bool) (go : WGo) (orig dest : P2) (fuel : Nat) :
    Ucs.searchPath T M C.zeroed D go orig dest fuel = Ucs.searchPath T M C D go orig dest fuel := by
  unfold Ucs.searchPath Ucs.searchMapmov
  have h : (UcsIter.new C.zeroed orig >>= fun it => Ucs.searchLoop M C.zeroed D go dest fuel it M.default) =
      UcsIter.new C orig >>= fun it => Ucs.searchLoop M C D go dest fuel it M.default := by
    apply Out.Rel.eq
    refine Out.Rel.bind (R := fun (a : UcsIter C.zeroed) (b : UcsIter C) => a.cost = b.cost ∧ a.frontier = b.frontier) ?_
      fun a b hab => Ucs.searchLoop_zeroed M C D go dest fuel a b _ hab
    exact Out.Rel.bind_same _ fun cost => ⟨rfl, rfl⟩
  rw [h]

/-- C115. The collections of the crate are correct sets: the boolean grid if it has a bit for every position, the hash set and the btree set. -/
theorem C115_sets [Target] (T : PosTy) (I : SetImpl)
    (hI : (∃ WORDS : Nat, T.IsGrid ∧ cols T * rows T ≤ 32 * (WORDS : Int) ∧ I = .gridbool T WORDS) ∨ I = .hash ∨ I = .btree) :
    ∃ good, IsSet T I good fun s p => I.contains s p = .ok true := by
  have key : ∀ R, I.Sim T R → ∃ good, IsSet T I good fun s p => I.contains s p = .ok true := by
    intro R h
    refine ⟨fun s => ∃ f, R s f, ⟨⟨_, h.default⟩, fun q hq => ?_⟩, ?_, ?_, ?_⟩
    · rw [h.contains h.default hq]; simp
    · rintro s p ⟨f, hf⟩ hp
      exact ⟨f p, h.contains hf hp, by rw [h.contains hf hp]; simp⟩
    · rintro s p ⟨f, hf⟩ hp
      obtain ⟨s', h1, h2⟩ := h.insert hf hp
      refine ⟨s', h1, ⟨_, h2⟩, fun q hq => ?_⟩
      rw [h.contains h2 hq, h.contains hf hq]
      by_cases e : q = p
      · subst e; simp [upd_same]
      · rw [upd_other _ _ e]; simp [e]
    · rintro s p ⟨f, hf⟩ hp
      obtain ⟨s', h1, h2⟩ := h.remove hf hp
      refine ⟨s', h1, ⟨_, h2⟩, fun q hq => ?_⟩
      rw [h.contains h2 hq, h.contains hf hq]
      by_cases e : q = p
      · subst e; simp [upd_same]
      · rw [upd_other _ _ e]; simp [e]
  rcases hI with ⟨W, hT, hW, rfl⟩ | rfl | rfl
  · exact key _ (SetImpl.gridbool_sim hT (by have := hT.cells_eq; omega))
  · exact key _ (SetImpl.hash_sim T)
  · exact key _ (SetImpl.btree_sim T)

/-- C115. The collections of the crate are correct maps, and their `Default` has the default item at every position. -/
theorem C115_maps [Target] {Item : Type} (T : PosTy) (dflt : Item) (I : MapImpl Item)
    (hI : (∃ SIZE : Nat, T.IsGrid ∧ cols T * rows T ≤ (SIZE : Int) ∧ I = .grid T SIZE dflt) ∨ I = .hash dflt ∨ I = .btree dflt) :
    ∃ good, IsMap T I good (fun s p v => I.get s p = .ok v) ∧ good I.default ∧ ∀ q, InGrid T q → I.get I.default q = .ok dflt := by
  have key : ∀ R, I.Sim T dflt R →
      ∃ good, IsMap T I good (fun s p v => I.get s p = .ok v) ∧ good I.default ∧ ∀ q, InGrid T q → I.get I.default q = .ok dflt := by
    intro R h
    refine ⟨fun s => ∃ f, R s f, ⟨fun v => ⟨⟨_, h.new v⟩, fun q hq => h.get (h.new v) hq⟩, ?_, ?_⟩, ⟨_, h.default⟩, fun q hq => h.get h.default hq⟩
    · rintro s p ⟨f, hf⟩ hp
      refine ⟨f p, h.get hf hp, fun w => ?_⟩
      rw [h.get hf hp]
      exact ⟨fun e => by injection e with e; exact e.symm, fun e => by rw [e]⟩
    · rintro s p v ⟨f, hf⟩ hp
      obtain ⟨s', h1, h2⟩ := h.set v hf hp
      refine ⟨s', h1, ⟨_, h2⟩, by rw [h.get h2 hp, upd_same], fun q w hq e => ?_⟩
      rw [h.get h2 hq, h.get hf hq, upd_other _ _ e]
  rcases hI with ⟨S, hT, hS, rfl⟩ | rfl | rfl
  · exact key _ (MapImpl.grid_sim hT (by have := hT.cells_eq; omega) dflt)
  · exact key _ (MapImpl.hash_sim T dflt)
  · exact key _ (MapImpl.btree_sim T dflt)

/-- Collections of one's own: a list of positions, newest first, and a log of the assignments, on top of a value for all positions. -/
@[reducible] def ownSet : SetImpl where
  σ := List P2
  default := []
  contains := fun s p => .ok (decide (p ∈ s))
  insert := fun s p => .ok (p :: s)
  remove := fun s p => .ok (s.filter (· ≠ p))

@[reducible] def ownMap (d : Item) : MapImpl Item where
  σ := List (P2 × Item) × Item
  default := ([], d)
  new := fun v => ([], v)
  get := fun s p => .ok (((s.1.find? (·.1 = p)).map (·.2)).getD s.2)
  set := fun s p v => .ok ((p, v) :: s.1, s.2)

theorem ownSet_isSet (T : PosTy) : IsSet T ownSet (fun _ => True) fun s p => p ∈ (s : List P2) where
  default := ⟨trivial, fun q _ => by simp⟩
  contains := fun s p _ _ => ⟨_, rfl, by simp⟩
  insert := fun s p _ _ => ⟨_, rfl, trivial, fun q _ => by simp⟩
  remove := fun s p _ _ => ⟨_, rfl, trivial, fun q _ => by simp [and_comm]⟩

theorem ownMap_isMap (T : PosTy) (d : Item) : IsMap T (ownMap d) (fun _ => True) fun s p v => ((s.1.find? (·.1 = p)).map (·.2)).getD s.2 = v where
  new := fun v => ⟨trivial, fun q _ => by simp⟩
  get := fun s p _ _ => ⟨_, rfl, fun w => eq_comm⟩
  set := fun s p v _ _ => ⟨_, rfl, trivial, by simp, fun q w _ hq => by
    rw [show ((p, v) :: s.1).find? (fun x => decide (x.1 = q)) = s.1.find? (fun x => decide (x.1 = q)) from List.find?_cons_of_neg (by simpa using Ne.symm hq)]⟩

/-- C115. The breadth-first traversal yields the same layers with all correct sets. -/
theorem C115_traversal (T : PosTy) (S : SetImpl) (good mem) (hS : IsSet T S good mem) (D : Bool) (go : Int × Int → Dir → Option (Int × Int))
    (hgo : StaysIn T go) (orig : Int × Int) (ho : InGrid T orig) (fuel : Nat) :
    Bf.iterAll S D go orig fuel = Bf.iterHash D go orig fuel := by
  rw [Bf.iterAll_ideal hS.sim hgo D ho fuel, Bf.iterHash, Bf.iterAll_ideal (SetImpl.hash_sim T) hgo D ho fuel]

/-- C115. The breadth-first search returns the same with all correct sets and maps, if the `Default` of the map has no direction at any position. -/
theorem C115_bfs [Target] (T : PosTy) (hT : T.WF) (S : SetImpl) (goodS mem) (hS : IsSet T S goodS mem) (M : MapImpl (Option Dir)) (goodM Is)
    (hM : IsMap T M goodM Is) (hd : goodM M.default ∧ ∀ q, InGrid T q → Is M.default q none) (D : Bool) (go : Int × Int → Dir → Option (Int × Int))
    (hgo : StaysIn T go) (orig : Int × Int) (ho : InGrid T orig) (found : Int × Int → Bool) (fuel : Nat) :
    Bf.searchPath T S M D go orig found fuel = Bf.pathHash T D go orig found fuel := by
  rw [Bf.searchPath_ideal hT hS.sim (hM.sim none hd) hgo D ho found fuel, Bf.pathHash,
    Bf.searchPath_ideal hT (SetImpl.hash_sim T) (MapImpl.hash_sim T none) hgo D ho found fuel]

example : Bf.searchPath (PosTy.pos 2 2) ownSet (ownMap none) false (aroundWalls (PosTy.pos 2 2) [(1, 0), (1, 1)]) (0, 0) (fun p => decide (p = (2, 0))) 20 =
    Bf.pathHash (PosTy.pos 2 2) false (aroundWalls (PosTy.pos 2 2) [(1, 0), (1, 1)]) (0, 0) (fun p => decide (p = (2, 0))) 20 :=
  C115_bfs _ (PosTy.pos_isGrid (by omega) (by omega) (by fits_small)).wf _ _ _ (ownSet_isSet _) _ _ _ (ownMap_isMap _ none) ⟨trivial, fun _ _ => rfl⟩ _ _
    (aroundWalls_adjacent _ _).staysIn _ (by unfold InGrid; decide) _ _

/-- C115. A* returns the same with all correct maps; the `Default` of the map of costs plays no role. -/
theorem C115_astar [Target] (T : PosTy) (hT : T.WF) (M : MapImpl (Option Dir)) (goodM Is) (hM : IsMap T M goodM Is)
    (hdef : goodM M.default ∧ ∀ q, InGrid T q → Is M.default q none) (C : MapImpl Int) (goodC IsC) (hC : IsMap T C goodC IsC) (D : Bool)
    (go : Int × Int → Dir → Option (Int × Int)) (hgo : StaysIn T go) (orig dest : Int × Int) (ho : InGrid T orig) (hd : InGrid T dest) (fuel : Nat) :
    Astar.searchPath T M C D go orig dest fuel = Astar.pathHash T D go orig dest fuel := by
  rw [← Astar.searchPath_zeroed, Astar.searchPath_ideal hT hC.zeroed_sim (hM.sim none hdef) hgo D ho hd fuel, Astar.pathHash,
    Astar.searchPath_ideal hT (MapImpl.hash_sim T 0) (MapImpl.hash_sim T none) hgo D ho hd fuel]

/-- C115. The uniform-cost search returns the same with all correct maps; the `Default` of the map of costs plays no role. -/
theorem C115_ucs [Target] (T : PosTy) (hT : T.WF) (M : MapImpl (Option Dir)) (goodM Is) (hM : IsMap T M goodM Is)
    (hdef : goodM M.default ∧ ∀ q, InGrid T q → Is M.default q none) (C : MapImpl Int) (goodC IsC) (hC : IsMap T C goodC IsC) (D : Bool)
    (go : Int × Int → Dir → Option ((Int × Int) × Int)) (hgo : StaysIn T (dropCost go)) (orig dest : Int × Int) (ho : InGrid T orig) (hd : InGrid T dest)
    (fuel : Nat) :
    Ucs.searchPath T M C D go orig dest fuel = Ucs.pathHash T D go orig dest fuel := by
  rw [← Ucs.searchPath_zeroed, Ucs.searchPath_ideal hT hC.zeroed_sim (hM.sim none hdef) hgo D ho hd fuel, Ucs.pathHash,
    Ucs.searchPath_ideal hT (MapImpl.hash_sim T 0) (MapImpl.hash_sim T none) hgo D ho hd fuel]

/-- C115. `camefrom_into_path` returns the same with all correct maps that have the same directions. -/
theorem C115_camefrom [Target] (T : PosTy) (hT : T.WF) (M N : MapImpl (Option Dir)) (goodM Is goodN IsN) (hM : IsMap T M goodM Is) (hN : IsMap T N goodN IsN)
    (m : M.σ) (n : N.σ) (hm : goodM m) (hn : goodN n) (hmn : ∀ q d, InGrid T q → (Is m q d ↔ IsN n q d)) (orig dest : Int × Int) (hd : InGrid T dest) :
    camefromIntoPath T M m orig dest = camefromIntoPath T N n orig dest := by
  have key : ∀ (K : MapImpl (Option Dir)) (good Is) (_ : IsMap T K good Is) (k : K.σ) (f : P2 → Option Dir), good k → (∀ q, InGrid T q → Is k q (f q)) →
      camefromIntoPath T K k orig dest = camefromIntoPath T (MapImpl.ideal none) f orig dest := by
    intro K good Is hK k f h1 h2
    have hget : ∀ p, InGrid T p → K.get k p = .ok (f p) := by
      intro p hp
      obtain ⟨v, a1, a2⟩ := hK.get k p h1 hp
      rw [a1, (a2 _).1 (h2 p hp)]
    rw [camefromIntoPath_eq, camefromIntoPath_eq, hget dest hd, show (MapImpl.ideal none).get f dest = .ok (f dest) from rfl]
    congr 1
    funext _
    rw [Out.ok_bind, Out.ok_bind]
    cases f dest with
    | none => rfl
    | some d =>
      simp only
      congr 1
      funext j
      exact camefromLoop_congr hT K k f orig hget j dest [] hd
  obtain ⟨f, hf⟩ : ∃ f : P2 → Option Dir, ∀ q, InGrid T q → Is m q (f q) := by
    refine ⟨fun q => match M.get m q with | .ok v => v | _ => none, fun q hq => ?_⟩
    obtain ⟨v, h1, h2⟩ := hM.get m q hm hq
    simp only [h1]
    exact (h2 v).2 rfl
  rw [key M goodM Is hM m f hm hf, key N goodN IsN hN n f hn fun q hq => (hmn q _ hq).1 (hf q hq)]

example : Astar.searchPath (PosTy.pos 2 2) (ownMap none) (ownMap 7) false (aroundWalls (PosTy.pos 2 2) [(1, 0), (1, 1)]) (0, 0) (2, 0) 20 =
      .ok (.ok [.S, .S, .E, .E, .N, .N]) ∧
    Ucs.searchPath (PosTy.pos 2 1) (ownMap none) (ownMap 7) false (stepCosts (PosTy.pos 2 1) [] fun p _ => if p = (0, 0) then 9 else 1) (2, 0) (0, 1) 20 =
      .ok (.ok [.S, .W, .W]) := by decide +kernel

end Sqrid
