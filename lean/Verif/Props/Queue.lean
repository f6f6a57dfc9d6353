import Verif.Proofs.BinHeap
import Verif.Props.Ucs
/-!
# Properties of the priority queue: C114
-/

namespace Sqrid

-- Statements that do not mention a target are about a debug build for a 64-bit machine.
attribute [local instance] debug64

open Spec

/-! ## C114 -/

/-- C114. The binary heap of the standard library is a correct priority queue: `push` adds the entry and `pop` takes out the entry that comes first; there are
no unchecked accesses out of range. -/
theorem C114_binary_heap : ∃ good, IsQueue .binaryHeap good id := ⟨_, binaryHeap_isQueue⟩

example : (do
    let h ← BinHeap.push [] (7, (1, 1), .N)
    let h ← BinHeap.push h (5, (1, 2), .S)
    let h ← BinHeap.push h (5, (2, 0), .E)
    let h ← BinHeap.push h (5, (2, 0), .W)
    let (a, h) ← BinHeap.pop h
    let (b, h) ← BinHeap.pop h
    let (c, h) ← BinHeap.pop h
    let (d, h) ← BinHeap.pop h
    let (e, _) ← BinHeap.pop h
    Out.ok [a, b, c, d, e]) =
    .ok [some (5, (2, 0), .W), some (5, (2, 0), .E), some (5, (1, 2), .S), some (7, (1, 1), .N), none] := by decide +kernel

theorem Heap.maxOf_first (e : Entry) (es : List Entry) : ∀ x ∈ e :: es, ¬ Earlier x (Heap.maxOf e es) := by
  unfold Heap.maxOf
  induction es generalizing e with
  | nil =>
    intro x hx
    rw [List.mem_singleton.1 hx]
    exact fun h => Earlier.asymm h h
  | cons a es ih =>
    intro x hx
    rw [List.foldl_cons]
    have ih' := ih (if Heap.lt e a then a else e)
    have h0 := ih' _ (List.mem_cons_self ..)
    rcases List.mem_cons.1 hx with rfl | hx
    · refine Earlier.trans_not h0 ?_
      split
      · rename_i h; exact Earlier.asymm ((Heap.lt_iff _ _).1 h)
      · exact fun h => Earlier.asymm h h
    rcases List.mem_cons.1 hx with rfl | hx
    · refine Earlier.trans_not h0 ?_
      split
      · exact fun h => Earlier.asymm h h
      · rename_i h; exact fun h' => h ((Heap.lt_iff _ _).2 h')
    · exact ih' x (List.mem_cons_of_mem _ hx)

/-- The queue that the model of A* and UCS uses. -/
def PQueue.model : PQueue where
  σ := List Entry
  empty := []
  push := fun s e => .ok (Heap.push s e)
  pop := fun s => match Heap.pop s with
    | some (e, s') => .ok (some e, s')
    | none => .ok (none, s)

/-- C114. So is the list of entries that stands for it in the model of A* and of the uniform-cost search. -/
theorem C114_model_heap : IsQueue .model (fun _ => True) id where
  empty := ⟨trivial, rfl⟩
  push := fun s e _ => ⟨e :: s, rfl, trivial, List.Perm.refl _⟩
  pop := fun s _ => by
    cases s with
    | nil => exact .inl ⟨rfl, [], rfl, trivial, rfl⟩
    | cons a l => exact .inr ⟨_, _, rfl, trivial, List.perm_cons_erase (Heap.maxOf_mem a l), Heap.maxOf_first a l⟩

section

variable {Q : PQueue} {good : Q.σ → Prop} {contents : Q.σ → List Entry}

/-- A queue and a list have the same entries. -/
def PQueue.Same (good : Q.σ → Prop) (contents : Q.σ → List Entry) (s : Q.σ) (l : List Entry) : Prop := good s ∧ (contents s).Perm l

theorem PQueue.same_push (hQ : IsQueue Q good contents) {s : Q.σ} {l : List Entry} (h : PQueue.Same good contents s l) (e : Entry) :
    ∃ s', Q.push s e = .ok s' ∧ PQueue.Same good contents s' (Heap.push l e) := by
  obtain ⟨s', h1, h2, h3⟩ := hQ.push s e h.1
  exact ⟨s', h1, h2, h3.trans (h.2.cons _)⟩

theorem PQueue.same_pop (hQ : IsQueue Q good contents) {s : Q.σ} {l : List Entry} (h : PQueue.Same good contents s l) :
    (∃ s', Q.pop s = .ok (none, s') ∧ Heap.pop l = none ∧ PQueue.Same good contents s' l) ∨
    ∃ e s' l', Q.pop s = .ok (some e, s') ∧ Heap.pop l = some (e, l') ∧ PQueue.Same good contents s' l' := by
  rcases hQ.pop s h.1 with ⟨h1, s', h2, h3, h4⟩ | ⟨e, s', h1, h2, h3, h4⟩
  · have hl : l = [] := by have := h.2; rw [h1] at this; exact this.nil_eq.symm
    subst hl
    exact .inl ⟨s', h2, rfl, h3, by rw [h4]⟩
  · cases l with
    | nil => exact absurd (h3.symm.trans h.2) (List.cons_ne_nil _ _ ∘ List.Perm.eq_nil)
    | cons a l =>
      have he : e ∈ a :: l := (h3.symm.trans h.2).mem_iff.1 (List.mem_cons_self ..)
      have hm : Heap.maxOf a l ∈ contents s := h.2.mem_iff.2 (Heap.maxOf_mem a l)
      have heq : Heap.maxOf a l = e := Earlier.total (h4 _ hm) (Heap.maxOf_first a l e he)
      refine .inr ⟨e, s', (a :: l).erase e, h1, by rw [Heap.pop, heq], h2, ?_⟩
      exact (List.perm_cons e).1 ((h3.symm.trans h.2).trans (List.perm_cons_erase he))

variable {C : MapImpl Int}

/-! ### A* -/

def AstarIterQ.Rel (good : Q.σ → Prop) (contents : Q.σ → List Entry) (s : AstarIterQ Q C) (t : AstarIter C) : Prop :=
  s.cost = t.cost ∧ PQueue.Same good contents s.frontier t.frontier

theorem AstarIterQ.rel_relax [Target] (hQ : IsQueue Q good contents) (T : PosTy) (go : GoFn) (dest p : P2) (d : Dir) {s : AstarIterQ Q C} {t : AstarIter C}
    (h : AstarIterQ.Rel good contents s t) :
    Out.Rel (AstarIterQ.Rel good contents) (relax Q T C go dest p s d) (AstarIter.relax T C go dest p t d) := by
  unfold relax AstarIter.relax
  rw [h.1]
  refine Out.Rel.bind_same _ fun c => ?_
  refine Out.Rel.bind_same _ fun nc => ?_
  cases go p d with
  | none => exact h
  | some q =>
    simp only
    refine Out.Rel.bind_same _ fun old => ?_
    by_cases hlt : nc < old
    · rw [if_pos hlt, if_pos hlt]
      refine Out.Rel.bind_same _ fun cost => ?_
      refine Out.Rel.bind_same _ fun hh => ?_
      refine Out.Rel.bind_same _ fun pr => ?_
      refine Out.Rel.bind_same _ fun neg => ?_
      obtain ⟨s', h1, h2⟩ := PQueue.same_push hQ h.2 (pr, q, neg)
      rw [h1, Out.ok_bind]
      exact ⟨rfl, h2⟩
    · rw [if_neg hlt, if_neg hlt]
      exact h

theorem AstarIterQ.rel_next [Target] (hQ : IsQueue Q good contents) (T : PosTy) (D : Bool) (go : GoFn) (dest : P2) {s : AstarIterQ Q C} {t : AstarIter C}
    (h : AstarIterQ.Rel good contents s t) :
    Out.Rel (fun a b => a.1 = b.1 ∧ AstarIterQ.Rel good contents a.2 b.2) (next Q T C D go dest s) (AstarIter.next T C D go dest t) := by
  unfold next AstarIter.next
  rcases PQueue.same_pop hQ h.2 with ⟨s', h1, h2, h3⟩ | ⟨e, s', l', h1, h2, h3⟩
  · rw [h1, h2, Out.ok_bind]
    exact ⟨rfl, h.1, h3⟩
  · rw [h1, h2, Out.ok_bind]
    simp only
    refine Out.Rel.bind_same _ fun dirs => ?_
    refine (Out.Rel.foldlM dirs (fun s t d _ h => AstarIterQ.rel_relax hQ T go dest e.2.1 d h) _ _ ?_).bind fun a b hab => ?_
    · exact ⟨h.1, h3⟩
    · exact ⟨rfl, hab⟩

theorem AstarIterQ.rel_new [Target] (hQ : IsQueue Q good contents) (orig : P2) :
    Out.Rel (AstarIterQ.Rel good contents) (AstarIterQ.new Q C orig) (AstarIter.new C orig) := by
  unfold AstarIterQ.new AstarIter.new
  obtain ⟨s', h1, h2⟩ := PQueue.same_push hQ (s := Q.empty) (l := []) ⟨hQ.empty.1, by rw [hQ.empty.2]⟩ (0, orig, Dir.N)
  rw [h1, Out.ok_bind]
  exact Out.Rel.bind_same _ fun cost => ⟨rfl, h2⟩

theorem Astar.rel_searchLoopQ [Target] (hQ : IsQueue Q good contents) (T : PosTy) (M : MapImpl (Option Dir)) (D : Bool) (go : GoFn) (dest : P2) (fuel : Nat) :
    ∀ {s : AstarIterQ Q C} {t : AstarIter C} {m}, AstarIterQ.Rel good contents s t →
    Astar.searchLoopQ Q T M C D go dest fuel s m = Astar.searchLoop T M C D go dest fuel t m := by
  induction fuel with
  | zero => intro s t m _; rfl
  | succ n ih =>
    intro s t m h
    unfold Astar.searchLoopQ Astar.searchLoop
    apply Out.Rel.eq
    refine (AstarIterQ.rel_next hQ T D go dest h).bind fun x y hxy => ?_
    obtain ⟨v, s'⟩ := x
    obtain ⟨v', t'⟩ := y
    obtain ⟨h1, h3⟩ := hxy
    simp only at h1 h3
    subst h1
    cases v with
    | none => rfl
    | some m =>
      obtain ⟨p, d⟩ := m
      simp only
      refine Out.Rel.bind_same _ fun m => ?_
      by_cases hd : p = dest
      · rw [if_pos hd, if_pos hd]; rfl
      · rw [if_neg hd, if_neg hd, ih h3]; exact Out.Rel.refl (fun _ => rfl) _

/-! ### Uniform-cost search -/

def UcsIterQ.Rel (good : Q.σ → Prop) (contents : Q.σ → List Entry) (s : UcsIterQ Q C) (t : UcsIter C) : Prop :=
  s.cost = t.cost ∧ PQueue.Same good contents s.frontier t.frontier

theorem UcsIterQ.rel_relax [Target] (hQ : IsQueue Q good contents) (go : WGo) (p : P2) (d : Dir) {s : UcsIterQ Q C} {t : UcsIter C}
    (h : UcsIterQ.Rel good contents s t) :
    Out.Rel (UcsIterQ.Rel good contents) (relax Q C go p s d) (UcsIter.relax C go p t d) := by
  unfold relax UcsIter.relax
  cases go p d with
  | none => exact h
  | some qw =>
    obtain ⟨q, w⟩ := qw
    simp only
    rw [h.1]
    refine Out.Rel.bind_same _ fun c => ?_
    refine Out.Rel.bind_same _ fun nc => ?_
    refine Out.Rel.bind_same _ fun old => ?_
    by_cases hlt : nc < old
    · rw [if_pos hlt, if_pos hlt]
      refine Out.Rel.bind_same _ fun cost => ?_
      refine Out.Rel.bind_same _ fun neg => ?_
      obtain ⟨s', h1, h2⟩ := PQueue.same_push hQ h.2 (nc, q, neg)
      rw [h1, Out.ok_bind]
      exact ⟨rfl, h2⟩
    · rw [if_neg hlt, if_neg hlt]
      exact h

theorem UcsIterQ.rel_next [Target] (hQ : IsQueue Q good contents) (D : Bool) (go : WGo) {s : UcsIterQ Q C} {t : UcsIter C}
    (h : UcsIterQ.Rel good contents s t) :
    Out.Rel (fun a b => a.1 = b.1 ∧ UcsIterQ.Rel good contents a.2 b.2) (next Q C D go s) (UcsIter.next C D go t) := by
  unfold next UcsIter.next
  rcases PQueue.same_pop hQ h.2 with ⟨s', h1, h2, h3⟩ | ⟨e, s', l', h1, h2, h3⟩
  · rw [h1, h2, Out.ok_bind]
    exact ⟨rfl, h.1, h3⟩
  · rw [h1, h2, Out.ok_bind]
    simp only
    refine Out.Rel.bind_same _ fun dirs => ?_
    refine (Out.Rel.foldlM dirs (fun s t d _ h => UcsIterQ.rel_relax hQ go e.2.1 d h) _ _ ?_).bind fun a b hab => ?_
    · exact ⟨h.1, h3⟩
    · exact ⟨rfl, hab⟩

theorem UcsIterQ.rel_new [Target] (hQ : IsQueue Q good contents) (orig : P2) :
    Out.Rel (UcsIterQ.Rel good contents) (UcsIterQ.new Q C orig) (UcsIter.new C orig) := by
  unfold UcsIterQ.new UcsIter.new
  obtain ⟨s', h1, h2⟩ := PQueue.same_push hQ (s := Q.empty) (l := []) ⟨hQ.empty.1, by rw [hQ.empty.2]⟩ (0, orig, Dir.N)
  rw [h1, Out.ok_bind]
  exact Out.Rel.bind_same _ fun cost => ⟨rfl, h2⟩

theorem Ucs.rel_searchLoopQ [Target] (hQ : IsQueue Q good contents) (M : MapImpl (Option Dir)) (D : Bool) (go : WGo) (dest : P2) (fuel : Nat) :
    ∀ {s : UcsIterQ Q C} {t : UcsIter C} {m}, UcsIterQ.Rel good contents s t →
    Ucs.searchLoopQ Q M C D go dest fuel s m = Ucs.searchLoop M C D go dest fuel t m := by
  induction fuel with
  | zero => intro s t m _; rfl
  | succ n ih =>
    intro s t m h
    unfold Ucs.searchLoopQ Ucs.searchLoop
    apply Out.Rel.eq
    refine (UcsIterQ.rel_next hQ D go h).bind fun x y hxy => ?_
    obtain ⟨v, s'⟩ := x
    obtain ⟨v', t'⟩ := y
    obtain ⟨h1, h3⟩ := hxy
    simp only at h1 h3
    subst h1
    cases v with
    | none => rfl
    | some m =>
      obtain ⟨p, d⟩ := m
      simp only
      refine Out.Rel.bind_same _ fun m => ?_
      by_cases hd : p = dest
      · rw [if_pos hd, if_pos hd]; rfl
      · rw [if_neg hd, if_neg hd, ih h3]; exact Out.Rel.refl (fun _ => rfl) _

end

/-- C114. With every correct priority queue, the iterators of A* and of the uniform-cost search give the same items, in the same order, for all movement
functions and all cost maps. -/
theorem C114_iterators [Target] (Q : PQueue) (good : Q.σ → Prop) (contents : Q.σ → List Entry) (hQ : IsQueue Q good contents) (T : PosTy)
    (C : MapImpl Int) (D : Bool) (go : Int × Int → Dir → Option (Int × Int)) (cgo : Int × Int → Dir → Option ((Int × Int) × Int)) (orig dest : Int × Int)
    (fuel : Nat) :
    (do let it ← AstarIterQ.new Q C orig; collectWith (AstarIterQ.next Q T C D go dest) fuel it) =
      (do let it ← AstarIter.new C orig; collectWith (AstarIter.next T C D go dest) fuel it) ∧
    (do let it ← UcsIterQ.new Q C orig; collectWith (UcsIterQ.next Q C D cgo) fuel it) =
      (do let it ← UcsIter.new C orig; collectWith (UcsIter.next C D cgo) fuel it) :=
  ⟨((AstarIterQ.rel_new hQ orig).bind fun _ _ hab => collectWith_rel (fun _ _ h => AstarIterQ.rel_next hQ T D go dest h) fuel _ _ hab ▸ Out.Rel.refl (R := Eq) (fun _ => rfl) _).eq,
   ((UcsIterQ.rel_new hQ orig).bind fun _ _ hab => collectWith_rel (fun _ _ h => UcsIterQ.rel_next hQ D cgo h) fuel _ _ hab ▸ Out.Rel.refl (R := Eq) (fun _ => rfl) _).eq⟩

example : (do
      let it ← AstarIterQ.new .binaryHeap (.hash 0) (0, 0)
      collectWith (AstarIterQ.next .binaryHeap (PosTy.pos 1 1) (.hash 0) false (aroundWalls (PosTy.pos 1 1) []) (1, 1)) 9 it) =
    .ok [((0, 0), .N), ((1, 0), .W), ((1, 1), .N), ((0, 1), .N)] := by decide +kernel

/-- C114. With every correct priority queue, A* gives the same result, for all movement functions and all collections: nothing depends on how the
queue arranges its entries. -/
theorem C114_astar [Target] (Q : PQueue) (good : Q.σ → Prop) (contents : Q.σ → List Entry) (hQ : IsQueue Q good contents) (T : PosTy)
    (M : MapImpl (Option Dir)) (C : MapImpl Int) (D : Bool) (go : Int × Int → Dir → Option (Int × Int)) (orig dest : Int × Int) (fuel : Nat) :
    Astar.searchPathQ Q T M C D go orig dest fuel = Astar.searchPath T M C D go orig dest fuel := by
  unfold Astar.searchPathQ Astar.searchPath Astar.searchMapmovQ Astar.searchMapmov
  have h : (AstarIterQ.new Q C orig >>= fun it => Astar.searchLoopQ Q T M C D go dest fuel it M.default) =
      AstarIter.new C orig >>= fun it => Astar.searchLoop T M C D go dest fuel it M.default := by
    apply Out.Rel.eq
    refine (AstarIterQ.rel_new hQ orig).bind fun a b hab => ?_
    rw [Astar.rel_searchLoopQ hQ T M D go dest fuel hab]
    exact Out.Rel.refl (fun _ => rfl) _
  rw [h]
  rfl

/-- C114. With every correct priority queue, the uniform-cost search gives the same result, for all movement functions and all collections. -/
theorem C114_ucs [Target] (Q : PQueue) (good : Q.σ → Prop) (contents : Q.σ → List Entry) (hQ : IsQueue Q good contents) (T : PosTy)
    (M : MapImpl (Option Dir)) (C : MapImpl Int) (D : Bool) (go : Int × Int → Dir → Option ((Int × Int) × Int)) (orig dest : Int × Int) (fuel : Nat) :
    Ucs.searchPathQ Q T M C D go orig dest fuel = Ucs.searchPath T M C D go orig dest fuel := by
  unfold Ucs.searchPathQ Ucs.searchPath Ucs.searchMapmovQ Ucs.searchMapmov
  have h : (UcsIterQ.new Q C orig >>= fun it => Ucs.searchLoopQ Q M C D go dest fuel it M.default) =
      UcsIter.new C orig >>= fun it => Ucs.searchLoop M C D go dest fuel it M.default := by
    apply Out.Rel.eq
    refine (UcsIterQ.rel_new hQ orig).bind fun a b hab => ?_
    rw [Ucs.rel_searchLoopQ hQ M D go dest fuel hab]
    exact Out.Rel.refl (fun _ => rfl) _
  rw [h]
  rfl

example : Astar.searchPathQ .binaryHeap (PosTy.pos 2 2) (.hash none) (.hash 0) false (aroundWalls (PosTy.pos 2 2) [(1, 0), (1, 1)]) (0, 0) (2, 0) 20 =
      .ok (.ok [.S, .S, .E, .E, .N, .N]) ∧
    Ucs.searchPathQ .binaryHeap (PosTy.pos 2 1) (.btree none) (.btree 0) false (stepCosts (PosTy.pos 2 1) [] fun p _ => if p = (0, 0) then 9 else 1) (2, 0) (0, 1) 20 =
      .ok (.ok [.S, .W, .W]) := by decide +kernel

end Sqrid
