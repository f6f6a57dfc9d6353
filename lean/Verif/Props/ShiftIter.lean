import Verif.Props.Shift
/-!
# C118: the iterators of A* and of uniform-cost search
-/

namespace Sqrid

open Spec

attribute [local instance] debug64

/-- The items of an iterator. -/
def items {σ α : Type} (r : Out (List α × σ)) : Out (List α) := r >>= fun x => .ok x.1

theorem items_of_rel {σ τ α β : Type} {f : α → β} {Q : σ → τ → Prop} {a : Out (List α × σ)} {b : Out (List β × τ)}
    (h : Out.Rel (fun a b => b.1 = a.1.map f ∧ Q a.2 b.2) a b) : items b = (items a >>= fun l => .ok (l.map f)) := by
  cases a <;> cases b <;> first | exact h.elim | skip
  · exact congrArg Out.ok h.1
  all_goals rfl

theorem items_of_eq {σ τ α : Type} {Q : σ → τ → Prop} {a : Out (List α × σ)} {b : Out (List α × τ)}
    (h : Out.Rel (fun a b => a.1 = b.1 ∧ Q a.2 b.2) a b) : items a = items b := by
  cases a <;> cases b <;> first | exact h.elim | skip
  · exact congrArg Out.ok h.1
  all_goals rfl

theorem yields_map_rel {σ τ α β : Type} {Q : σ → τ → Prop} {k : α → β} {f : σ → Out (Option α × σ)} {g : τ → Out (Option β × τ)}
    (h : ∀ s t, Q s t → Out.Rel (fun a b => b.1 = a.1.map k ∧ Q a.2 b.2) (f s) (g t)) (n : Nat) : ∀ s t, Q s t →
    Out.Rel (fun a b => b.1 = a.1.map k ∧ Q a.2 b.2) (yields f n s) (yields g n t) := by
  induction n with
  | zero => intro s t hQ; exact ⟨rfl, hQ⟩
  | succ n ih =>
    intro s t hQ
    unfold yields
    refine (h s t hQ).bind fun a b hab => ?_
    obtain ⟨v, s'⟩ := a
    obtain ⟨v', t'⟩ := b
    obtain ⟨h1, h2⟩ := hab
    simp only at h1 h2
    subst h1
    cases v with
    | none => exact ⟨rfl, h2⟩
    | some a =>
      refine (ih s' t' h2).bind fun x y hxy => ?_
      obtain ⟨l, s''⟩ := x
      obtain ⟨l', t''⟩ := y
      obtain ⟨h3, h4⟩ := hxy
      simp only at h3 h4
      subst h3
      exact ⟨rfl, h4⟩

theorem UcsIter.items_eq [Target] {T : PosTy} (hT : T.IsGrid) {C : MapImpl Int} (hC : C.Is T 0) (D : Bool)
    {go : Int × Int → Dir → Option ((Int × Int) × Int)} (hgo : StaysIn T (dropCost go)) {orig : Int × Int} (ho : InGrid T orig) (n : Nat) :
    items (do let it ← UcsIter.new C orig; yields (UcsIter.next C D go) n it) =
      items (do let it ← UcsIter.new (MapImpl.ideal 0) orig; yields (UcsIter.next (MapImpl.ideal 0) D go) n it) := by
  obtain ⟨R, hR⟩ := MapImpl.sim_of_is hT hC
  refine items_of_eq (Q := UcsIter.Rel T R) ((UcsIter.rel_new hR ho).bind fun a b hab => ?_)
  exact yields_rel (Q := UcsIter.Rel T R) (fun s t h => (UcsIter.rel_next hR hgo D h).mono fun a b h => ⟨h.1.1, h.2⟩) n a b hab

theorem AstarIter.items_eq [Target] {T : PosTy} (hT : T.IsGrid) {C : MapImpl Int} (hC : C.Is T 0) (D : Bool)
    {go : Int × Int → Dir → Option (Int × Int)} (hgo : StaysIn T go) {orig : Int × Int} (ho : InGrid T orig) (dest : Int × Int) (n : Nat) :
    items (do let it ← AstarIter.new C orig; yields (AstarIter.next T C D go dest) n it) =
      items (do let it ← AstarIter.new (MapImpl.ideal 0) orig; yields (AstarIter.next T (MapImpl.ideal 0) D go dest) n it) := by
  obtain ⟨R, hR⟩ := MapImpl.sim_of_is hT hC
  refine items_of_eq (Q := AstarIter.Rel T R) ((AstarIter.rel_new hR ho).bind fun a b hab => ?_)
  exact yields_rel (Q := AstarIter.Rel T R) (fun s t h => (AstarIter.rel_next hR hgo D dest h).mono fun a b h => ⟨h.1.1, h.2⟩) n a b hab

theorem injective_of_order {rename : Int × Int → Int × Int} (h : ∀ p q, BeforePos (rename p) (rename q) ↔ BeforePos p q) : Function.Injective rename := by
  intro p q hpq
  have h1 := h p q
  have h2 := h q p
  rw [hpq] at h1 h2
  unfold BeforePos at h1 h2
  apply Prod.ext <;> omega

theorem lt_of_order {rename : Int × Int → Int × Int} (h : ∀ p q, BeforePos (rename p) (rename q) ↔ BeforePos p q) (p q : Int × Int) :
    PosTy.lt (rename p) (rename q) = PosTy.lt p q := by
  have h1 := h p q
  unfold BeforePos at h1
  rw [Bool.eq_iff_iff]
  simpa [PosTy.lt] using h1

/-- C118, `UcsIterator`. The items are those of the same problem with other names of the positions, in any other grid, if the new names are in the same order
as the old ones; also if the sums of the costs do not fit. -/
theorem C118_ucs_iter [Target] (T T' : PosTy) (hT : T.IsGrid) (hT' : T'.IsGrid) (C C' : MapImpl Int) (hC : C.Is T 0) (hC' : C'.Is T' 0) (D : Bool)
    (go go' : Int × Int → Dir → Option ((Int × Int) × Int)) (hgo : StaysIn T (dropCost go)) (hgo' : StaysIn T' (dropCost go'))
    (rename : Int × Int → Int × Int) (horder : ∀ p q, BeforePos (rename p) (rename q) ↔ BeforePos p q)
    (hrename : ∀ p d, go' (rename p) d = (go p d).map fun x => (rename x.1, x.2)) (orig : Int × Int) (ho : InGrid T orig)
    (ho' : InGrid T' (rename orig)) (n : Nat) :
    items (do let it ← UcsIter.new C' (rename orig); yields (UcsIter.next C' D go') n it) = (do
      let l ← items (do let it ← UcsIter.new C orig; yields (UcsIter.next C D go) n it)
      .ok (l.map fun m => (rename m.1, m.2))) := by
  rw [UcsIter.items_eq hT' hC' D hgo' ho', UcsIter.items_eq hT hC D hgo ho]
  refine items_of_rel (Q := UcsIter.Renamed rename) ?_
  refine Out.Rel.bind (R := UcsIter.Renamed rename) ?_ fun s t h =>
    yields_map_rel (fun s t h => UcsIter.renamed_next (injective_of_order horder) (lt_of_order horder) hrename D h) n s t h
  exact ⟨upd_rename (injective_of_order horder) (fun _ => rfl) orig 0, rfl⟩

-- two positions far from each other take the place of neighbours
example : ∀ p q : Int × Int, BeforePos (10 * p.1, 3 * p.2 - p.1) (10 * q.1, 3 * q.2 - q.1) ↔ BeforePos p q := by
  rintro ⟨a, b⟩ ⟨c, d⟩; simp only [BeforePos]; omega

/-- States of the iterator of A* that differ by the place. -/
def AstarIter.Moved (T T' : PosTy) (v : P2) (s t : AstarIter (MapImpl.ideal 0)) : Prop :=
  (∀ p, t.cost (shift v p) = s.cost p) ∧ t.frontier = s.frontier.map (renameEntry (shift v)) ∧
    ∀ e ∈ s.frontier, InGrid T e.2.1 ∧ InGrid T' (shift v e.2.1)

section
variable [Target] {T T' : PosTy} {go go' : GoFn} {v dest : P2} (hT : T.IsGrid) (hT' : T'.IsGrid) (hgo : StaysIn T go) (hgo' : StaysIn T' go')
  (hv : ∀ p d, go' (shift v p) d = (go p d).map (shift v)) (hd : InGrid T dest) (hd' : InGrid T' (shift v dest))
include hT hT' hgo hgo' hv hd hd'

theorem AstarIter.moved_relax {p : P2} (hp : InGrid T p) (hp' : InGrid T' (shift v p)) (d : Dir) {s t} (H : AstarIter.Moved T T' v s t) :
    Out.Rel (AstarIter.Moved T T' v) (AstarIter.relax T (MapImpl.ideal 0) go dest p s d)
      (AstarIter.relax T' (MapImpl.ideal 0) go' (shift v dest) (shift v p) t d) := by
  unfold AstarIter.relax
  simp only [MapImpl.ideal, Out.ok_bind]
  rw [hv, H.1]
  refine Out.Rel.bind_same _ fun c => ?_
  cases hg : go p d with
  | none => exact H
  | some q =>
    have hq : InGrid T q := hgo p d q hp hg
    have hq' : InGrid T' (shift v q) := hgo' _ d _ hp' (by rw [hv, hg]; rfl)
    simp only [Option.map_some]
    rw [H.1]
    split
    · rw [C15_manhattan_partial T hT q dest hq hd, C15_manhattan_partial T' hT' _ _ hq' hd', l1_shift]
      simp only [Out.ok_bind]
      refine Out.Rel.bind_same _ fun k => Out.Rel.bind_same _ fun neg => ?_
      refine ⟨upd_rename (shift_injective v) H.1 q _, by simp only [H.2.1, Heap.push, List.map_cons, renameEntry], fun e he => ?_⟩
      rcases List.mem_cons.1 he with rfl | he
      · exact ⟨hq, hq'⟩
      · exact H.2.2 e he
    · exact H

theorem AstarIter.moved_next (D : Bool) {s t} (H : AstarIter.Moved T T' v s t) :
    Out.Rel (fun a b => b.1 = a.1.map (fun m => (shift v m.1, m.2)) ∧ AstarIter.Moved T T' v a.2 b.2) (AstarIter.next T (MapImpl.ideal 0) D go dest s)
      (AstarIter.next T' (MapImpl.ideal 0) D go' (shift v dest) t) := by
  unfold AstarIter.next
  rw [H.2.1, Heap.pop_rename (shift_injective v) (shift_lt v)]
  cases hp : Heap.pop s.frontier with
  | none => exact ⟨rfl, H⟩
  | some er =>
    obtain ⟨⟨k, p, d⟩, rest⟩ := er
    obtain ⟨h1, h2⟩ := Heap.pop_some hp
    obtain ⟨i1, i2⟩ := H.2.2 _ h1
    simp only [Option.map_some, renameEntry]
    refine Out.Rel.bind_same _ fun dirs => ?_
    refine (Out.Rel.foldlM dirs (fun s t d _ h => AstarIter.moved_relax hT hT' hgo hgo' hv hd hd' i1 i2 d h) { s with frontier := rest }
      { t with frontier := rest.map (renameEntry (shift v)) } ⟨H.1, rfl, fun e he => ?_⟩).bind fun s t h => ?_
    · exact H.2.2 e (h2.2.mem_iff.2 (List.mem_cons_of_mem _ he))
    exact ⟨rfl, h⟩

end

/-- C118, `AstarIterator`. -/
theorem C118_astar_iter [Target] (T T' : PosTy) (hT : T.IsGrid) (hT' : T'.IsGrid) (C C' : MapImpl Int) (hC : C.Is T 0) (hC' : C'.Is T' 0) (D : Bool)
    (go go' : Int × Int → Dir → Option (Int × Int)) (hgo : StaysIn T go) (hgo' : StaysIn T' go') (v : Int × Int)
    (hv : ∀ p d, go' (shift v p) d = (go p d).map (shift v)) (orig dest : Int × Int) (ho : InGrid T orig) (hd : InGrid T dest)
    (ho' : InGrid T' (shift v orig)) (hd' : InGrid T' (shift v dest)) (n : Nat) :
    items (do let it ← AstarIter.new C' (shift v orig); yields (AstarIter.next T' C' D go' (shift v dest)) n it) = (do
      let l ← items (do let it ← AstarIter.new C orig; yields (AstarIter.next T C D go dest) n it)
      .ok (l.map fun m => (shift v m.1, m.2))) := by
  rw [AstarIter.items_eq hT' hC' D hgo' ho', AstarIter.items_eq hT hC D hgo ho]
  refine items_of_rel (Q := AstarIter.Moved T T' v) ?_
  refine Out.Rel.bind (R := AstarIter.Moved T T' v) ?_ fun s t h =>
    yields_map_rel (fun s t h => AstarIter.moved_next hT hT' hgo hgo' hv hd hd' D h) n s t h
  exact ⟨upd_rename (shift_injective v) (fun _ => rfl) orig 0, rfl, fun e he => by rw [List.mem_singleton.1 he]; exact ⟨ho, ho'⟩⟩

example : items (do let it ← AstarIter.new (.hash 0) (0, 0); yields (AstarIter.next (PosTy.pos 2 1) (.hash 0) false (aroundWalls (PosTy.pos 2 1) [(1, 0)]) (2, 0)) 9 it) =
      .ok [((0, 0), .N), ((0, 1), .N), ((1, 1), .W), ((2, 1), .W), ((2, 0), .S)] ∧
    items (do let it ← AstarIter.new (.hash 0) (7, 8); yields (AstarIter.next (PosTy.pos 9 9) (.hash 0) false
        (shiftGo (7, 8) (aroundWalls (PosTy.pos 2 1) [(1, 0)])) (9, 8)) 9 it) =
      .ok [((7, 8), .N), ((7, 9), .N), ((8, 9), .W), ((9, 9), .W), ((9, 8), .S)] := by decide +kernel

end Sqrid
