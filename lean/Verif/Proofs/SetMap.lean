import Verif.Spec.Target
import Verif.Model.SetMap
import Verif.Proofs.Grid
import Verif.Proofs.Gridbool
import Verif.Proofs.Store
import Verif.Props.Grid
/-! The set and map implementations behave like functions on the positions. -/

namespace Sqrid

open Spec

/-! ### Relational lifting -/

/-- Same outcome, with related values. -/
def Out.Rel (R : α → β → Prop) : Out α → Out β → Prop
  | .ok a, .ok b => R a b
  | .panic, .panic => True
  | .ub, .ub => True
  | .timeout, .timeout => True
  | _, _ => False

theorem Out.Rel.bind {R : α → β → Prop} {Q : γ → δ → Prop} {x : Out α} {y : Out β} {f : α → Out γ} {g : β → Out δ}
    (h : Out.Rel R x y) (hf : ∀ a b, R a b → Out.Rel Q (f a) (g b)) : Out.Rel Q (x >>= f) (y >>= g) := by
  cases x <;> cases y <;> first | exact hf _ _ h | exact h.elim | trivial

theorem Out.Rel.refl {R : α → α → Prop} (hR : ∀ a, R a a) (x : Out α) : Out.Rel R x x := by
  cases x <;> first | exact hR _ | trivial

theorem Out.Rel.bind_same {Q : γ → δ → Prop} (x : Out α) {f : α → Out γ} {g : α → Out δ}
    (hf : ∀ a, Out.Rel Q (f a) (g a)) : Out.Rel Q (x >>= f) (x >>= g) :=
  (Out.Rel.refl (R := Eq) (fun _ => rfl) x).bind (fun a _ h => h ▸ hf a)

theorem Out.Rel.eq {x y : Out α} (h : Out.Rel Eq x y) : x = y := by
  cases x <;> cases y <;> first | exact congrArg Out.ok h | exact h.elim | rfl

theorem Out.Rel.mono {R Q : α → β → Prop} {x : Out α} {y : Out β} (h : Out.Rel R x y) (hRQ : ∀ a b, R a b → Q a b) :
    Out.Rel Q x y := by
  cases x <;> cases y <;> first | exact hRQ _ _ h | exact h.elim | trivial

theorem Out.Rel.foldlM {R : σ → τ → Prop} {f : σ → α → Out σ} {g : τ → α → Out τ} (l : List α)
    (h : ∀ s t a, a ∈ l → R s t → Out.Rel R (f s a) (g t a)) : ∀ s t, R s t → Out.Rel R (l.foldlM f s) (l.foldlM g t) := by
  induction l with
  | nil => intro s t hR; exact hR
  | cons a l ih =>
    intro s t hR
    rw [List.foldlM_cons, List.foldlM_cons]
    exact (h s t a (by simp) hR).bind (ih (fun s t a ha => h s t a (by simp [ha])))

/-! ### Sets -/

/-- The implementation simulates a function from the positions of `T` to booleans. -/
structure SetImpl.Sim (T : PosTy) (I : SetImpl) (R : I.σ → (P2 → Bool) → Prop) : Prop where
  default : R I.default fun _ => false
  contains : ∀ {s f p}, R s f → T.Valid p → I.contains s p = .ok (f p)
  insert : ∀ {s f p}, R s f → T.Valid p → ∃ s', I.insert s p = .ok s' ∧ R s' (upd f p true)
  remove : ∀ {s f p}, R s f → T.Valid p → ∃ s', I.remove s p = .ok s' ∧ R s' (upd f p false)

/-- The implementation simulates a function from the positions of `T` to the items. -/
structure MapImpl.Sim {Item : Type} (T : PosTy) (dflt : Item) (I : MapImpl Item) (R : I.σ → (P2 → Item) → Prop) : Prop where
  default : R I.default fun _ => dflt
  new : ∀ v, R (I.new v) fun _ => v
  get : ∀ {s f p}, R s f → T.Valid p → I.get s p = .ok (f p)
  set : ∀ {s f p} (v), R s f → T.Valid p → ∃ s', I.set s p v = .ok s' ∧ R s' (upd f p v)

/-- Functions as sets. -/
@[reducible] def SetImpl.ideal : SetImpl where
  σ := P2 → Bool
  default := fun _ => false
  contains := fun s p => .ok (s p)
  insert := fun s p => .ok (upd s p true)
  remove := fun s p => .ok (upd s p false)

/-- Functions as maps. -/
@[reducible] def MapImpl.ideal (dflt : Item) : MapImpl Item where
  σ := P2 → Item
  default := fun _ => dflt
  new := fun v _ => v
  get := fun s p => .ok (s p)
  set := fun s p v => .ok (upd s p v)

theorem SetImpl.ideal_sim (T : PosTy) : SetImpl.ideal.Sim T (fun s f => s = f) where
  default := rfl
  contains := by rintro s f p rfl _; rfl
  insert := by rintro s f p rfl _; exact ⟨_, rfl, rfl⟩
  remove := by rintro s f p rfl _; exact ⟨_, rfl, rfl⟩

theorem MapImpl.ideal_sim (T : PosTy) (dflt : Item) : (MapImpl.ideal dflt).Sim T dflt (fun s f => s = f) where
  default := rfl
  new := fun _ => rfl
  get := by rintro s f p rfl _; rfl
  set := by rintro s f p v rfl _; exact ⟨_, rfl, rfl⟩

theorem SetImpl.gridbool_sim [Target] {T : PosTy} (hT : T.IsGrid) {WORDS : Nat} (hW : T.nx * T.ny ≤ 32 * WORDS) :
    (SetImpl.gridbool T WORDS).Sim T (fun gb f => Gridbool.Rep T WORDS gb f (fun _ => false)) where
  default := Gridbool.rep_repeat hT hW false
  contains := fun h hp => h.get hT hW hp
  insert := fun h hp => h.set hT hW hp true
  remove := fun h hp => h.set hT hW hp false

theorem upd_bool_mem {s : List P2} {f : P2 → Bool} (h : ∀ q, f q = decide (q ∈ s)) (p : P2) (s' : List P2) (b : Bool)
    (h' : ∀ q, q ∈ s' ↔ (if q = p then b = true else q ∈ s)) : ∀ q, upd f p b q = decide (q ∈ s') := by
  intro q
  have h'' := h' q
  by_cases e : q = p
  · rw [if_pos e] at h''
    subst e
    rw [upd_same]
    cases b <;> simp [h'']
  · rw [if_neg e] at h''
    rw [upd_other _ _ e, h q]
    simp [h'']

/-- The list has the elements of the set. -/
def MemRep (s : List P2) (f : P2 → Bool) : Prop := ∀ q, f q = decide (q ∈ s)

theorem memRep_nil : MemRep [] fun _ => false := by intro q; simp

theorem MemRep.hashInsert {s : List P2} {f : P2 → Bool} (h : MemRep s f) (p : P2) :
    MemRep (SetImpl.hashInsert s p) (upd f p true) := by
  refine upd_bool_mem h p _ true ?_
  intro q
  simp only [SetImpl.hashInsert]
  by_cases hm : p ∈ s
  · rw [if_pos hm]
    by_cases e : q = p
    · subst e; simp [hm]
    · simp [e]
  · rw [if_neg hm]
    by_cases e : q = p
    · subst e; simp
    · simp [e]

theorem MemRep.filter {s : List P2} {f : P2 → Bool} (h : MemRep s f) (p : P2) :
    MemRep (s.filter fun q => decide (q ≠ p)) (upd f p false) := by
  refine upd_bool_mem h p _ false ?_
  intro q
  by_cases e : q = p <;> simp [e]

theorem SetImpl.hash_sim (T : PosTy) : SetImpl.hash.Sim T MemRep where
  default := memRep_nil
  contains := by intro s f p h _; rw [h p]; rfl
  insert := by
    intro s f p h _
    exact ⟨_, rfl, MemRep.hashInsert h p⟩
  remove := by
    intro s f p h _
    exact ⟨_, rfl, MemRep.filter h p⟩

/-! ### Sorted lists -/

theorem PosTy.lt_irrefl (p : P2) : PosTy.lt p p = false := by simp [PosTy.lt]

theorem PosTy.lt_iff {p q : P2} : PosTy.lt p q = true ↔ p.1 < q.1 ∨ (p.1 = q.1 ∧ p.2 < q.2) := by
  simp [PosTy.lt]

theorem PosTy.lt_trans {p q r : P2} (h1 : PosTy.lt p q = true) (h2 : PosTy.lt q r = true) : PosTy.lt p r = true := by
  rw [PosTy.lt_iff] at *; omega

theorem PosTy.lt_asymm {p q : P2} (h1 : PosTy.lt p q = true) : PosTy.lt q p = false := by
  rw [Bool.eq_false_iff]; intro h; rw [PosTy.lt_iff] at *; omega

theorem PosTy.lt_total {p q : P2} (h1 : p ≠ q) (h2 : PosTy.lt p q = false) : PosTy.lt q p = true := by
  rw [Bool.eq_false_iff] at h2
  rw [ne_eq, PosTy.lt_iff] at h2
  rw [PosTy.lt_iff]
  have : ¬ (p.1 = q.1 ∧ p.2 = q.2) := fun h => h1 (Prod.ext h.1 h.2)
  omega

/-- Keys in increasing order. -/
def Sorted (s : List P2) : Prop := s.Pairwise fun a b => PosTy.lt a b = true

theorem Sorted.not_mem_of_lt {q : P2} {s : List P2} (h : Sorted (q :: s)) {p : P2} (hp : PosTy.lt p q = true) : p ∉ q :: s := by
  intro hm
  rcases List.mem_cons.1 hm with rfl | hm
  · rw [PosTy.lt_irrefl] at hp; cases hp
  · have := (List.pairwise_cons.1 h).1 p hm
    rw [PosTy.lt_asymm this] at hp; cases hp

theorem btreeContains_eq {s : List P2} (h : Sorted s) (p : P2) : SetImpl.btreeContains s p = decide (p ∈ s) := by
  induction s with
  | nil => simp [SetImpl.btreeContains]
  | cons q s ih =>
    rw [SetImpl.btreeContains]
    by_cases e : q = p
    · subst e; simp
    · rw [if_neg e]
      by_cases hl : PosTy.lt p q = true
      · rw [if_pos hl]
        have := h.not_mem_of_lt hl
        simp [this]
      · rw [if_neg hl, ih (List.pairwise_cons.1 h).2]
        have : ¬ p = q := fun h => e h.symm
        simp [this]

theorem mem_btreeInsert (s : List P2) (p q : P2) : q ∈ SetImpl.btreeInsert s p ↔ q = p ∨ q ∈ s := by
  induction s with
  | nil => simp [SetImpl.btreeInsert]
  | cons r s ih =>
    rw [SetImpl.btreeInsert]
    by_cases e : r = p
    · subst e; simp
    · rw [if_neg e]
      by_cases hl : PosTy.lt p r = true
      · rw [if_pos hl]; simp
      · rw [if_neg hl, List.mem_cons, ih, List.mem_cons]
        constructor
        · rintro (h | h | h) <;> simp [h]
        · rintro (h | h | h) <;> simp [h]

theorem sorted_btreeInsert {s : List P2} (h : Sorted s) (p : P2) : Sorted (SetImpl.btreeInsert s p) := by
  induction s with
  | nil => exact List.pairwise_singleton _ _
  | cons r s ih =>
    rw [SetImpl.btreeInsert]
    by_cases e : r = p
    · rw [if_pos e]; exact h
    · rw [if_neg e]
      by_cases hl : PosTy.lt p r = true
      · rw [if_pos hl]
        refine List.pairwise_cons.2 ⟨fun a ha => ?_, h⟩
        rcases List.mem_cons.1 ha with rfl | ha
        · exact hl
        · exact PosTy.lt_trans hl ((List.pairwise_cons.1 h).1 a ha)
      · rw [if_neg hl]
        refine List.pairwise_cons.2 ⟨fun a ha => ?_, ih (List.pairwise_cons.1 h).2⟩
        rcases (mem_btreeInsert _ _ _).1 ha with rfl | ha
        · exact PosTy.lt_total (fun h => e h.symm) (by simpa using hl)
        · exact (List.pairwise_cons.1 h).1 a ha

theorem btreeRemove_eq {s : List P2} (h : Sorted s) (p : P2) : SetImpl.btreeRemove s p = s.filter fun q => decide (q ≠ p) := by
  have nofil : ∀ l : List P2, p ∉ l → l.filter (fun q => decide (q ≠ p)) = l := by
    intro l hl
    rw [List.filter_eq_self]
    intro a ha
    simp only [ne_eq, decide_not, Bool.not_eq_eq_eq_not, Bool.not_true, decide_eq_false_iff_not]
    rintro rfl; exact hl ha
  induction s with
  | nil => rfl
  | cons q s ih =>
    rw [SetImpl.btreeRemove]
    by_cases e : q = p
    · subst e
      rw [if_pos rfl, List.filter_cons]
      simp only [ne_eq, not_true_eq_false, decide_false, Bool.false_eq_true, if_false]
      refine (nofil s ?_).symm
      intro hm
      have := (List.pairwise_cons.1 h).1 _ hm
      rw [PosTy.lt_irrefl] at this; cases this
    · rw [if_neg e]
      by_cases hl : PosTy.lt p q = true
      · rw [if_pos hl, nofil _ (h.not_mem_of_lt hl)]
      · rw [if_neg hl, ih (List.pairwise_cons.1 h).2, List.filter_cons]
        simp [e]

theorem MemRep.btreeInsert {s : List P2} {f : P2 → Bool} (h : MemRep s f) (p : P2) :
    MemRep (SetImpl.btreeInsert s p) (upd f p true) := by
  refine upd_bool_mem h p _ true ?_
  intro q
  rw [mem_btreeInsert]
  by_cases e : q = p <;> simp [e]

theorem MemRep.btreeRemove {s : List P2} {f : P2 → Bool} (hs : Sorted s) (h : MemRep s f) (p : P2) :
    Sorted (SetImpl.btreeRemove s p) ∧ MemRep (SetImpl.btreeRemove s p) (upd f p false) := by
  rw [btreeRemove_eq hs]
  exact ⟨List.Pairwise.filter _ hs, h.filter p⟩

theorem SetImpl.btree_sim (T : PosTy) : SetImpl.btree.Sim T (fun s f => Sorted s ∧ MemRep s f) where
  default := ⟨List.Pairwise.nil, memRep_nil⟩
  contains := by
    intro s f p h _
    show Out.ok (SetImpl.btreeContains s p) = _
    rw [btreeContains_eq h.1, h.2 p]
  insert := by
    intro s f p h _
    exact ⟨_, rfl, sorted_btreeInsert h.1 p, MemRep.btreeInsert h.2 p⟩
  remove := by
    intro s f p h _
    exact ⟨_, rfl, MemRep.btreeRemove h.1 h.2 p⟩

/-! ### Maps -/

/-- The list holds `f` at the positions of `T`; it may be longer. -/
def Grid.RepMin (T : PosTy) (g : List Item) (f : P2 → Item) : Prop :=
  T.nx * T.ny ≤ g.length ∧ ∀ p, T.Valid p → g[T.idx p]? = some (f p)

theorem Grid.repMin_repeat [Target] {T : PosTy} (hT : T.IsGrid) {SIZE : Nat} (hS : T.nx * T.ny ≤ SIZE) (v : Item) :
    Grid.RepMin T (Grid.repeat SIZE v) (fun _ => v) := by
  refine ⟨by simpa [Grid.repeat] using hS, fun p hp => ?_⟩
  have := hT.idx_lt hp
  rw [Grid.repeat, List.getElem?_replicate, if_pos (by omega)]

theorem Grid.RepMin.get [Target] {T : PosTy} (hT : T.IsGrid) {g : List Item} {f : P2 → Item} (h : Grid.RepMin T g f) {p : P2} (hp : T.Valid p) :
    Grid.get T g p = .ok (f p) := by
  rw [Grid.get_idx hT g hp, Grid.getUnchecked, Int.toNat_natCast, h.2 p hp]

theorem Grid.RepMin.set [Target] {T : PosTy} (hT : T.IsGrid) {g : List Item} {f : P2 → Item} (h : Grid.RepMin T g f) {p : P2} (hp : T.Valid p)
    (v : Item) : ∃ g', Grid.set T g p v = .ok g' ∧ Grid.RepMin T g' (upd f p v) := by
  have hlt := Nat.lt_of_lt_of_le (hT.idx_lt hp) h.1
  refine ⟨g.set (T.idx p) v, ?_, by rw [List.length_set]; exact h.1, fun q hq => ?_⟩
  · simp only [Grid.set, hT.toUsize_idx hp, Out.ok_bind, Grid.setUnchecked, Int.toNat_natCast]
    rw [if_pos hlt]
  · by_cases e : q = p
    · subst e
      rw [upd_same, List.getElem?_set_self hlt]
    · rw [upd_other f v e, List.getElem?_set_ne (fun hi => e (hT.idx_inj hq hp hi.symm)), h.2 q hq]

theorem MapImpl.grid_sim [Target] {T : PosTy} (hT : T.IsGrid) {SIZE : Nat} (hS : T.nx * T.ny ≤ SIZE) (dflt : Item) :
    (MapImpl.grid T SIZE dflt).Sim T dflt (fun g f => Grid.RepMin T g f) where
  default := by
    have : Grid.default SIZE dflt = Grid.repeat SIZE dflt := by
      simp only [Grid.default, Grid.repeat]
      rw [List.eq_replicate_iff]
      simp
    show Grid.RepMin T (Grid.default SIZE dflt) _
    rw [this]
    exact Grid.repMin_repeat hT hS dflt
  new := fun v => Grid.repMin_repeat hT hS v
  get := fun h hp => Grid.RepMin.get hT h hp
  set := fun v h hp => Grid.RepMin.set hT h hp v

theorem hashGet_insert (s : List (P2 × Item)) (p q : P2) (v : Item) :
    MapImpl.hashGet (MapImpl.hashInsert s p v) q = if q = p then some v else MapImpl.hashGet s q := by
  induction s with
  | nil =>
    simp only [MapImpl.hashInsert, MapImpl.hashGet]
    by_cases e : q = p
    · subst e; simp
    · rw [if_neg e, if_neg (fun h => e h.symm)]
  | cons a s ih =>
    obtain ⟨r, w⟩ := a
    rw [MapImpl.hashInsert]
    by_cases e : r = p
    · subst e
      rw [if_pos rfl, MapImpl.hashGet, MapImpl.hashGet]
      by_cases e : q = r
      · subst e; simp
      · rw [if_neg e, if_neg (fun h => e h.symm), if_neg (fun h => e h.symm)]
    · rw [if_neg e, MapImpl.hashGet, MapImpl.hashGet, ih]
      by_cases e' : r = q
      · subst e'; simp [e]
      · simp [e']

theorem MapImpl.hash_sim (T : PosTy) (dflt : Item) :
    (MapImpl.hash dflt).Sim T dflt (fun s f => ∀ q, f q = (MapImpl.hashGet s.1 q).getD s.2) where
  default := fun _ => rfl
  new := fun _ _ => rfl
  get := by intro s f p h _; rw [h p]; rfl
  set := by
    intro s f p v h _
    refine ⟨_, rfl, fun q => ?_⟩
    show _ = (MapImpl.hashGet (MapImpl.hashInsert s.1 p v) q).getD s.2
    rw [hashGet_insert]
    by_cases e : q = p
    · subst e; simp [upd_same]
    · rw [upd_other _ _ e, if_neg e, h q]

/-- Keys of an association list in increasing order. -/
def SortedKeys (s : List (P2 × Item)) : Prop := Sorted (s.map Prod.fst)

theorem btreeGet_none {s : List (P2 × Item)} {p : P2} (h : p ∉ s.map Prod.fst) : MapImpl.btreeGet s p = none := by
  induction s with
  | nil => rfl
  | cons a s ih =>
    obtain ⟨q, w⟩ := a
    simp only [List.map_cons, List.mem_cons, not_or] at h
    rw [MapImpl.btreeGet, if_neg (fun e => h.1 e.symm)]
    by_cases hl : PosTy.lt p q = true
    · rw [if_pos hl]
    · rw [if_neg hl, ih h.2]

theorem btree_keys (s : List (P2 × Item)) (p : P2) (v : Item) :
    (MapImpl.btreeInsert s p v).map Prod.fst = SetImpl.btreeInsert (s.map Prod.fst) p := by
  induction s with
  | nil => rfl
  | cons a s ih =>
    obtain ⟨q, w⟩ := a
    rw [MapImpl.btreeInsert, List.map_cons, SetImpl.btreeInsert]
    by_cases e : q = p
    · rw [if_pos e, if_pos e]; rfl
    · rw [if_neg e, if_neg e]
      by_cases hl : PosTy.lt p q = true
      · rw [if_pos hl, if_pos hl]; rfl
      · rw [if_neg hl, if_neg hl, List.map_cons, ih]

theorem btreeGet_insert {s : List (P2 × Item)} (h : SortedKeys s) (p q : P2) (v : Item) :
    MapImpl.btreeGet (MapImpl.btreeInsert s p v) q = if q = p then some v else MapImpl.btreeGet s q := by
  induction s with
  | nil =>
    simp only [MapImpl.btreeInsert, MapImpl.btreeGet]
    by_cases e : q = p
    · subst e; simp
    · rw [if_neg e, if_neg (fun h => e h.symm)]; simp
  | cons a s ih =>
    obtain ⟨r, w⟩ := a
    have h' : SortedKeys s := (List.pairwise_cons.1 h).2
    rw [MapImpl.btreeInsert]
    by_cases e : r = p
    · subst e
      rw [if_pos rfl, MapImpl.btreeGet, MapImpl.btreeGet]
      by_cases e : q = r
      · subst e; simp
      · have e2 : ¬ r = q := fun h => e h.symm
        simp [e, e2]
    · rw [if_neg e]
      by_cases hl : PosTy.lt p r = true
      · rw [if_pos hl, MapImpl.btreeGet]
        by_cases e' : q = p
        · subst e'; simp
        · rw [if_neg (fun h => e' h.symm), if_neg e']
          by_cases hq : PosTy.lt q p = true
          · rw [if_pos hq]
            refine (btreeGet_none ?_).symm
            exact Sorted.not_mem_of_lt (s := s.map Prod.fst) h (PosTy.lt_trans hq hl)
          · rw [if_neg hq]
      · rw [if_neg hl, MapImpl.btreeGet, MapImpl.btreeGet, ih h']
        by_cases e' : r = q
        · subst e'; simp [e]
        · rw [if_neg e', if_neg e']
          by_cases hq : PosTy.lt q r = true
          · rw [if_pos hq, if_pos hq, if_neg]
            rintro rfl; exact hl hq
          · rw [if_neg hq, if_neg hq]

theorem MapImpl.btree_sim (T : PosTy) (dflt : Item) :
    (MapImpl.btree dflt).Sim T dflt (fun s f => SortedKeys s.1 ∧ ∀ q, f q = (MapImpl.btreeGet s.1 q).getD s.2) where
  default := ⟨List.Pairwise.nil, fun _ => rfl⟩
  new := fun _ => ⟨List.Pairwise.nil, fun _ => rfl⟩
  get := by intro s f p h _; rw [h.2 p]; rfl
  set := by
    intro s f p v h _
    refine ⟨_, rfl, ?_, fun q => ?_⟩
    · show SortedKeys (MapImpl.btreeInsert s.1 p v)
      rw [SortedKeys, btree_keys]
      exact sorted_btreeInsert h.1 p
    · show _ = (MapImpl.btreeGet (MapImpl.btreeInsert s.1 p v) q).getD s.2
      rw [btreeGet_insert h.1]
      by_cases e : q = p
      · subst e; simp [upd_same]
      · rw [upd_other _ _ e, if_neg e, h.2 q]

/-! ### Simulation steps as relations -/

section
variable {T : PosTy}

theorem SetImpl.Sim.rel_contains {S : SetImpl} {R} (h : S.Sim T R) {s f p} (hR : R s f) (hp : T.Valid p) :
    S.contains s p = SetImpl.ideal.contains f p := h.contains hR hp

theorem SetImpl.Sim.rel_insert {S : SetImpl} {R} (h : S.Sim T R) {s f p} (hR : R s f) (hp : T.Valid p) :
    Out.Rel R (S.insert s p) (SetImpl.ideal.insert f p) := by
  obtain ⟨s', h1, h2⟩ := h.insert hR hp
  rw [h1]; exact h2

theorem MapImpl.Sim.rel_get {Item : Type} {d : Item} {M : MapImpl Item} {R} (h : M.Sim T d R) {s f p} (hR : R s f) (hp : T.Valid p) :
    M.get s p = (MapImpl.ideal d).get f p := h.get hR hp

theorem MapImpl.Sim.rel_set {Item : Type} {d : Item} {M : MapImpl Item} {R} (h : M.Sim T d R) {s f p} (hR : R s f) (hp : T.Valid p)
    (v : Item) : Out.Rel R (M.set s p v) ((MapImpl.ideal d).set f p v) := by
  obtain ⟨s', h1, h2⟩ := h.set v hR hp
  rw [h1]; exact h2

end

end Sqrid
