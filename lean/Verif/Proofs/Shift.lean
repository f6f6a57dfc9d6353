import Verif.Proofs.BfSearch
import Verif.Proofs.Astar
import Verif.Proofs.UcsSearch
import Verif.Spec.Shift
import Verif.Proofs.Fuel
/-! The searches in another part of the grid, or in another grid. -/

namespace Sqrid

open Spec

/-! ### Renaming the positions -/

section
variable {σ : P2 → P2}

theorem upd_rename {α : Type} (hσ : Function.Injective σ) {f f' : P2 → α} (h : ∀ p, f' (σ p) = f p) (q : P2) (v : α) (p : P2) :
    upd f' (σ q) v (σ p) = upd f q v p := by
  by_cases e : p = q
  · subst e; rw [upd_same, upd_same]
  · rw [upd_other _ _ e, upd_other _ _ (fun h => e (hσ h)), h]

/-- The same state of the traversal, with other names of the positions. -/
def BfIter.Renamed (σ : P2 → P2) (s t : BfIter SetImpl.ideal) : Prop :=
  (∀ p, t.visited (σ p) = s.visited p) ∧ t.nextfront = s.nextfront.map fun m => (σ m.1, m.2)

section
variable {go go' : GoFn} (hσ : Function.Injective σ) (hgo : ∀ p d, go' (σ p) d = (go p d).map σ)
include hσ hgo

theorem BfIter.renamed_visitDir (p : P2) (d : Dir) {s t} (h : BfIter.Renamed σ s t) :
    Out.Rel (BfIter.Renamed σ) (visitDir SetImpl.ideal go p s d) (visitDir SetImpl.ideal go' (σ p) t d) := by
  unfold visitDir
  rw [hgo]
  cases hg : go p d with
  | none => exact h
  | some q =>
    simp only [Option.map_some, SetImpl.ideal, Out.ok_bind]
    rw [h.1]
    split
    · exact h
    · refine Out.Rel.bind_same _ fun neg => ?_
      refine ⟨upd_rename hσ h.1 q true, ?_⟩
      simp only [h.2, List.map_append, List.map_cons, List.map_nil]

theorem BfIter.renamed_visitPos (D : Bool) (m : P2 × Dir) {s t} (h : BfIter.Renamed σ s t) :
    Out.Rel (BfIter.Renamed σ) (visitPos SetImpl.ideal D go s m) (visitPos SetImpl.ideal D go' t (σ m.1, m.2)) := by
  unfold visitPos
  refine Out.Rel.bind_same _ fun dirs => ?_
  refine (Out.Rel.foldlM dirs (fun s t d _ h => BfIter.renamed_visitDir hσ hgo m.1 d h) s t h).bind fun s t h => ?_
  exact ⟨upd_rename hσ h.1 m.1 true, h.2⟩

theorem BfIter.renamed_fold (D : Bool) (l : List (P2 × Dir)) : ∀ {s t}, BfIter.Renamed σ s t →
    Out.Rel (BfIter.Renamed σ) (l.foldlM (visitPos SetImpl.ideal D go) s)
      ((l.map fun m => (σ m.1, m.2)).foldlM (visitPos SetImpl.ideal D go') t) := by
  induction l with
  | nil => intro s t h; exact h
  | cons m l ih =>
    intro s t h
    rw [List.map_cons, List.foldlM_cons, List.foldlM_cons]
    exact (BfIter.renamed_visitPos hσ hgo D m h).bind fun _ _ h => ih h

theorem BfIter.renamed_next (D : Bool) {s t} (h : BfIter.Renamed σ s t) :
    Out.Rel (fun a b => b.1 = a.1.map (List.map fun m => (σ m.1, m.2)) ∧ BfIter.Renamed σ a.2 b.2)
      (next SetImpl.ideal D go s) (next SetImpl.ideal D go' t) := by
  unfold next
  simp only [h.2, List.isEmpty_map]
  by_cases he : s.nextfront.isEmpty = true
  · simp only [he, if_true]
    exact ⟨rfl, h.1, rfl⟩
  · simp only [he]
    exact (BfIter.renamed_fold hσ hgo D s.nextfront (s := { s with nextfront := [] }) (t := { t with nextfront := [] }) ⟨h.1, rfl⟩).bind
      fun _ _ h => ⟨rfl, h⟩

theorem BfIter.renamed_new (D : Bool) (orig : P2) :
    Out.Rel (BfIter.Renamed σ) (BfIter.new SetImpl.ideal D go orig) (BfIter.new SetImpl.ideal D go' (σ orig)) := by
  unfold BfIter.new
  exact (BfIter.renamed_next hσ hgo D (s := { visited := SetImpl.ideal.default, nextfront := [(orig, Dir.N)] }) ⟨fun _ => rfl, rfl⟩).bind
    fun _ _ h => h.2

theorem Bf.iterAll_renamed (D : Bool) (orig : P2) (fuel : Nat) :
    Out.Rel (fun a b => b = a.map (List.map fun m => (σ m.1, m.2))) (Bf.iterAll SetImpl.ideal D go orig fuel)
      (Bf.iterAll SetImpl.ideal D go' (σ orig) fuel) := by
  unfold Bf.iterAll
  refine (BfIter.renamed_new hσ hgo D orig).bind fun s t h => ?_
  induction fuel generalizing s t with
  | zero => trivial
  | succ n ih =>
    unfold collectWith
    refine (BfIter.renamed_next hσ hgo D h).bind fun a b hab => ?_
    obtain ⟨v, s'⟩ := a
    obtain ⟨v', t'⟩ := b
    obtain ⟨h1, h2⟩ := hab
    simp only at h1 h2
    subst h1
    cases v with
    | none => exact rfl
    | some a => exact (ih s' t' h2).bind fun l l' hl => by subst hl; exact rfl

variable {found found' : P2 → Bool} (hfound : ∀ p, found' (σ p) = found p)
include hfound

theorem Bf.scanLayer_renamed (l : List (P2 × Dir)) : ∀ {f f' : P2 → Option Dir}, (∀ p, f' (σ p) = f p) →
    Out.Rel (fun a b => (∀ p, b.1 (σ p) = a.1 p) ∧ b.2 = a.2.map σ) (Bf.scanLayer (MapImpl.ideal none) found l f)
      (Bf.scanLayer (MapImpl.ideal none) found' (l.map fun m => (σ m.1, m.2)) f') := by
  induction l with
  | nil => intro f f' h; exact ⟨h, rfl⟩
  | cons m l ih =>
    intro f f' h
    obtain ⟨p, d⟩ := m
    simp only [List.map_cons, Bf.scanLayer, MapImpl.ideal, Out.ok_bind, hfound]
    split
    · exact ⟨upd_rename hσ h p _, rfl⟩
    · exact ih (upd_rename hσ h p _)

/-- The same answer of `search_mapmov`, with other names of the positions. -/
def Bf.RenamedRes (σ : P2 → P2) : Res (P2 × (P2 → Option Dir)) → Res (P2 × (P2 → Option Dir)) → Prop
  | .error e, .error e' => e = e'
  | .ok a, .ok b => b.1 = σ a.1 ∧ ∀ p, b.2 (σ p) = a.2 p
  | _, _ => False

theorem Bf.searchLoop_renamed (D : Bool) (fuel : Nat) : ∀ {s t : BfIter SetImpl.ideal} {f f' : P2 → Option Dir}, BfIter.Renamed σ s t →
    (∀ p, f' (σ p) = f p) → Out.Rel (Bf.RenamedRes σ) (Bf.searchLoop SetImpl.ideal (MapImpl.ideal none) D go found fuel s f)
      (Bf.searchLoop SetImpl.ideal (MapImpl.ideal none) D go' found' fuel t f') := by
  induction fuel with
  | zero => intros; trivial
  | succ n ih =>
    intro s t f f' h hf
    unfold Bf.searchLoop
    refine (BfIter.renamed_next hσ hgo D h).bind fun a b hab => ?_
    obtain ⟨v, s'⟩ := a
    obtain ⟨v', t'⟩ := b
    obtain ⟨h1, h2⟩ := hab
    simp only at h1 h2
    subst h1
    cases v with
    | none => exact rfl
    | some l =>
      simp only [Option.map_some]
      refine (Bf.scanLayer_renamed hσ hgo hfound l hf).bind fun a b hab => ?_
      obtain ⟨g, o⟩ := a
      obtain ⟨g', o'⟩ := b
      obtain ⟨h3, h4⟩ := hab
      simp only at h3 h4
      subst h4
      cases o with
      | none => exact ih h2 h3
      | some p => exact ⟨rfl, h3⟩

theorem Bf.searchMapmov_renamed (D : Bool) (orig : P2) (fuel : Nat) :
    Out.Rel (Bf.RenamedRes σ) (Bf.searchMapmov SetImpl.ideal (MapImpl.ideal none) D go orig found fuel)
      (Bf.searchMapmov SetImpl.ideal (MapImpl.ideal none) D go' (σ orig) found' fuel) := by
  unfold Bf.searchMapmov
  exact (BfIter.renamed_new hσ hgo D orig).bind fun s t h => Bf.searchLoop_renamed hσ hgo hfound D fuel h fun _ => rfl

end

/-! ### Best-first searches, when the renaming keeps the order -/

/-- An element of the heap with another name of the position. -/
def renameEntry (σ : P2 → P2) (e : Entry) : Entry := (e.1, σ e.2.1, e.2.2)

section
variable (hσ : Function.Injective σ) (hlt : ∀ p q, PosTy.lt (σ p) (σ q) = PosTy.lt p q)
include hσ

theorem renameEntry_injective : Function.Injective (renameEntry σ) := by
  rintro ⟨a, p, d⟩ ⟨b, q, e⟩ h
  simp only [renameEntry, Prod.mk.injEq] at h
  obtain ⟨h1, h2, h3⟩ := h
  rw [h1, hσ h2, h3]

include hlt

theorem Heap.lt_rename (a b : Entry) : Heap.lt (renameEntry σ a) (renameEntry σ b) = Heap.lt a b := by
  rw [Bool.eq_iff_iff]
  simp only [Heap.lt, Bool.or_eq_true, Bool.and_eq_true, decide_eq_true_eq]
  simp only [renameEntry, hlt, hσ.eq_iff]

theorem Heap.maxOf_rename (l : List Entry) : ∀ e, Heap.maxOf (renameEntry σ e) (l.map (renameEntry σ)) = renameEntry σ (Heap.maxOf e l) := by
  unfold Heap.maxOf
  induction l with
  | nil => intro e; rfl
  | cons a l ih =>
    intro e
    rw [List.map_cons, List.foldl_cons, List.foldl_cons, Heap.lt_rename hσ hlt, ← apply_ite (renameEntry σ), ih]

theorem Heap.pop_rename (l : List Entry) :
    Heap.pop (l.map (renameEntry σ)) = (Heap.pop l).map fun x => (renameEntry σ x.1, x.2.map (renameEntry σ)) := by
  cases l with
  | nil => rfl
  | cons e l =>
    simp only [List.map_cons, Heap.pop, Option.map_some, Heap.maxOf_rename hσ hlt]
    rw [← List.map_cons, List.map_erase (renameEntry_injective hσ)]

end

/-- The same answer of `search_mapmov`, with other names of the positions. -/
def RenamedRes (σ : P2 → P2) : Res (P2 → Option Dir) → Res (P2 → Option Dir) → Prop
  | .error e, .error e' => e = e'
  | .ok f, .ok f' => ∀ p, f' (σ p) = f p
  | _, _ => False

/-! #### The pure machine -/

def BSt.Renamed (σ : P2 → P2) (s t : BSt) : Prop := (∀ p, t.c (σ p) = s.c p) ∧ t.heap = s.heap.map (renameEntry σ)

section
variable {go go' : WGo} {h h' : P2 → Int} (hσ : Function.Injective σ) (hlt : ∀ p q, PosTy.lt (σ p) (σ q) = PosTy.lt p q)
  (hgo : ∀ p d, go' (σ p) d = (go p d).map fun x => (σ x.1, x.2)) (hh : ∀ p, h' (σ p) = h p)
include hσ hgo hh

theorem BSt.renamed_relax (p : P2) (d : Dir) {s t : BSt} (H : BSt.Renamed σ s t) :
    BSt.Renamed σ (BSt.relax go h p s d) (BSt.relax go' h' (σ p) t d) := by
  unfold BSt.relax
  rw [hgo]
  cases go p d with
  | none => exact H
  | some qw =>
    obtain ⟨q, w⟩ := qw
    simp only [Option.map_some]
    rw [H.1, H.1]
    split
    · refine ⟨upd_rename hσ H.1 q _, ?_⟩
      simp only [H.2, List.map_cons, renameEntry, hh]
    · exact H

theorem BSt.renamed_expand (D : Bool) (p : P2) {s t : BSt} (H : BSt.Renamed σ s t) :
    BSt.Renamed σ (BSt.expand go h D p s) (BSt.expand go' h' D (σ p) t) := by
  unfold BSt.expand
  induction clockwise D generalizing s t with
  | nil => exact H
  | cons d ds ih =>
    rw [List.foldl_cons, List.foldl_cons]
    exact ih (BSt.renamed_relax hσ hgo hh p d H)

include hlt

theorem BSt.renamed_search (D : Bool) (dest : P2) (fuel : Nat) : ∀ {s t : BSt} {f f' : P2 → Option Dir}, BSt.Renamed σ s t → (∀ p, f' (σ p) = f p) →
    Out.Rel (RenamedRes σ) (BSt.search go h D dest fuel s f) (BSt.search go' h' D (σ dest) fuel t f') := by
  induction fuel with
  | zero => intros; trivial
  | succ n ih =>
    intro s t f f' H hf
    unfold BSt.search
    rw [H.2, Heap.pop_rename hσ hlt]
    cases hp : Heap.pop s.heap with
    | none => exact rfl
    | some er =>
      obtain ⟨⟨k, p, d⟩, rest⟩ := er
      simp only [Option.map_some, renameEntry, hσ.eq_iff]
      split
      · exact upd_rename hσ hf p _
      · exact ih (BSt.renamed_expand hσ hgo hh D p (s := { s with heap := rest }) ⟨H.1, rfl⟩) (upd_rename hσ hf p _)

end

theorem BSt.renamed_init (hσ : Function.Injective σ) (INF : Int) (orig : P2) : BSt.Renamed σ (BSt.init INF orig) (BSt.init INF (σ orig)) :=
  ⟨upd_rename hσ (f := fun _ => INF) (f' := fun _ => INF) (fun _ => rfl) orig 0, rfl⟩

/-! #### Uniform-cost search, also with sums that do not fit -/

def UcsIter.Renamed (σ : P2 → P2) (s t : UcsIter (MapImpl.ideal 0)) : Prop :=
  (∀ p, t.cost (σ p) = s.cost p) ∧ t.frontier = s.frontier.map (renameEntry σ)

section
variable {go go' : WGo} (hσ : Function.Injective σ) (hlt : ∀ p q, PosTy.lt (σ p) (σ q) = PosTy.lt p q)
  (hgo : ∀ p d, go' (σ p) d = (go p d).map fun x => (σ x.1, x.2))
include hσ hgo

theorem UcsIter.renamed_relax [Target] (p : P2) (d : Dir) {s t} (H : UcsIter.Renamed σ s t) :
    Out.Rel (UcsIter.Renamed σ) (UcsIter.relax (MapImpl.ideal 0) go p s d) (UcsIter.relax (MapImpl.ideal 0) go' (σ p) t d) := by
  unfold UcsIter.relax
  rw [hgo]
  cases go p d with
  | none => exact H
  | some qw =>
    obtain ⟨q, w⟩ := qw
    simp only [Option.map_some, MapImpl.ideal, Out.ok_bind]
    rw [H.1, H.1]
    refine Out.Rel.bind_same _ fun c => ?_
    split
    · refine Out.Rel.bind_same _ fun neg => ?_
      refine ⟨upd_rename hσ H.1 q _, ?_⟩
      simp only [H.2, Heap.push, List.map_cons, renameEntry]
    · exact H

include hlt

theorem UcsIter.renamed_next [Target] (D : Bool) {s t} (H : UcsIter.Renamed σ s t) :
    Out.Rel (fun a b => b.1 = a.1.map (fun m => (σ m.1, m.2)) ∧ UcsIter.Renamed σ a.2 b.2) (UcsIter.next (MapImpl.ideal 0) D go s)
      (UcsIter.next (MapImpl.ideal 0) D go' t) := by
  unfold UcsIter.next
  rw [H.2, Heap.pop_rename hσ hlt]
  cases hp : Heap.pop s.frontier with
  | none => exact ⟨rfl, H⟩
  | some er =>
    obtain ⟨⟨k, p, d⟩, rest⟩ := er
    simp only [Option.map_some, renameEntry]
    refine Out.Rel.bind_same _ fun dirs => ?_
    refine (Out.Rel.foldlM dirs (fun s t d _ h => UcsIter.renamed_relax hσ hgo p d h) { s with frontier := rest }
      { t with frontier := rest.map (renameEntry σ) } ⟨H.1, rfl⟩).bind fun s t h => ?_
    exact ⟨rfl, h⟩

theorem Ucs.searchLoop_renamed [Target] (D : Bool) (dest : P2) (fuel : Nat) : ∀ {s t} {f f' : P2 → Option Dir}, UcsIter.Renamed σ s t →
    (∀ p, f' (σ p) = f p) → Out.Rel (RenamedRes σ) (Ucs.searchLoop (MapImpl.ideal none) (MapImpl.ideal 0) D go dest fuel s f)
      (Ucs.searchLoop (MapImpl.ideal none) (MapImpl.ideal 0) D go' (σ dest) fuel t f') := by
  induction fuel with
  | zero => intros; trivial
  | succ n ih =>
    intro s t f f' H hf
    unfold Ucs.searchLoop
    refine (UcsIter.renamed_next hσ hlt hgo D H).bind fun a b hab => ?_
    obtain ⟨v, s'⟩ := a
    obtain ⟨v', t'⟩ := b
    obtain ⟨h1, h2⟩ := hab
    simp only at h1 h2
    subst h1
    cases v with
    | none => exact rfl
    | some m =>
      obtain ⟨p, d⟩ := m
      simp only [Option.map_some, MapImpl.ideal, Out.ok_bind, hσ.eq_iff]
      split
      · exact upd_rename hσ hf p _
      · exact ih h2 (upd_rename hσ hf p _)

theorem Ucs.searchMapmov_renamed [Target] (D : Bool) (orig dest : P2) (fuel : Nat) :
    Out.Rel (RenamedRes σ) (Ucs.searchMapmov (MapImpl.ideal none) (MapImpl.ideal 0) D go orig dest fuel)
      (Ucs.searchMapmov (MapImpl.ideal none) (MapImpl.ideal 0) D go' (σ orig) (σ dest) fuel) := by
  unfold Ucs.searchMapmov
  refine Out.Rel.bind (R := UcsIter.Renamed σ) ?_ fun s t h => Ucs.searchLoop_renamed hσ hlt hgo D dest fuel h fun _ => rfl
  unfold UcsIter.new
  exact ⟨upd_rename hσ (fun _ => rfl) orig 0, rfl⟩

end

end

/-! ### The way back -/

theorem shift_injective (v : P2) : Function.Injective (shift v) := by
  rintro ⟨a, b⟩ ⟨c, d⟩ h
  simp only [shift, Prod.mk.injEq] at h
  obtain ⟨h1, h2⟩ := h
  have : a = c := by omega
  have : b = d := by omega
  subst_vars; rfl

theorem shift_lt (v p q : P2) : PosTy.lt (shift v p) (shift v q) = PosTy.lt p q := by
  simp only [PosTy.lt, shift]
  rw [Bool.eq_iff_iff]
  simp

theorem shift_neighbour (v p : P2) (d : Dir) : neighbour (shift v p) d = shift v (neighbour p d) := by
  simp only [neighbour, shift, Prod.mk.injEq]
  omega

theorem l1_shift (v p q : P2) : l1 (shift v p) (shift v q) = l1 p q := by
  simp only [l1, shift]
  congr 2 <;> omega

section
variable {T T' : PosTy} {f f' : P2 → Option Dir} {orig : P2} {v : P2}

/-- The ways back are the same. -/
theorem Spec.Arrives.shift_unique (hf : ∀ p, f' (shift v p) = f p) {p : P2} {path path' : List Dir} (h : Arrives T f orig p path)
    (h' : Arrives T' f' (shift v orig) (shift v p) path') : path = path' := by
  induction h generalizing path' with
  | here =>
    cases h' with
    | here => rfl
    | step hne => exact absurd rfl hne
  | @step p d path hne hm hin _ ih =>
    generalize hq : shift v p = q at h'
    cases h' with
    | here => exact absurd (shift_injective v hq) hne
    | step hne' hm' hin' h'' =>
      subst hq
      rw [hf, hm] at hm'
      injection hm' with e
      subst e
      rw [shift_neighbour] at h''
      rw [ih h'']

/-- The way back exists also in the other grid, if the path stays in it. -/
theorem Spec.Arrives.shift {go : GoFn} {D : Bool} (hf : ∀ p, f' (shift v p) = f p) (hgo : Adjacent T go) (ho : InGrid T orig)
    (hin' : ∀ q, Reachable go D orig q → InGrid T' (shift v q)) {p : P2} {path : List Dir}
    (h : Arrives T f orig p path) (hp : IsPath go D orig path p) : Arrives T' f' (Spec.shift v orig) (Spec.shift v p) path := by
  induction h with
  | here => exact .here
  | @step p d path hne hm hin _ ih =>
    obtain ⟨r, h1, h2, h3⟩ := isPath_concat hp
    have hr := isPath_inGrid hgo.staysIn ho h1
    have e : r = neighbour p d := by rw [(hgo r _ p hr h3).2, neighbour_opposite']
    subst e
    refine .step (fun h => hne (shift_injective v h)) (by rw [hf, hm]) ?_ ?_
    · rw [shift_neighbour]; exact hin' _ ⟨_, h1⟩
    · rw [shift_neighbour]; exact ih h1

theorem reachable_shift {go go' : GoFn} {D : Bool} (hgo : ∀ p d, go' (shift v p) d = (go p d).map (shift v)) {q : P2}
    (h : Reachable go D orig q) : Reachable go' D (shift v orig) (shift v q) := by
  obtain ⟨ds, h1, h2⟩ := h
  refine ⟨ds, h1, ?_⟩
  clear h1
  induction ds generalizing orig with
  | nil => simp only [follow, Option.some.injEq] at h2 ⊢; rw [h2]
  | cons d ds ih =>
    simp only [follow, hgo] at h2 ⊢
    cases hg : go orig d with
    | none => rw [hg] at h2; cases h2
    | some r => rw [hg] at h2; exact ih h2

theorem shift_neg (v p : P2) : shift (-v.1, -v.2) (shift v p) = p := by
  obtain ⟨a, b⟩ := p
  simp only [shift, Prod.mk.injEq]
  omega

/-- The same directions give the same way back in two grids. -/
theorem camefrom_shift [Target] (hT : T.Searchable) (hT' : T'.Searchable) {go go' : GoFn} {D : Bool} (hgo : Adjacent T go) (hgo' : Adjacent T' go')
    (hs : ∀ p d, go' (shift v p) d = (go p d).map (shift v)) (hf : ∀ p, f' (shift v p) = f p) {dest : P2} (ho : InGrid T orig) (hd : InGrid T dest)
    (ho' : InGrid T' (shift v orig)) (hd' : InGrid T' (shift v dest))
    (hn : ∀ n, ¬ GetsStuck T f orig dest n) (hn' : ∀ n, ¬ GetsStuck T' f' (shift v orig) (shift v dest) n)
    (hv : ∀ path, Arrives T f orig dest path → IsPath go D orig path dest)
    (hv' : ∀ path, Arrives T' f' (shift v orig) (shift v dest) path → IsPath go' D (shift v orig) path (shift v dest)) :
    SameAnswer (cols T) (cols T') id id (camefromIntoPath T (MapImpl.ideal none) f orig dest)
      (camefromIntoPath T' (MapImpl.ideal none) f' (shift v orig) (shift v dest)) := by
  have hcc : ∀ {T : PosTy}, T.Searchable → cols T * cols T = ((T.nx * T.nx : Nat) : Int) := by
    intro T hT
    have := hT.nx_eq
    have h0 := hT.x0
    rw [Int.natCast_mul]
    simp only [cols]
    rw [this, h0]
    congr 1 <;> omega
  by_cases hA : ∃ path, Arrives T f orig dest path
  · obtain ⟨path, hA⟩ := hA
    have hA' := hA.shift (T' := T') (D := D) hf hgo ho (fun q hq => by
      obtain ⟨ds, h⟩ := reachable_shift (v := v) hs hq
      exact isPath_inGrid hgo'.staysIn ho' h) (hv path hA)
    have key : ∀ {T : PosTy} {f : P2 → Option Dir} {orig dest : P2}, T.Searchable → InGrid T orig → InGrid T dest → Arrives T f orig dest path →
        (f dest ≠ none) → camefromIntoPath T (MapImpl.ideal none) f orig dest =
          .ok (if (path.length : Int) ≤ cols T * cols T then .ok path else .error .loop) := by
      intro T f orig dest hT ho hd hA hm
      rw [hcc hT]
      rcases camefromIntoPath_spec hT (MapImpl.ideal none) f f ho hd (fun _ _ => rfl) with ⟨h, -⟩ | ⟨-, ⟨path', h1, h2, h3⟩ | ⟨n, h1, -⟩ | ⟨h1, -, h2⟩⟩
      · exact absurd h hm
      · rw [h3, ← hA.unique h1, if_pos (by rw [hA.unique h1]; exact_mod_cast h2)]
      · exact absurd h1 (hA.not_stuck n)
      · rw [h2, if_neg (by have := h1 path hA; exact_mod_cast Nat.not_le.2 this)]
    by_cases hm : f dest = none
    · have h1 := camefromIntoPath_spec hT (MapImpl.ideal none) f f ho hd (fun _ _ => rfl)
      have h2 := camefromIntoPath_spec hT' (MapImpl.ideal none) f' f' ho' hd' (fun _ _ => rfl)
      rw [hf] at h2
      rcases h1 with ⟨-, h1⟩ | ⟨h, -⟩
      · rcases h2 with ⟨-, h2⟩ | ⟨h, -⟩
        · exact .inl (by rw [h1, h2]; rfl)
        · exact absurd hm h
      · exact absurd hm h
    · exact .inr ⟨path, key hT ho hd hA hm, key hT' ho' hd' hA' (by rw [hf]; exact hm)⟩
  · by_cases hA' : ∃ path, Arrives T' f' (shift v orig) (shift v dest) path
    · obtain ⟨path, hA'⟩ := hA'
      have hneg : ∀ p, shift v (shift (-v.1, -v.2) p) = p := by
        intro p
        have := shift_neg (-v.1, -v.2) p
        simpa using this
      have hs' : ∀ p d, go (shift (-v.1, -v.2) p) d = (go' p d).map (shift (-v.1, -v.2)) := by
        intro p d
        have := hs (shift (-v.1, -v.2) p) d
        rw [hneg] at this
        rw [this]
        cases go (shift (-v.1, -v.2) p) d with
        | none => rfl
        | some q => rw [Option.map_some, Option.map_some, shift_neg]
      have := hA'.shift (T' := T) (f' := f) (v := (-v.1, -v.2)) (D := D) (fun p => by rw [← hf, hneg]) hgo' ho' (fun q hq => by
        obtain ⟨ds, h⟩ := reachable_shift (v := (-v.1, -v.2)) hs' hq
        rw [shift_neg] at h
        exact isPath_inGrid hgo.staysIn ho h) (hv' path hA')
      rw [shift_neg, shift_neg] at this
      exact absurd ⟨_, this⟩ hA
    · left
      have h1 := camefromIntoPath_spec hT (MapImpl.ideal none) f f ho hd (fun _ _ => rfl)
      have h2 := camefromIntoPath_spec hT' (MapImpl.ideal none) f' f' ho' hd' (fun _ _ => rfl)
      rw [hf] at h2
      rcases h1 with ⟨e, h1⟩ | ⟨e, ⟨path, h, -⟩ | ⟨n, h, -⟩ | ⟨-, -, h1⟩⟩
      · rcases h2 with ⟨-, h2⟩ | ⟨e', -⟩
        · rw [h1, h2]; rfl
        · exact absurd e e'
      · exact absurd ⟨_, h⟩ hA
      · exact absurd h (hn n)
      · rcases h2 with ⟨e', -⟩ | ⟨-, ⟨path, h, -⟩ | ⟨n, h, -⟩ | ⟨-, -, h2⟩⟩
        · exact absurd e' e
        · exact absurd ⟨_, h⟩ hA'
        · exact absurd h (hn' n)
        · rw [h1, h2]; rfl

end

/-! ### The recorded directions -/

/-- The movement `m` leads to the origin, or to a neighbour along an edge, and the direction at the position it comes from is recorded. -/
def Backed (T : PosTy) (go : GoFn) (D : Bool) (orig : P2) (f : P2 → Option Dir) (m : P2 × Dir) : Prop :=
  InGrid T m.1 ∧ (m.1 = orig ∨ Allowed D (opposite m.2) ∧ InGrid T (neighbour m.1 m.2) ∧ go (neighbour m.1 m.2) (opposite m.2) = some m.1 ∧
    f (neighbour m.1 m.2) ≠ none)

section
variable {T : PosTy} {go : GoFn} {D : Bool} {orig : P2}

theorem Backed.mono {f f' : P2 → Option Dir} (h : ∀ p, f p ≠ none → f' p ≠ none) {m : P2 × Dir} (H : Backed T go D orig f m) : Backed T go D orig f' m :=
  ⟨H.1, H.2.imp_right fun ⟨a, b, c, d⟩ => ⟨a, b, c, h _ d⟩⟩

theorem upd_ne_none {f : P2 → Option Dir} (p : P2) (d : Dir) (q : P2) (h : f q ≠ none) : upd f p (some d) q ≠ none := by
  by_cases e : q = p
  · subst e; rw [upd_same]; exact Option.some_ne_none _
  · rw [upd_other _ _ e]; exact h

/-- Recording a movement. -/
theorem Backed.record {f : P2 → Option Dir} {p : P2} {d : Dir} (hf : ∀ q e, f q = some e → Backed T go D orig f (q, e)) (hm : Backed T go D orig f (p, d)) :
    ∀ q e, upd f p (some d) q = some e → Backed T go D orig (upd f p (some d)) (q, e) := by
  intro q e he
  by_cases hq : q = p
  · subst hq; rw [upd_same] at he; injection he with he; subst he
    exact hm.mono (upd_ne_none _ _)
  · rw [upd_other _ _ hq] at he
    exact (hf q e he).mono (upd_ne_none _ _)

/-- A step from a recorded position. -/
theorem Backed.new (hgo : Adjacent T go) {f : P2 → Option Dir} {p q : P2} {d : Dir} (hp : InGrid T p) (hf : f p ≠ none) (hd : Allowed D d) (hg : go p d = some q) :
    Backed T go D orig f (q, opposite d) := by
  obtain ⟨h1, h2⟩ := hgo p d q hp hg
  have e : neighbour q (opposite d) = p := by rw [h2, neighbour_opposite]
  refine ⟨h1, .inr ?_⟩
  simp only [opposite_opposite, e]
  exact ⟨hd, hp, hg, hf⟩

theorem Backed.isPath {f : P2 → Option Dir} (hf : ∀ q e, f q = some e → Backed T go D orig f (q, e)) {q : P2} {path : List Dir} (hp : Arrives T f orig q path) :
    IsPath go D orig path q := by
  induction hp with
  | here => exact isPath_nil
  | step hne hg hin _ ih =>
    rcases (hf _ _ hg).2 with h | ⟨h1, -, h2, -⟩
    · exact absurd h hne
    · exact isPath_append ih (isPath_single h1 h2)

theorem Backed.not_stuck {f : P2 → Option Dir} (hf : ∀ q e, f q = some e → Backed T go D orig f (q, e)) {q : P2} (hq : f q ≠ none) (n : Nat) :
    ¬ GetsStuck T f orig q n := by
  intro h
  induction h with
  | @here p hne hs =>
    obtain ⟨d, hd⟩ := Option.ne_none_iff_exists'.1 hq
    rcases (hf _ _ hd).2 with h | ⟨-, h, -⟩
    · exact hne h
    · exact hs d hd h
  | @step p d n hne hm hin _ ih =>
    rcases (hf _ _ hm).2 with h | ⟨-, -, -, h⟩
    · exact hne h
    · exact ih h

/-- A* records such directions. -/
theorem BSt.search_backed {h : P2 → Int} (hgo : Adjacent T go) (dest : P2) (fuel : Nat) : ∀ {s : BSt} {f g : P2 → Option Dir},
    (∀ e ∈ s.heap, Backed T go D orig f e.2) → (∀ q e, f q = some e → Backed T go D orig f (q, e)) →
    BSt.search (unitCost go) h D dest fuel s f = .ok (.ok g) → g dest ≠ none ∧ ∀ q e, g q = some e → Backed T go D orig g (q, e) := by
  induction fuel with
  | zero => intro s f g _ _ h; cases h
  | succ n ih =>
    intro s f g h1 h2 hr
    unfold BSt.search at hr
    cases hp : Heap.pop s.heap with
    | none => rw [hp] at hr; cases hr
    | some er =>
      obtain ⟨⟨k, p, d⟩, rest⟩ := er
      obtain ⟨hm, -, hperm⟩ := Heap.pop_some hp
      have hmov := h1 _ hm
      rw [hp] at hr
      simp only at hr
      split at hr
      · rename_i e
        injection hr with hr; injection hr with hr
        subst hr
        exact ⟨by rw [← e, upd_same]; simp, Backed.record h2 hmov⟩
      · refine ih (fun e he => ?_) (Backed.record h2 hmov) hr
        have H := expand_spec h D p { s with heap := rest } (unitCost_nonneg go)
        obtain ⟨l, e1, -, e2⟩ := H.new
        rw [e1] at he
        rcases List.mem_append.1 he with he | he
        · obtain ⟨w, a1, a2, -⟩ := e2 e he
          have hg : go p (opposite e.2.2) = some e.2.1 := by
            simp only [unitCost] at a2
            cases hx : go p (opposite e.2.2) with
            | none => rw [hx] at a2; cases a2
            | some r => rw [hx] at a2; injection a2 with a2; injection a2 with a2; rw [a2]
          have := Backed.new (orig := orig) hgo (f := upd f p (some d)) hmov.1 (by rw [upd_same]; simp) (mem_clockwise.1 a1) hg
          rwa [opposite_opposite] at this
        · exact (h1 e (hperm.mem_iff.2 (List.mem_cons_of_mem _ he))).mono (upd_ne_none _ _)

end

section
variable {T : PosTy} {go : WGo} {D : Bool} {orig : P2}

/-- The new elements of the frontier come from `p`. -/
theorem UcsIter.relax_from [Target] {p : P2} {s s' : UcsIter (MapImpl.ideal 0)} {d : Dir} (hr : UcsIter.relax (MapImpl.ideal 0) go p s d = .ok s') :
    ∀ e ∈ s'.frontier, e ∈ s.frontier ∨ dropCost go p d = some e.2.1 ∧ e.2.2 = opposite d := by
  unfold UcsIter.relax at hr
  cases hg : go p d with
  | none => rw [hg] at hr; injection hr with hr; exact hr ▸ fun e he => .inl he
  | some qw =>
    obtain ⟨q, w⟩ := qw
    rw [hg] at hr
    simp only [MapImpl.ideal, Out.ok_bind] at hr
    cases ha : IntTy.usize.add (s.cost p) w with
    | ok v =>
      rw [ha, Out.ok_bind] at hr
      split at hr
      · rw [Dir.flip_eq, Out.ok_bind] at hr
        injection hr with hr
        subst hr
        intro e he
        rcases List.mem_cons.1 he with rfl | he
        · exact .inr ⟨by simp [dropCost, hg], rfl⟩
        · exact .inl he
      · injection hr with hr; exact hr ▸ fun e he => .inl he
    | panic => rw [ha] at hr; cases hr
    | ub => rw [ha] at hr; cases hr
    | timeout => rw [ha] at hr; cases hr

theorem UcsIter.fold_from [Target] {p : P2} (ds : List Dir) : ∀ {s s' : UcsIter (MapImpl.ideal 0)},
    ds.foldlM (UcsIter.relax (MapImpl.ideal 0) go p) s = .ok s' →
    ∀ e ∈ s'.frontier, e ∈ s.frontier ∨ ∃ d ∈ ds, dropCost go p d = some e.2.1 ∧ e.2.2 = opposite d := by
  induction ds with
  | nil => intro s s' h; injection h with h; exact h ▸ fun e he => .inl he
  | cons d ds ih =>
    intro s s' h e he
    rw [List.foldlM_cons] at h
    cases hx : UcsIter.relax (MapImpl.ideal 0) go p s d with
    | ok s1 =>
      rw [hx, Out.ok_bind] at h
      rcases ih h e he with h1 | ⟨d', h1, h2⟩
      · rcases UcsIter.relax_from hx e h1 with h2 | h2
        · exact .inl h2
        · exact .inr ⟨d, by simp, h2⟩
      · exact .inr ⟨d', by simp [h1], h2⟩
    | panic => rw [hx] at h; cases h
    | ub => rw [hx] at h; cases h
    | timeout => rw [hx] at h; cases h

/-- Uniform-cost search records such directions, also if sums wrap around. -/
theorem Ucs.loop_backed [Target] (hgo : Adjacent T (dropCost go)) (dest : P2) (fuel : Nat) : ∀ {s : UcsIter (MapImpl.ideal 0)} {f g : P2 → Option Dir},
    (∀ e ∈ s.frontier, Backed T (dropCost go) D orig f e.2) → (∀ q e, f q = some e → Backed T (dropCost go) D orig f (q, e)) →
    Ucs.searchLoop (MapImpl.ideal none) (MapImpl.ideal 0) D go dest fuel s f = .ok (.ok g) →
    g dest ≠ none ∧ ∀ q e, g q = some e → Backed T (dropCost go) D orig g (q, e) := by
  induction fuel with
  | zero => intro s f g _ _ h; cases h
  | succ n ih =>
    intro s f g h1 h2 h
    unfold Ucs.searchLoop UcsIter.next at h
    cases hp : Heap.pop s.frontier with
    | none => rw [hp] at h; cases h
    | some er =>
      obtain ⟨⟨k, p, d⟩, rest⟩ := er
      obtain ⟨hm, -, hperm⟩ := Heap.pop_some hp
      have hmov := h1 _ hm
      rw [hp] at h
      simp only at h
      rw [toList_dirs, Out.ok_bind] at h
      cases hx : (clockwise D).foldlM (UcsIter.relax (MapImpl.ideal 0) go p) { s with frontier := rest } with
      | ok s1 =>
        rw [hx] at h
        simp only [MapImpl.ideal, Out.ok_bind] at h
        split at h
        · rename_i e
          injection h with h; injection h with h
          subst h
          exact ⟨by rw [← e, upd_same]; simp, Backed.record h2 hmov⟩
        · refine ih (fun e he => ?_) (Backed.record h2 hmov) h
          rcases UcsIter.fold_from _ hx e he with he | ⟨d', a1, a2, a3⟩
          · exact (h1 e (hperm.mem_iff.2 (List.mem_cons_of_mem _ he))).mono (upd_ne_none _ _)
          · have := Backed.new (orig := orig) hgo (f := upd f p (some d)) hmov.1 (by rw [upd_same]; simp) (mem_clockwise.1 a1) a2
            rwa [← a3] at this
      | panic => rw [hx] at h; cases h
      | ub => rw [hx] at h; cases h
      | timeout => rw [hx] at h; cases h

theorem Ucs.searchMapmov_backed [Target] (hgo : Adjacent T (dropCost go)) (ho : InGrid T orig) (dest : P2) (fuel : Nat) {g : P2 → Option Dir}
    (h : Ucs.searchMapmov (MapImpl.ideal none) (MapImpl.ideal 0) D go orig dest fuel = .ok (.ok g)) :
    g dest ≠ none ∧ ∀ q e, g q = some e → Backed T (dropCost go) D orig g (q, e) := by
  unfold Ucs.searchMapmov at h
  rw [UcsIter.new_eq, Out.ok_bind] at h
  refine Ucs.loop_backed hgo dest fuel (fun e he => ?_) (fun p d h => by cases h) h
  simp only [BSt.ucs, BSt.init, List.mem_singleton] at he
  subst he
  exact ⟨ho, .inl rfl⟩

end

/-- The directions that breadth-first search records lead back to the origin. -/
theorem Bf.searchMapmov_way {T : PosTy} {go : GoFn} {D : Bool} {orig : P2} {found : P2 → Bool} (hgo : Adjacent T go) (ho : InGrid T orig) (fuel : Nat)
    {dest : P2} {f : P2 → Option Dir} (hm : Bf.searchMapmov SetImpl.ideal (MapImpl.ideal none) D go orig found fuel = .ok (.ok (dest, f))) :
    f dest ≠ none ∧ InGrid T dest ∧ ∃ path, Arrives T f orig dest path ∧ IsPath go D orig path dest := by
  obtain ⟨st, h1, h2⟩ := BfIter.new_st go D orig
  obtain ⟨r, h3, h4⟩ := Bf.searchLoop_spec (found := found) hgo ho (N := T.nx * T.ny) (fun _ _ h => isDist_lt hgo.staysIn ho h) (T.nx * T.ny) h2 (by omega) (f := fun _ => none)
    (fun m q hm => absurd hm (Nat.not_lt_zero _)) (fuel + T.nx * T.ny + 1) (by omega)
  unfold Bf.searchMapmov at hm
  rw [h1, Out.ok_bind] at hm
  have hm' := (Bf.searchLoop_below SetImpl.ideal (MapImpl.ideal none) D go found (m := fuel) (n := fuel + T.nx * T.ny + 1) (by omega) st _).ok hm
  rw [h3] at hm'
  injection hm' with hm'
  subst hm'
  obtain ⟨h5, n, h6, h7, h8⟩ := h4
  have hdest := isDist_inGrid hgo.staysIn ho h6
  obtain ⟨d, p, b1, b2, b3, b4⟩ := h8
  have hp := isDist_inGrid hgo.staysIn ho b3
  obtain ⟨-, e⟩ := hgo p _ dest hp b4
  have e' : neighbour dest d = p := by rw [e, neighbour_opposite']
  obtain ⟨path, c1, c2, c3⟩ := arrives_of_good hgo ho (K := n) (fun m q hm hq => (h7 m q hm hq).2) n (Nat.le_refl _) p b3
  have hA : Arrives T f orig dest (path ++ [opposite d]) := by
    refine .step ?_ b1 (e' ▸ hp) (e' ▸ c1)
    rintro rfl
    have := isDist_unique h6 (isDist_zero.2 rfl)
    omega
  exact ⟨by rw [b1]; simp, hdest, _, hA, isPath_append c2 (isPath_single (allowed_opposite.2 b2) b4)⟩

end Sqrid
