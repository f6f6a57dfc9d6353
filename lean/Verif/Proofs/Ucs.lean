import Verif.Spec.Target
import Verif.Proofs.BestFirstYield
import Verif.Model.Ucs
/-! Uniform-cost search: every implementation runs like the ideal one, and that one like the best-first machine. -/

namespace Sqrid

open Spec

section
variable {T : PosTy} {C : MapImpl Int} {R : C.σ → (P2 → Int) → Prop} {go : WGo}

/-- Related states of the iterator. -/
def UcsIter.Rel (T : PosTy) (R : C.σ → (P2 → Int) → Prop) (s : UcsIter C) (t : UcsIter (MapImpl.ideal 0)) : Prop :=
  R s.cost t.cost ∧ s.frontier = t.frontier ∧ ∀ e ∈ t.frontier, InGrid T e.2.1

theorem UcsIter.rel_relax [Target] (hC : C.Sim T 0 R) (hgo : StaysIn T (dropCost go)) {p : P2} (hp : InGrid T p) (d : Dir) {s t} (h : UcsIter.Rel T R s t) :
    Out.Rel (UcsIter.Rel T R) (relax C go p s d) (relax (MapImpl.ideal 0) go p t d) := by
  unfold relax
  cases hg : go p d with
  | none => exact h
  | some qw =>
    obtain ⟨q, w⟩ := qw
    have hq := hgo p d q hp (by simp [dropCost, hg])
    simp only
    rw [hC.rel_get h.1 hp]
    refine Out.Rel.bind_same _ fun c => ?_
    refine Out.Rel.bind_same _ fun nc => ?_
    rw [hC.rel_get h.1 hq]
    refine Out.Rel.bind_same _ fun old => ?_
    by_cases hlt : nc < old
    · rw [if_pos hlt, if_pos hlt]
      refine (hC.rel_set h.1 hq nc).bind fun a b hab => ?_
      refine Out.Rel.bind_same _ fun neg => ?_
      refine ⟨hab, by simp only [Heap.push]; rw [h.2.1], fun m hm => ?_⟩
      rcases List.mem_cons.1 hm with rfl | hm
      · exact hq
      · exact h.2.2 m hm
    · rw [if_neg hlt, if_neg hlt]
      exact h

theorem UcsIter.rel_next [Target] (hC : C.Sim T 0 R) (hgo : StaysIn T (dropCost go)) (D : Bool) {s t} (h : UcsIter.Rel T R s t) :
    Out.Rel (fun a b => (a.1 = b.1 ∧ ∀ m, b.1 = some m → InGrid T m.1) ∧ UcsIter.Rel T R a.2 b.2)
      (next C D go s) (next (MapImpl.ideal 0) D go t) := by
  unfold next
  rw [h.2.1]
  cases hp : Heap.pop t.frontier with
  | none => exact ⟨⟨rfl, fun m hm => by cases hm⟩, h⟩
  | some er =>
    obtain ⟨⟨pr, mov⟩, rest⟩ := er
    obtain ⟨h1, -, h2⟩ := Heap.pop_some hp
    have hm := h.2.2 _ h1
    simp only
    refine Out.Rel.bind_same _ fun dirs => ?_
    refine (Out.Rel.foldlM dirs (fun s t d _ h => UcsIter.rel_relax hC hgo hm d h) _ _ ?_).bind fun s' t' h' => ?_
    · exact ⟨h.1, rfl, fun e he => h.2.2 e (h2.mem_iff.2 (List.mem_cons_of_mem _ he))⟩
    · refine ⟨⟨rfl, fun m hm' => ?_⟩, h'⟩
      injection hm' with hm'
      exact hm' ▸ hm

theorem UcsIter.rel_new [Target] (hC : C.Sim T 0 R) {orig : P2} (ho : InGrid T orig) :
    Out.Rel (UcsIter.Rel T R) (UcsIter.new C orig) (UcsIter.new (MapImpl.ideal 0) orig) := by
  unfold UcsIter.new
  refine (hC.rel_set (hC.new usizeMax) ho 0).bind fun a b hab => ?_
  exact ⟨hab, rfl, fun e he => by rw [List.mem_singleton.1 he]; exact ho⟩

variable {M : MapImpl (Option Dir)} {RM : M.σ → (P2 → Option Dir) → Prop}

theorem Ucs.rel_searchLoop [Target] (hC : C.Sim T 0 R) (hM : M.Sim T none RM) (hgo : StaysIn T (dropCost go)) (D : Bool) (dest : P2) (fuel : Nat) :
    ∀ {s t a b}, UcsIter.Rel T R s t → RM a b →
    Out.Rel (RelMap RM) (Ucs.searchLoop M C D go dest fuel s a) (Ucs.searchLoop (MapImpl.ideal none) (MapImpl.ideal 0) D go dest fuel t b) := by
  induction fuel with
  | zero => intro s t a b _ _; trivial
  | succ n ih =>
    intro s t a b h hab
    unfold Ucs.searchLoop
    refine (UcsIter.rel_next hC hgo D h).bind fun x y hxy => ?_
    obtain ⟨v, s'⟩ := x
    obtain ⟨v', t'⟩ := y
    obtain ⟨⟨h1, h2⟩, h3⟩ := hxy
    simp only at h1 h2 h3
    subst h1
    cases v with
    | none => rfl
    | some m =>
      obtain ⟨p, d⟩ := m
      simp only
      refine (hM.rel_set hab (h2 _ rfl) (some d)).bind fun x y hxy => ?_
      by_cases hd : p = dest
      · rw [if_pos hd, if_pos hd]; exact hxy
      · rw [if_neg hd, if_neg hd]; exact ih h3 hxy

theorem Ucs.searchPath_ideal [Target] (hT : T.WF) (hC : C.Sim T 0 R) (hM : M.Sim T none RM) (hgo : StaysIn T (dropCost go)) (D : Bool) {orig dest : P2}
    (ho : InGrid T orig) (hd : InGrid T dest) (fuel : Nat) :
    Ucs.searchPath T M C D go orig dest fuel = Ucs.searchPath T (MapImpl.ideal none) (MapImpl.ideal 0) D go orig dest fuel := by
  apply Out.Rel.eq
  unfold Ucs.searchPath Ucs.searchMapmov
  refine Out.Rel.bind ((UcsIter.rel_new hC ho).bind fun a b h => Ucs.rel_searchLoop hC hM hgo D dest fuel h hM.default) ?_
  intro a b h
  cases a with
  | error e =>
    cases b with
    | error e' => exact congrArg _ h
    | ok f => exact h.elim
  | ok s =>
    cases b with
    | error e' => exact h.elim
    | ok f =>
      simp only
      rw [camefrom_ideal hM h hT hd]
      exact Out.Rel.refl (fun _ => rfl) _

end

/-! ### The ideal implementation is the best-first machine -/

/-- The state of the iterator. -/
def BSt.ucs (s : BSt) : UcsIter (MapImpl.ideal 0) := { cost := s.c, frontier := s.heap }

/-- There is room for every step from `p`. -/
def UcsRoom [Target] (go : WGo) (D : Bool) (s : BSt) (p : P2) : Prop := 0 ≤ s.c p ∧ ∀ d q w, WEdge go D p d q w → s.c p + w ≤ usizeMax

theorem UcsIter.relax_unfold [Target] {go : WGo} {s : BSt} {p : P2} {d : Dir} :
    UcsIter.relax (MapImpl.ideal 0) go p s.ucs d = match go p d with
    | none => .ok s.ucs
    | some (q, w) => IntTy.usize.add (s.c p) w >>= fun newcost => if newcost < s.c q then (d.flip >>= fun neg =>
        .ok { cost := upd s.c q newcost, frontier := Heap.push s.heap (newcost, q, neg) }) else .ok s.ucs := rfl

theorem UcsIter.relax_fits [Target] {go : WGo} (hw : NonNeg go) {s : BSt} {p : P2} (h0 : 0 ≤ s.c p) {d : Dir}
    (hd : ∀ q w, go p d = some (q, w) → s.c p + w ≤ usizeMax) :
    UcsIter.relax (MapImpl.ideal 0) go p s.ucs d = .ok (BSt.relax go (fun _ => 0) p s d).ucs := by
  unfold BSt.relax
  rw [UcsIter.relax_unfold]
  cases hg : go p d with
  | none => rfl
  | some qw =>
    obtain ⟨q, w⟩ := qw
    simp only
    have h1 := hd q w hg
    have h2 := hw _ _ _ _ hg
    rw [usizeMax_eq] at h1
    rw [show IntTy.usize.add (s.c p) w = .ok (s.c p + w) from IntTy.usize_add ⟨by omega, by omega⟩, Out.ok_bind]
    by_cases hlt : s.c p + w < s.c q
    · rw [if_pos hlt, if_pos hlt, Dir.flip_eq, Out.ok_bind, Int.add_zero]
      rfl
    · rw [if_neg hlt, if_neg hlt]

theorem UcsIter.relax_panic [Target] (hc : Target.checks = true) {go : WGo} {s : BSt} {p : P2} {d : Dir} {q : P2} {w : Int} (hg : go p d = some (q, w))
    (hlt : usizeMax < s.c p + w) : UcsIter.relax (MapImpl.ideal 0) go p s.ucs d = .panic := by
  rw [UcsIter.relax_unfold, hg]
  simp only
  rw [usizeMax_eq] at hlt
  have : IntTy.usize.add (s.c p) w = .panic := by
    have hn : ¬ IntTy.usize.Has (s.c p + w) := by rw [IntTy.usize_has]; omega
    rw [IntTy.add, IntTy.arith_checks hc, if_neg hn]
  rw [this]
  rfl

theorem UcsIter.relax_eq [Target] {go : WGo} (hw : NonNeg go) {D : Bool} {s : BSt} {p : P2} (hr : UcsRoom go D s p) {d : Dir} (hd : Allowed D d) :
    UcsIter.relax (MapImpl.ideal 0) go p s.ucs d = .ok (BSt.relax go (fun _ => 0) p s d).ucs :=
  UcsIter.relax_fits hw hr.1 fun q w hg => hr.2 d q w ⟨hd, hg⟩

theorem UcsIter.next_eq [Target] {go : WGo} (hw : NonNeg go) (D : Bool) {s : BSt}
    {e : Entry} {rest : List Entry} (hp : Heap.pop s.heap = some (e, rest)) (hr : UcsRoom go D s e.2.1) :
    UcsIter.next (MapImpl.ideal 0) D go s.ucs = .ok (some e.2, (BSt.after go (fun _ => 0) D s.c e rest).ucs) := by
  have key : ∀ (ds : List Dir), (∀ d ∈ ds, Allowed D d) → ∀ (s : BSt), UcsRoom go D s e.2.1 →
      ds.foldlM (UcsIter.relax (MapImpl.ideal 0) go e.2.1) s.ucs = .ok (ds.foldl (BSt.relax go (fun _ => 0) e.2.1) s).ucs := by
    intro ds
    induction ds with
    | nil => intro _ s _; rfl
    | cons d ds ih =>
      intro hds s hs
      rw [List.foldlM_cons, UcsIter.relax_eq hw hs (hds d (by simp)), Out.ok_bind, List.foldl_cons]
      refine ih (fun d hd => hds d (by simp [hd])) _ ?_
      unfold UcsRoom
      rw [BSt.relax_self hw]
      exact hs
  unfold UcsIter.next
  simp only [BSt.ucs]
  rw [hp]
  simp only
  rw [toList_dirs, Out.ok_bind]
  have := key (clockwise D) (fun d hd => mem_clockwise.1 hd) { c := s.c, heap := rest } hr
  simp only [BSt.ucs] at this
  rw [this]
  rfl

theorem UcsIter.next_panic [Target] (hc : Target.checks = true) {go : WGo} (hw : NonNeg go) (D : Bool) {s : BSt} {e : Entry} {rest : List Entry} (hp : Heap.pop s.heap = some (e, rest))
    (h0 : 0 ≤ s.c e.2.1) (hr : ¬ UcsRoom go D s e.2.1) : UcsIter.next (MapImpl.ideal 0) D go s.ucs = .panic := by
  have key : ∀ (ds : List Dir) (s : BSt), 0 ≤ s.c e.2.1 → (∃ d ∈ ds, ∃ q w, go e.2.1 d = some (q, w) ∧ usizeMax < s.c e.2.1 + w) →
      ds.foldlM (UcsIter.relax (MapImpl.ideal 0) go e.2.1) s.ucs = .panic := by
    intro ds
    induction ds with
    | nil => rintro s _ ⟨d, hd, -⟩; simp at hd
    | cons d ds ih =>
      intro s hs hex
      rw [List.foldlM_cons]
      by_cases hd : ∀ q w, go e.2.1 d = some (q, w) → s.c e.2.1 + w ≤ usizeMax
      · rw [UcsIter.relax_fits hw hs hd, Out.ok_bind]
        obtain ⟨d', hd', q, w, hg, hlt⟩ := hex
        refine ih _ (by rw [BSt.relax_self hw]; exact hs) ⟨d', ?_, q, w, hg, by rw [BSt.relax_self hw]; exact hlt⟩
        rcases List.mem_cons.1 hd' with rfl | h
        · have := hd q w hg; omega
        · exact h
      · push Not at hd
        obtain ⟨q, w, hg, hlt⟩ := hd
        rw [UcsIter.relax_panic hc hg hlt]
        rfl
  have hex : ∃ d ∈ clockwise D, ∃ q w, go e.2.1 d = some (q, w) ∧ usizeMax < s.c e.2.1 + w := by
    by_contra hno
    refine hr ⟨h0, fun d q w hdw => ?_⟩
    by_contra hlt
    exact hno ⟨d, mem_clockwise.2 hdw.1, q, w, hdw.2, by omega⟩
  unfold UcsIter.next
  simp only [BSt.ucs]
  rw [hp]
  simp only
  rw [toList_dirs, Out.ok_bind]
  have := key (clockwise D) { c := s.c, heap := rest } h0 hex
  simp only [BSt.ucs] at this
  rw [this]
  rfl

theorem UcsIter.next_none [Target] {go : WGo} {D : Bool} {s : BSt} (hp : Heap.pop s.heap = none) :
    UcsIter.next (MapImpl.ideal 0) D go s.ucs = .ok (none, s.ucs) := by
  unfold UcsIter.next
  simp only [BSt.ucs]
  rw [hp]

theorem UcsIter.new_eq [Target] (orig : P2) : UcsIter.new (MapImpl.ideal 0) orig = .ok (BSt.init usizeMax orig).ucs := rfl

theorem Spec.NoOverflow.room [Target] {go : WGo} {D : Bool} {orig : P2} (hno : NoOverflow go D orig) {s : BSt} {p : P2} (h0 : 0 ≤ s.c p) (hlt : s.c p < usizeMax)
    (hm : IsMinCost go D orig p (s.c p)) : UcsRoom go D s p := ⟨h0, fun d q w h => usizeMax_eq ▸ hno p _ d q w hm (usizeMax_eq ▸ hlt) h.1 h.2⟩

theorem isMinCost_nonneg {go : WGo} {D : Bool} {p q : P2} {n : Int} (hw : NonNeg go) (h : IsMinCost go D p q n) : 0 ≤ n := by
  obtain ⟨⟨ds, hds⟩, -⟩ := h
  exact isCostPath_nonneg hw hds

theorem isMinCost_self {go : WGo} {D : Bool} {p : P2} (hw : NonNeg go) : IsMinCost go D p p 0 :=
  ⟨⟨[], isCostPath_nil⟩, fun _ _ hm => isCostPath_nonneg hw hm⟩

/-- As long as there is room, the loops agree. -/
theorem Ucs.loop_eq [Target] {go : WGo} (hw : NonNeg go) {D : Bool} {orig : P2} (hno : NoOverflow go D orig) (dest : P2) (fuel : Nat) :
    ∀ {t : P2 → Nat} {n : Nat} {F : Int} {f : P2 → Option Dir} {s : BSt}, CInv go (fun _ => 0) D usizeMax orig t n F f s →
    Ucs.searchLoop (MapImpl.ideal none) (MapImpl.ideal 0) D go dest fuel s.ucs f = BSt.search go (fun _ => 0) D dest fuel s f := by
  induction fuel with
  | zero => intro t n F f s _; rfl
  | succ k ih =>
    intro t n F f s H
    cases hp : Heap.pop s.heap with
    | none =>
      rw [BSt.search_none hp]
      unfold Ucs.searchLoop
      rw [UcsIter.next_none hp]
      rfl
    | some er =>
      obtain ⟨e, rest⟩ := er
      obtain ⟨-, -, h3, t', n', H', -⟩ := H.step hw (consistent_zero hw) hp
      have hfin := (H.g.entry e (Heap.pop_some hp).1).1
      rw [BSt.search_some hp]
      unfold Ucs.searchLoop
      rw [UcsIter.next_eq hw D hp (hno.room (H.g.c_nonneg _) hfin ⟨H.g.walk _ hfin, h3⟩), Out.ok_bind, ← ih H']
      rfl

theorem Ucs.searchMapmov_eq [Target] {go : WGo} (hw : NonNeg go) {D : Bool} {orig : P2} (hno : NoOverflow go D orig) (dest : P2) (fuel : Nat) :
    Ucs.searchMapmov (MapImpl.ideal none) (MapImpl.ideal 0) D go orig dest fuel =
      BSt.search go (fun _ => 0) D dest fuel (BSt.init usizeMax orig) (fun _ => none) := by
  unfold Ucs.searchMapmov
  rw [UcsIter.new_eq, Out.ok_bind]
  cases fuel with
  | zero => rfl
  | succ k =>
    obtain ⟨H, -⟩ := CInv.init (INF := usizeMax) usizeMax_pos hw (consistent_zero (D := D) (orig := orig) hw) (fun _ => none)
    have hc0 : (BSt.init usizeMax orig).c orig = 0 := by simp [BSt.init, upd_same]
    have hroom : UcsRoom go D (BSt.init usizeMax orig) orig := by
      refine hno.room (by omega) (by rw [hc0]; exact usizeMax_pos) ?_
      rw [hc0]
      exact isMinCost_self hw
    rw [BSt.search_some (e := (0, orig, Dir.N)) (rest := []) (Heap.pop_single _)]
    unfold Ucs.searchLoop
    rw [UcsIter.next_eq hw D (s := BSt.init usizeMax orig) (e := (0, orig, Dir.N)) (rest := []) (Heap.pop_single _) hroom, Out.ok_bind,
      ← Ucs.loop_eq hw hno dest k H]
    rfl

/-- The loops agree, or there is an overflow. -/
theorem Ucs.loop_cases [Target] (hc : Target.checks = true) {go : WGo} (hw : NonNeg go) {D : Bool} {orig : P2} (dest : P2) (fuel : Nat) :
    ∀ {t : P2 → Nat} {n : Nat} {F : Int} {f : P2 → Option Dir} {s : BSt}, CInv go (fun _ => 0) D usizeMax orig t n F f s →
    Ucs.searchLoop (MapImpl.ideal none) (MapImpl.ideal 0) D go dest fuel s.ucs f = .panic ∨
    Ucs.searchLoop (MapImpl.ideal none) (MapImpl.ideal 0) D go dest fuel s.ucs f = BSt.search go (fun _ => 0) D dest fuel s f := by
  induction fuel with
  | zero => intro t n F f s _; exact .inr rfl
  | succ k ih =>
    intro t n F f s H
    cases hp : Heap.pop s.heap with
    | none =>
      rw [BSt.search_none hp]
      unfold Ucs.searchLoop
      rw [UcsIter.next_none hp]
      exact .inr rfl
    | some er =>
      obtain ⟨e, rest⟩ := er
      obtain ⟨-, -, h3, t', n', H', -⟩ := H.step hw (consistent_zero hw) hp
      rw [BSt.search_some hp]
      unfold Ucs.searchLoop
      by_cases hr : UcsRoom go D s e.2.1
      · rw [UcsIter.next_eq hw D hp hr, Out.ok_bind]
        by_cases hd : e.2.1 = dest
        · right
          simp only [hd]
          rfl
        · rcases ih H' with h | h
          · left
            simp only [hd]
            exact h
          · right
            rw [← h]
            rfl
      · left
        rw [UcsIter.next_panic hc hw D hp (H.g.c_nonneg _) hr]
        rfl

theorem Ucs.searchMapmov_cases [Target] (hc : Target.checks = true) {go : WGo} (hw : NonNeg go) {D : Bool} {orig : P2} (dest : P2) (fuel : Nat) :
    Ucs.searchMapmov (MapImpl.ideal none) (MapImpl.ideal 0) D go orig dest fuel = .panic ∨
    Ucs.searchMapmov (MapImpl.ideal none) (MapImpl.ideal 0) D go orig dest fuel =
      BSt.search go (fun _ => 0) D dest fuel (BSt.init usizeMax orig) (fun _ => none) := by
  unfold Ucs.searchMapmov
  rw [UcsIter.new_eq, Out.ok_bind]
  cases fuel with
  | zero => exact .inr rfl
  | succ k =>
    obtain ⟨H, -⟩ := CInv.init (INF := usizeMax) usizeMax_pos hw (consistent_zero (D := D) (orig := orig) hw) (fun _ => none)
    have hc0 : (BSt.init usizeMax orig).c orig = 0 := by simp [BSt.init, upd_same]
    rw [BSt.search_some (e := (0, orig, Dir.N)) (rest := []) (Heap.pop_single _)]
    unfold Ucs.searchLoop
    by_cases hr : UcsRoom go D (BSt.init usizeMax orig) orig
    · rw [UcsIter.next_eq hw D (s := BSt.init usizeMax orig) (e := (0, orig, Dir.N)) (rest := []) (Heap.pop_single _) hr, Out.ok_bind]
      by_cases hd : orig = dest
      · right
        simp only [hd]
        rfl
      · rcases Ucs.loop_cases hc hw dest k H with h | h
        · left
          simp only [hd]
          exact h
        · right
          rw [← h]
          rfl
    · left
      rw [UcsIter.next_panic hc hw D (s := BSt.init usizeMax orig) (e := (0, orig, Dir.N)) (rest := []) (Heap.pop_single _) (by simp only; omega) hr]
      rfl

theorem Ucs.searchPath_of_mapmov [Target] {T : PosTy} {go : WGo} {D : Bool} {orig dest : P2} {fuel : Nat} {r : Res (P2 → Option Dir)}
    (hmm : Ucs.searchMapmov (MapImpl.ideal none) (MapImpl.ideal 0) D go orig dest fuel = .ok r) :
    Ucs.searchPath T (MapImpl.ideal none) (MapImpl.ideal 0) D go orig dest fuel = (match (generalizing := false) r with
      | .error e => .ok (.error e)
      | .ok mapmov => camefromIntoPath T (MapImpl.ideal none) mapmov orig dest) := by
  unfold Ucs.searchPath
  rw [hmm, Out.ok_bind]
  cases r <;> rfl

end Sqrid
