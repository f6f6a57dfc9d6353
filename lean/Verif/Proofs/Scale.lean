import Verif.Spec.Scale
import Verif.Proofs.UcsSearch
import Verif.Proofs.BestFirstYield
/-! Uniform-cost search when all the costs are multiplied by a number. -/

namespace Sqrid

open Spec

/-! ### Paths -/

section
variable {go : WGo} {D : Bool} {k : Int}

theorem dropCost_scale (k : Int) (go : WGo) : dropCost (scaleCost k go) = dropCost go := by
  funext p d
  simp only [dropCost, scaleCost, Option.map_map]
  rfl

theorem scaleCost_some {p q : P2} {d : Dir} {w : Int} : scaleCost k go p d = some (q, w) ↔ ∃ v, go p d = some (q, v) ∧ w = k * v := by
  simp only [scaleCost, Option.map_eq_some_iff, Prod.mk.injEq]
  constructor
  · rintro ⟨⟨a, b⟩, h1, rfl, rfl⟩
    exact ⟨b, h1, rfl⟩
  · rintro ⟨v, h1, rfl⟩
    exact ⟨(q, v), h1, rfl, rfl⟩

theorem pathCost_scale (k : Int) (go : WGo) (ds : List Dir) (p : P2) : pathCost (scaleCost k go) p ds = (pathCost go p ds).map (k * ·) := by
  induction ds generalizing p with
  | nil => simp [pathCost]
  | cons d ds ih =>
    simp only [pathCost, scaleCost]
    cases go p d with
    | none => rfl
    | some qw =>
      obtain ⟨q, w⟩ := qw
      simp only [Option.map_some]
      rw [ih]
      cases pathCost go q ds with
      | none => rfl
      | some n => simp only [Option.map_some]; rw [Int.mul_add]

theorem isCostPath_scale {ds : List Dir} {p q : P2} {n : Int} (h : IsCostPath go D p ds q n) : IsCostPath (scaleCost k go) D p ds q (k * n) := by
  refine ⟨by rw [dropCost_scale]; exact h.1, ?_⟩
  rw [pathCost_scale, h.2]
  rfl

theorem isMinCost_scale (hk : 0 < k) {p q : P2} {n : Int} (h : IsMinCost go D p q n) : IsMinCost (scaleCost k go) D p q (k * n) := by
  obtain ⟨⟨ds, h1⟩, h2⟩ := h
  refine ⟨⟨ds, isCostPath_scale h1⟩, fun ds' m h3 => ?_⟩
  have h4 := h3.2
  rw [pathCost_scale, Option.map_eq_some_iff] at h4
  obtain ⟨m', h5, rfl⟩ := h4
  have := h2 ds' m' ⟨by have := h3.1; rwa [dropCost_scale] at this, h5⟩
  exact Int.mul_le_mul_of_nonneg_left this (by omega)

theorem nonNeg_scale (hk : 0 < k) (hw : NonNeg go) : NonNeg (scaleCost k go) := by
  intro p d q w h
  obtain ⟨v, h1, rfl⟩ := scaleCost_some.1 h
  exact Int.mul_nonneg (by omega) (hw _ _ _ _ h1)

theorem le_scale (hk : 0 < k) {n : Int} (hn : 0 ≤ n) : n ≤ k * n := by
  have := Int.mul_le_mul_of_nonneg_right (show 1 ≤ k by omega) hn
  omega

theorem belowLimit_scale [Target] (hk : 0 < k) (hw : NonNeg go) {orig : P2} (h : BelowLimit (scaleCost k go) D orig) :
    ∀ p n d q w, IsMinCost go D orig p n → Allowed D d → go p d = some (q, w) → k * (n + w) < limit := by
  intro p n d q w h1 h2 h3
  have := h p (k * n) d q (k * w) (isMinCost_scale hk h1) h2 (scaleCost_some.2 ⟨w, h3, rfl⟩)
  rwa [Int.mul_add]

theorem belowLimit_of_scale [Target] (hk : 0 < k) (hw : NonNeg go) {orig : P2} (h : BelowLimit (scaleCost k go) D orig) : BelowLimit go D orig := by
  intro p n d q w h1 h2 h3
  have h4 := belowLimit_scale hk hw h p n d q w h1 h2 h3
  have h5 : 0 ≤ n + w := by
    obtain ⟨⟨ds, hds⟩, -⟩ := h1
    have := isCostPath_nonneg hw hds
    have := hw _ _ _ _ h3
    omega
  have := le_scale hk h5
  omega

end

/-! ### The queue -/

def scaleEntry (k : Int) (e : Entry) : Entry := (k * e.1, e.2)

section
variable {k : Int} (hk : 0 < k)
include hk

theorem scaleEntry_injective : Function.Injective (scaleEntry k) := by
  rintro ⟨a, m⟩ ⟨b, m'⟩ h
  simp only [scaleEntry, Prod.mk.injEq] at h
  obtain ⟨h1, rfl⟩ := h
  rw [Int.eq_of_mul_eq_mul_left (by omega) h1]

theorem Heap.lt_scale (a b : Entry) : Heap.lt (scaleEntry k a) (scaleEntry k b) = Heap.lt a b := by
  rw [Bool.eq_iff_iff]
  obtain ⟨a, m⟩ := a
  obtain ⟨b, m'⟩ := b
  rw [scaleEntry, scaleEntry]
  have h1 : k * b < k * a ↔ b < a := Int.mul_lt_mul_left hk
  have h2 : k * a = k * b ↔ a = b := Int.mul_eq_mul_left_iff (by omega)
  simp only [Heap.lt, Bool.or_eq_true, Bool.and_eq_true, decide_eq_true_eq, h1, h2]

theorem Heap.maxOf_scale (l : List Entry) : ∀ e, Heap.maxOf (scaleEntry k e) (l.map (scaleEntry k)) = scaleEntry k (Heap.maxOf e l) := by
  unfold Heap.maxOf
  induction l with
  | nil => intro e; rfl
  | cons a l ih =>
    intro e
    rw [List.map_cons, List.foldl_cons, List.foldl_cons, Heap.lt_scale hk, ← apply_ite (scaleEntry k), ih]

theorem Heap.pop_scale (l : List Entry) :
    Heap.pop (l.map (scaleEntry k)) = (Heap.pop l).map fun er => (scaleEntry k er.1, er.2.map (scaleEntry k)) := by
  cases l with
  | nil => rfl
  | cons e es =>
    rw [List.map_cons]
    simp only [Heap.pop, Option.map_some, Heap.maxOf_scale hk, List.map_erase (scaleEntry_injective hk), List.map_cons]

end

/-! ### The machine -/

/-- The state `t` is `s` with all the costs multiplied. -/
structure BSt.Scaled (k INF : Int) (s t : BSt) : Prop where
  c : ∀ p, (s.c p < INF ∧ t.c p = k * s.c p) ∨ (s.c p = INF ∧ t.c p = INF)
  heap : t.heap = s.heap.map (scaleEntry k)

section
variable {go : WGo} {D : Bool} {k INF : Int} (hk : 0 < k)
include hk

theorem BSt.Scaled.relax {p : P2} {d : Dir} {s t : BSt} (H : BSt.Scaled k INF s t) (hp : s.c p < INF) (h0 : 0 ≤ s.c p)
    (hd : ∀ q w, go p d = some (q, w) → 0 ≤ w ∧ k * (s.c p + w) < INF) :
    BSt.Scaled k INF (BSt.relax go (fun _ => 0) p s d) (BSt.relax (scaleCost k go) (fun _ => 0) p t d) := by
  unfold BSt.relax
  cases hg : go p d with
  | none => simp only [scaleCost, hg, Option.map_none]; exact H
  | some qw =>
    obtain ⟨q, w⟩ := qw
    obtain ⟨hw, hlt⟩ := hd q w hg
    have hcp : t.c p = k * s.c p := by
      rcases H.c p with h | h
      · exact h.2
      · omega
    have hsum : t.c p + k * w = k * (s.c p + w) := by rw [hcp, Int.mul_add]
    have hle := le_scale hk (show 0 ≤ s.c p + w by omega)
    simp only [scaleCost, hg, Option.map_some, hsum]
    have hiff : k * (s.c p + w) < t.c q ↔ s.c p + w < s.c q := by
      rcases H.c q with ⟨h1, h2⟩ | ⟨h1, h2⟩
      · rw [h2]; exact Int.mul_lt_mul_left hk
      · rw [h1, h2]; omega
    by_cases hc : s.c p + w < s.c q
    · rw [if_pos hc, if_pos (hiff.2 hc)]
      refine ⟨fun r => ?_, ?_⟩
      · by_cases hr : r = q
        · subst hr
          simp only [upd_same]
          exact .inl ⟨by omega, trivial⟩
        · simp only [upd_other _ _ hr]
          exact H.c r
      · simp only [H.heap, List.map_cons, scaleEntry, Int.add_zero]
    · rw [if_neg hc, if_neg (fun h => hc (hiff.1 h))]
      exact H

theorem BSt.Scaled.expand {p : P2} {s t : BSt} (H : BSt.Scaled k INF s t) (hp : s.c p < INF) (h0 : 0 ≤ s.c p) (hw : NonNeg go)
    (hd : ∀ d q w, Allowed D d → go p d = some (q, w) → k * (s.c p + w) < INF) :
    BSt.Scaled k INF (BSt.expand go (fun _ => 0) D p s) (BSt.expand (scaleCost k go) (fun _ => 0) D p t) := by
  unfold BSt.expand
  have hall : ∀ d ∈ clockwise D, Allowed D d := fun d h => mem_clockwise.1 h
  revert hall
  generalize clockwise D = ds
  intro hall
  have hself : ∀ d (s : BSt), (BSt.relax go (fun _ => 0) p s d).c p = s.c p := fun d s => by
    have := ((ExpandedBy.nil go (fun _ => 0) p s).step hw d).self
    exact this
  induction ds generalizing s t with
  | nil => exact H
  | cons d ds ih =>
    rw [List.foldl_cons, List.foldl_cons]
    refine ih (H.relax hk hp h0 fun q w hg => ⟨hw _ _ _ _ hg, hd d q w (hall d (by simp)) hg⟩) ?_ ?_ ?_ fun d' h => hall d' (by simp [h])
    · rw [hself]; exact hp
    · rw [hself]; exact h0
    · rw [hself]; exact hd

end

section
variable [Target] {go : WGo} {D : Bool} {k : Int} {orig : P2} (hk : 0 < k) (hw : NonNeg go) (hb : BelowLimit (scaleCost k go) D orig)
include hk hw hb

/-- One round. -/
theorem BSt.Scaled.after {t : P2 → Nat} {n : Nat} {F : Int} {f : P2 → Option Dir} {s u : BSt} (I : CInv go (fun _ => 0) D usizeMax orig t n F f s)
    (H : BSt.Scaled k usizeMax s u) {e : Entry} {rest : List Entry} (hp : Heap.pop s.heap = some (e, rest)) :
    BSt.Scaled k usizeMax (BSt.after go (fun _ => 0) D s.c e rest)
      (BSt.after (scaleCost k go) (fun _ => 0) D u.c (scaleEntry k e) (rest.map (scaleEntry k))) := by
  obtain ⟨-, -, h3, -⟩ := I.step hw (consistent_zero hw) hp
  have hfin := (I.g.entry e (Heap.pop_some hp).1).1
  have h0 := I.g.c_nonneg e.2.1
  refine BSt.Scaled.expand (s := ⟨s.c, rest⟩) (t := ⟨u.c, rest.map (scaleEntry k)⟩) hk ⟨H.c, rfl⟩ hfin h0 hw fun d q w hd hg => ?_
  rw [← limit_eq]
  exact belowLimit_scale hk hw hb _ _ d q w ⟨I.g.walk _ hfin, h3⟩ hd hg

theorem BSt.Scaled.search (dest : P2) (fuel : Nat) : ∀ {t : P2 → Nat} {n : Nat} {F : Int} {f : P2 → Option Dir} {s u : BSt},
    CInv go (fun _ => 0) D usizeMax orig t n F f s → BSt.Scaled k usizeMax s u →
    BSt.search (scaleCost k go) (fun _ => 0) D dest fuel u f = BSt.search go (fun _ => 0) D dest fuel s f := by
  induction fuel with
  | zero => intros; rfl
  | succ j ih =>
    intro t n F f s u I H
    have hpop := Heap.pop_scale hk s.heap
    rw [← H.heap] at hpop
    cases hp : Heap.pop s.heap with
    | none => rw [BSt.search_none hp, BSt.search_none (by rw [hpop, hp]; rfl)]
    | some er =>
      obtain ⟨e, rest⟩ := er
      obtain ⟨-, -, -, t', n', I', -⟩ := I.step hw (consistent_zero hw) hp
      rw [BSt.search_some hp, BSt.search_some (e := scaleEntry k e) (rest := rest.map (scaleEntry k)) (by rw [hpop, hp]; rfl)]
      have := ih I' (BSt.Scaled.after hk hw hb I H hp)
      split
      · rw [if_pos (by assumption)]; rfl
      · rw [if_neg (by assumption)]; exact this

theorem BSt.Scaled.init : BSt.Scaled k usizeMax (BSt.after go (fun _ => 0) D (BSt.init usizeMax orig).c (0, orig, Dir.N) [])
    (BSt.after (scaleCost k go) (fun _ => 0) D (BSt.init usizeMax orig).c (0, orig, Dir.N) []) := by
  have hc0 : (BSt.init usizeMax orig).c orig = 0 := by simp [BSt.init, upd_same]
  refine BSt.Scaled.expand (s := ⟨(BSt.init usizeMax orig).c, []⟩) (t := ⟨(BSt.init usizeMax orig).c, []⟩) hk ⟨fun p => ?_, rfl⟩ ?_ ?_ hw fun d q w hd hg => ?_
  · by_cases hp : p = orig
    · subst hp
      simp only [hc0]
      exact .inl ⟨usizeMax_pos, by simp⟩
    · simp only [BSt.init, upd_other _ _ hp]
      exact .inr ⟨trivial, trivial⟩
  · simp only [hc0]; exact usizeMax_pos
  · simp only [hc0]; omega
  · simp only [hc0]
    rw [← limit_eq]
    exact belowLimit_scale hk hw hb orig 0 d q w (isMinCost_self hw) hd hg

theorem Ucs.searchMapmov_scale (dest : P2) (fuel : Nat) :
    Ucs.searchMapmov (MapImpl.ideal none) (MapImpl.ideal 0) D (scaleCost k go) orig dest fuel =
      Ucs.searchMapmov (MapImpl.ideal none) (MapImpl.ideal 0) D go orig dest fuel := by
  rw [Ucs.searchMapmov_eq (nonNeg_scale hk hw) hb.noOverflow, Ucs.searchMapmov_eq hw (belowLimit_of_scale hk hw hb).noOverflow]
  cases fuel with
  | zero => rfl
  | succ j =>
    obtain ⟨I, -⟩ := CInv.init (INF := usizeMax) usizeMax_pos hw (consistent_zero (D := D) (orig := orig) hw) (fun _ => none)
    rw [BSt.search_some (e := (0, orig, Dir.N)) (rest := []) (Heap.pop_single _), BSt.search_some (e := (0, orig, Dir.N)) (rest := []) (Heap.pop_single _),
      BSt.Scaled.search hk hw hb dest j I (BSt.Scaled.init hk hw hb)]

/-- The items. -/
theorem UcsIter.yields_scale_aux (n : Nat) : ∀ {t : P2 → Nat} {m : Nat} {F : Int} {f : P2 → Option Dir} {s u : BSt},
    CInv go (fun _ => 0) D usizeMax orig t m F f s → BSt.Scaled k usizeMax s u →
    ∃ items s' u', yields (UcsIter.next (MapImpl.ideal 0) D go) n s.ucs = .ok (items, s') ∧
      yields (UcsIter.next (MapImpl.ideal 0) D (scaleCost k go)) n u.ucs = .ok (items, u') := by
  induction n with
  | zero => intros; exact ⟨[], _, _, rfl, rfl⟩
  | succ n ih =>
    intro t m F f s u I H
    have hpop := Heap.pop_scale hk s.heap
    rw [← H.heap] at hpop
    cases hp : Heap.pop s.heap with
    | none =>
      refine ⟨[], s.ucs, u.ucs, ?_, ?_⟩ <;> unfold yields
      · rw [UcsIter.next_none hp]; rfl
      · rw [UcsIter.next_none (by rw [hpop, hp]; rfl)]; rfl
    | some er =>
      obtain ⟨e, rest⟩ := er
      obtain ⟨-, -, h3, t', n', I', -⟩ := I.step hw (consistent_zero hw) hp
      have hfin := (I.g.entry e (Heap.pop_some hp).1).1
      have hm : IsMinCost go D orig e.2.1 (s.c e.2.1) := ⟨I.g.walk _ hfin, h3⟩
      have h0 := I.g.c_nonneg e.2.1
      have hcu : u.c e.2.1 = k * s.c e.2.1 := by
        rcases H.c e.2.1 with h | h
        · exact h.2
        · omega
      have hr : UcsRoom go D s e.2.1 := (belowLimit_of_scale hk hw hb).noOverflow.room h0 hfin hm
      have hr' : UcsRoom (scaleCost k go) D u e.2.1 := by
        refine ⟨by rw [hcu]; exact Int.mul_nonneg (by omega) h0, fun d q w h => ?_⟩
        have := hb e.2.1 (k * s.c e.2.1) d q w (isMinCost_scale hk hm) h.1 h.2
        rw [hcu, ← limit_eq]
        omega
      obtain ⟨items, s', u', a1, a2⟩ := ih I' (BSt.Scaled.after hk hw hb I H hp)
      refine ⟨e.2 :: items, s', u', ?_, ?_⟩ <;> unfold yields
      · rw [UcsIter.next_eq hw D hp hr, Out.ok_bind]
        simp only
        rw [a1]
        rfl
      · rw [UcsIter.next_eq (nonNeg_scale hk hw) D (e := scaleEntry k e) (rest := rest.map (scaleEntry k)) (by rw [hpop, hp]; rfl) hr', Out.ok_bind]
        simp only
        rw [a2]
        rfl

theorem UcsIter.yields_scale (n : Nat) :
    ∃ items s' u', yields (UcsIter.next (MapImpl.ideal 0) D go) n (BSt.init usizeMax orig).ucs = .ok (items, s') ∧
      yields (UcsIter.next (MapImpl.ideal 0) D (scaleCost k go)) n (BSt.init usizeMax orig).ucs = .ok (items, u') := by
  cases n with
  | zero => exact ⟨[], _, _, rfl, rfl⟩
  | succ n =>
    obtain ⟨I, -⟩ := CInv.init (INF := usizeMax) usizeMax_pos hw (consistent_zero (D := D) (orig := orig) hw) (fun _ => none)
    obtain ⟨items, s', u', a1, a2⟩ := UcsIter.yields_scale_aux hk hw hb n I (BSt.Scaled.init hk hw hb)
    have hc0 : (BSt.init usizeMax orig).c orig = 0 := by simp [BSt.init, upd_same]
    have hpos : (0 : Int) < usizeMax := usizeMax_pos
    have room : ∀ go : WGo, NonNeg go → BelowLimit go D orig → UcsRoom go D (BSt.init usizeMax orig) orig := fun go hw hb =>
      hb.noOverflow.room (by omega) (by omega) (by rw [hc0]; exact isMinCost_self hw)
    refine ⟨(orig, Dir.N) :: items, s', u', ?_, ?_⟩ <;> unfold yields
    · rw [UcsIter.next_eq hw D (e := (0, orig, Dir.N)) (rest := []) (Heap.pop_single _) (room _ hw (belowLimit_of_scale hk hw hb)), Out.ok_bind]
      simp only
      rw [a1]
      rfl
    · rw [UcsIter.next_eq (nonNeg_scale hk hw) D (e := (0, orig, Dir.N)) (rest := []) (Heap.pop_single _) (room _ (nonNeg_scale hk hw) hb), Out.ok_bind]
      simp only
      rw [a2]
      rfl

end

end Sqrid
