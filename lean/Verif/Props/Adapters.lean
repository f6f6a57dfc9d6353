import Verif.Spec.Adapters
import Verif.Props.Pos
import Verif.Props.BoundedInt
/-!
# C125: std's methods on the iterators over positions and bounded integers
-/

namespace Sqrid

open Spec

attribute [local instance] debug64

section
variable {σ α β : Type} {next nextBack : σ → Option α × σ} {R : σ → List α → Prop}

theorem advanceBy_eq (hf : ∀ s l, R s l → (next s).1 = l.head? ∧ R (next s).2 l.tail) (n : Nat) : ∀ {s l}, R s l →
    (advanceBy next n s).1 = decide (n ≤ l.length) ∧ R (advanceBy next n s).2 (l.drop n) := by
  induction n with
  | zero => intro s l h; exact ⟨by simp [advanceBy], h⟩
  | succ n ih =>
    intro s l h
    obtain ⟨h1, h2⟩ := hf s l h
    unfold advanceBy
    rcases hn : next s with ⟨o, s'⟩
    rw [hn] at h1 h2
    cases l with
    | nil =>
      simp only [List.head?_nil] at h1
      subst h1
      exact ⟨by simp, h2⟩
    | cons a l =>
      simp only [List.head?_cons] at h1
      subst h1
      obtain ⟨i1, i2⟩ := ih (s := s') (l := l) h2
      refine ⟨?_, i2⟩
      simp only [i1, List.length_cons, Nat.add_le_add_iff_right]

theorem nthWith_eq (hf : ∀ s l, R s l → (next s).1 = l.head? ∧ R (next s).2 l.tail) (n : Nat) {s l} (h : R s l) :
    (nthWith next n s).1 = l[n]? ∧ R (nthWith next n s).2 (l.drop (n + 1)) := by
  obtain ⟨h1, h2⟩ := advanceBy_eq hf n h
  unfold nthWith
  rcases hn : advanceBy next n s with ⟨b, s'⟩
  rw [hn] at h1 h2
  simp only at h1 h2
  by_cases hle : n ≤ l.length
  · simp only [hle, decide_true] at h1
    subst h1
    obtain ⟨i1, i2⟩ := hf _ _ h2
    refine ⟨by rw [i1, List.head?_drop], ?_⟩
    rw [List.tail_drop] at i2
    exact i2
  · simp only [hle, decide_false] at h1
    subst h1
    refine ⟨(List.getElem?_eq_none (by omega)).symm, ?_⟩
    rw [List.drop_of_length_le (by omega)] at h2 ⊢
    exact h2

theorem findWith_eq (hf : ∀ s l, R s l → (next s).1 = l.head? ∧ R (next s).2 l.tail) (f : α → Bool) (fuel : Nat) : ∀ {s l}, R s l → l.length < fuel →
    ∃ s', findWith next f fuel s = .ok (l.find? f, s') ∧ R s' (l.dropWhile fun a => !f a).tail := by
  induction fuel with
  | zero => intro s l _ h; omega
  | succ fuel ih =>
    intro s l h hl
    obtain ⟨h1, h2⟩ := hf s l h
    unfold findWith
    rcases hn : next s with ⟨o, s'⟩
    rw [hn] at h1 h2
    cases l with
    | nil =>
      simp only [List.head?_nil] at h1
      subst h1
      exact ⟨s', rfl, h2⟩
    | cons a l =>
      simp only [List.head?_cons] at h1
      subst h1
      simp only
      cases hfa : f a with
      | true => exact ⟨s', by simp [hfa], by simpa [hfa] using h2⟩
      | false =>
        obtain ⟨s'', i1, i2⟩ := ih (s := s') (l := l) h2 (by simp only [List.length_cons] at hl; omega)
        refine ⟨s'', ?_, by simpa [hfa] using i2⟩
        simp only [Bool.false_eq_true, if_false, i1, List.find?_cons, hfa]

theorem foldWith_eq (hf : ∀ s l, R s l → (next s).1 = l.head? ∧ R (next s).2 l.tail) (f : β → α → β) (fuel : Nat) : ∀ {b s l}, R s l → l.length < fuel →
    foldWith next f fuel b s = .ok (l.foldl f b) := by
  induction fuel with
  | zero => intro b s l _ h; omega
  | succ fuel ih =>
    intro b s l h hl
    obtain ⟨h1, h2⟩ := hf s l h
    unfold foldWith
    rcases hn : next s with ⟨o, s'⟩
    rw [hn] at h1 h2
    cases l with
    | nil =>
      simp only [List.head?_nil] at h1
      subst h1
      rfl
    | cons a l =>
      simp only [List.head?_cons] at h1
      subst h1
      exact ih h2 (by simp only [List.length_cons] at hl; omega)

/-- The back of a list is the front of the reversed list. -/
theorem back_front (hb : ∀ s l, R s l → (nextBack s).1 = l.getLast? ∧ R (nextBack s).2 l.dropLast) (s : σ) (l : List α) (h : R s l.reverse) :
    (nextBack s).1 = l.head? ∧ R (nextBack s).2 l.tail.reverse := by
  obtain ⟨h1, h2⟩ := hb s _ h
  exact ⟨by rw [h1, List.getLast?_reverse], by rw [← List.dropLast_reverse]; exact h2⟩

/-- A double-ended iterator that hands out the items of a list does so with all methods. -/
theorem runCalls_eq (hf : ∀ s l, R s l → (next s).1 = l.head? ∧ R (next s).2 l.tail)
    (hb : ∀ s l, R s l → (nextBack s).1 = l.getLast? ∧ R (nextBack s).2 l.dropLast) (cs : List (IterCall α)) (fuel : Nat) : ∀ {s l}, R s l → l.length < fuel →
    ∃ s', runCalls next nextBack fuel cs s = .ok ((takes cs l).1, s') ∧ R s' (takes cs l).2 ∧ (takes cs l).2.length ≤ l.length := by
  have hb' := back_front hb
  induction cs with
  | nil => intro s l h _; exact ⟨s, rfl, h, Nat.le_refl _⟩
  | cons c cs ih =>
    intro s l h hl
    have key : ∃ s', c.run next nextBack fuel s = .ok ((Spec.take c l).1, s') ∧ R s' (Spec.take c l).2 ∧ (Spec.take c l).2.length ≤ l.length := by
      cases c with
      | next => exact ⟨_, congrArg Out.ok (Prod.ext (hf s l h).1 rfl), (hf s l h).2, by simp [Spec.take]⟩
      | nextBack => exact ⟨_, congrArg Out.ok (Prod.ext (hb s l h).1 rfl), (hb s l h).2, by simp [Spec.take]⟩
      | nth n => exact ⟨_, congrArg Out.ok (Prod.ext (nthWith_eq hf n h).1 rfl), (nthWith_eq hf n h).2, by simp [Spec.take]⟩
      | nthBack n =>
        obtain ⟨h1, h2⟩ := nthWith_eq (R := fun s l => R s l.reverse) hb' n (s := s) (l := l.reverse) (by rw [List.reverse_reverse]; exact h)
        refine ⟨_, congrArg Out.ok (Prod.ext h1 rfl), ?_, by simp [Spec.take]⟩
        rw [List.reverse_drop, List.reverse_reverse, List.length_reverse] at h2
        exact h2
      | find f =>
        obtain ⟨s', h1, h2⟩ := findWith_eq hf f fuel h hl
        refine ⟨s', h1, h2, ?_⟩
        have := (List.dropWhile_sublist (l := l) fun a => !f a).length_le
        simp only [Spec.take, List.length_tail]
        omega
      | rfind f =>
        obtain ⟨s', h1, h2⟩ := findWith_eq (R := fun s l => R s l.reverse) hb' f fuel (s := s) (l := l.reverse) (by rw [List.reverse_reverse]; exact h)
          (by rw [List.length_reverse]; exact hl)
        refine ⟨s', h1, h2, ?_⟩
        have := (List.dropWhile_sublist (l := l.reverse) fun a => !f a).length_le
        simp only [Spec.take, List.length_tail, List.length_reverse] at this ⊢
        omega
    obtain ⟨s', h1, h2, h3⟩ := key
    obtain ⟨s'', i1, i2, i3⟩ := ih h2 (by omega)
    refine ⟨s'', ?_, i2, by simp only [takes]; omega⟩
    unfold runCalls
    rw [h1, Out.ok_bind]
    simp only
    rw [i1]
    rfl

end

/-- Everything that `C125` says about an iterator over the items of `l`. -/
theorem adapters_eq {σ α : Type} {next nextBack : σ → Option α × σ} {R : σ → List α → Prop}
    (hf : ∀ s l, R s l → (next s).1 = l.head? ∧ R (next s).2 l.tail)
    (hb : ∀ s l, R s l → (nextBack s).1 = l.getLast? ∧ R (nextBack s).2 l.dropLast) (calls : List (IterCall α)) (fuel : Nat) {s : σ} {l : List α} (h : R s l)
    (hl : l.length < fuel) :
    ∃ it, runCalls next nextBack fuel calls s = .ok ((takes calls l).1, it) ∧
      collectWith (liftNext next) fuel it = .ok (takes calls l).2 ∧
      collectWith (liftNext nextBack) fuel it = .ok (takes calls l).2.reverse ∧
      countWith next fuel it = .ok (takes calls l).2.length ∧
      lastWith next fuel it = .ok (takes calls l).2.getLast? ∧
      ∀ {β : Type} (f : β → α → β) (b : β),
        foldWith next f fuel b it = .ok ((takes calls l).2.foldl f b) ∧ foldWith nextBack f fuel b it = .ok ((takes calls l).2.reverse.foldl f b) := by
  have hb' := back_front hb
  obtain ⟨it, h1, h2, h3⟩ := runCalls_eq hf hb calls fuel h hl
  have h2' : R it (takes calls l).2.reverse.reverse := by rw [List.reverse_reverse]; exact h2
  have hl' : (takes calls l).2.reverse.length < fuel := by rw [List.length_reverse]; omega
  refine ⟨it, h1, collectWith_lift_eq next R hf _ it h2 fuel (by omega),
    collectWith_lift_eq nextBack (fun s l => R s l.reverse) hb' _ it h2' fuel hl', ?_, ?_,
    fun f b => ⟨foldWith_eq hf f fuel h2 (by omega), foldWith_eq (R := fun s l => R s l.reverse) hb' f fuel h2' hl'⟩⟩
  · rw [countWith, foldWith_eq hf _ fuel h2 (by omega)]
    generalize (takes calls l).2 = k
    have : ∀ (k : List α) (n : Nat), k.foldl (fun n _ => n + 1) n = n + k.length := by
      intro k
      induction k with
      | nil => intro n; rfl
      | cons a k ih => intro n; rw [List.foldl_cons, ih, List.length_cons]; omega
    rw [this, Nat.zero_add]
  · rw [lastWith, foldWith_eq hf _ fuel h2 (by omega)]
    generalize (takes calls l).2 = k
    rcases List.eq_nil_or_concat k with rfl | ⟨k, a, rfl⟩
    · rfl
    · simp

/-! ## C125 -/

/-- C125. After any calls of `next`, `next_back`, `nth`, `nth_back`, `find` and `rfind` on an iterator over all positions the answers are those for the list of all
positions, and `collect`, `rev().collect()`, `count` and `last` (and any other `fold`) are about the positions that are left. -/
theorem C125_positions (T : PosTy) (hT : T.WF) (XFIRST : Bool) (calls : List (IterCall (Int × Int))) (fuel : Nat)
    (hfuel : (allPositions T XFIRST).length < fuel) :
    ∃ it, runCalls (PosIter.next T XFIRST) (PosIter.nextBack T XFIRST) fuel calls (PosIter.default T) = .ok ((takes calls (allPositions T XFIRST)).1, it) ∧
      collectWith (liftNext (PosIter.next T XFIRST)) fuel it = .ok (takes calls (allPositions T XFIRST)).2 ∧
      collectWith (liftNext (PosIter.nextBack T XFIRST)) fuel it = .ok (takes calls (allPositions T XFIRST)).2.reverse ∧
      countWith (PosIter.next T XFIRST) fuel it = .ok (takes calls (allPositions T XFIRST)).2.length ∧
      lastWith (PosIter.next T XFIRST) fuel it = .ok (takes calls (allPositions T XFIRST)).2.getLast? ∧
      ∀ {β : Type} (f : β → Int × Int → β) (b : β),
        foldWith (PosIter.next T XFIRST) f fuel b it = .ok ((takes calls (allPositions T XFIRST)).2.foldl f b) ∧
        foldWith (PosIter.nextBack T XFIRST) f fuel b it = .ok ((takes calls (allPositions T XFIRST)).2.reverse.foldl f b) := by
  have hR := (T.machine hT XFIRST).R_init
  rw [PosTy.machine_init hT XFIRST, PosTy.machine_N hT XFIRST] at hR
  rw [← PosTy.seg_enumAt] at hfuel ⊢
  exact adapters_eq (T.machine hT XFIRST).R_next (T.machine hT XFIRST).R_nextBack calls fuel hR hfuel

/-- C125. The same for the iterator over a bounded integer type, whose items are all the integers from MIN to MAX. -/
theorem C125_bounded (B : BTy) (hB : B.WF) (calls : List (IterCall Int)) (fuel : Nat) (hfuel : (intsFromTo B.MIN B.MAX).length < fuel) :
    ∃ it, runCalls (BIter.next B) (BIter.nextBack B) fuel calls (BIter.iter B) = .ok ((takes calls (intsFromTo B.MIN B.MAX)).1, it) ∧
      collectWith (liftNext (BIter.next B)) fuel it = .ok (takes calls (intsFromTo B.MIN B.MAX)).2 ∧
      collectWith (liftNext (BIter.nextBack B)) fuel it = .ok (takes calls (intsFromTo B.MIN B.MAX)).2.reverse ∧
      countWith (BIter.next B) fuel it = .ok (takes calls (intsFromTo B.MIN B.MAX)).2.length ∧
      lastWith (BIter.next B) fuel it = .ok (takes calls (intsFromTo B.MIN B.MAX)).2.getLast? ∧
      ∀ {β : Type} (f : β → Int → β) (b : β),
        foldWith (BIter.next B) f fuel b it = .ok ((takes calls (intsFromTo B.MIN B.MAX)).2.foldl f b) ∧
        foldWith (BIter.nextBack B) f fuel b it = .ok ((takes calls (intsFromTo B.MIN B.MAX)).2.reverse.foldl f b) := by
  have hR := (B.machine hB).R_init
  have hle := hB.min_le_max
  have e1 : (B.machine hB).st (some ((B.machine hB).P 0)) (some ((B.machine hB).P (B.machine hB).N)) = BIter.iter B := by
    show (⟨some (B.MIN + ((0 : Nat) : Int)), some (B.MIN + (((B.MAX - B.MIN).toNat : Nat) : Int))⟩ : BIter) = _
    simp only [BIter.iter, BIter.new, BIter.mk.injEq, Option.some.injEq]; omega
  have e2 : seg (B.machine hB).P 0 ((B.machine hB).N + 1) = intsFromTo B.MIN B.MAX := by
    show seg (fun i : Nat => B.MIN + (i : Int)) 0 ((B.MAX - B.MIN).toNat + 1) = _
    simp only [seg, intsFromTo, Nat.zero_add]
    congr 2
    omega
  rw [e1, e2] at hR
  exact adapters_eq (B.machine hB).R_next (B.machine hB).R_nextBack calls fuel hR hfuel

theorem allPositions_index [Target] {T : PosTy} (hT : T.IsGrid) (i : Nat) (p : Int × Int) :
    (allPositions T true)[i]? = some p ↔ InGrid T p ∧ T.toUsize p = .ok (i : Int) := by
  have hcall := (callN_eq (PosIter.next T true) (T.machine hT.wf true).R (T.machine hT.wf true).R_next (i + 1) (PosIter.default T) (allPositions T true) (by
    have hR := (T.machine hT.wf true).R_init
    rw [PosTy.machine_init hT.wf true, PosTy.machine_N hT.wf true] at hR
    rw [← PosTy.seg_enumAt]
    exact hR))
  obtain ⟨r, h1, h2, h3⟩ := C09_iter_call_order T hT (i + 1) i (by omega)
  rw [hcall, List.getElem?_map, List.getElem?_range (by omega), Option.map_some, Option.some.injEq] at h1
  rw [h1]
  constructor
  · intro h
    by_cases hlt : (i : Int) < cols T * rows T
    · obtain ⟨q, h4, h5, h6⟩ := h2 hlt
      rw [h] at h4
      injection h4 with h4
      subst h4
      exact ⟨h5, h6⟩
    · rw [h3 (by omega)] at h
      cases h
  · rintro ⟨hp, hi⟩
    obtain ⟨j, g1, -, -, g4⟩ := C07_to_usize T hT p hp
    rw [hi] at g1
    injection g1 with g1
    subst g1
    obtain ⟨q, h4, h5, h6⟩ := h2 g4
    rw [h4, C07_to_usize_injective T hT p q hp h5 (by rw [hi, h6])]

theorem PosIter.R_default {T : PosTy} (hT : T.WF) (XFIRST : Bool) : (T.machine hT XFIRST).R (PosIter.default T) (allPositions T XFIRST) := by
  have hR := (T.machine hT XFIRST).R_init
  rw [PosTy.machine_init hT XFIRST, PosTy.machine_N hT XFIRST] at hR
  rw [← PosTy.seg_enumAt]
  exact hR

/-- C125. `iter().nth(i)` is the position with index `i`: what `tryfrom_usize(i)` returns. -/
theorem C125_nth [Target] (T : PosTy) (hT : T.IsGrid) (i : Nat) (hi : (i : Int) ≤ limit) :
    ∃ r, T.tryFromUsize i = .ok r ∧ (nthWith (PosIter.next T true) i (PosIter.default T)).1 = r.toOption := by
  have hn : (nthWith (PosIter.next T true) i (PosIter.default T)).1 = (allPositions T true)[i]? :=
    (nthWith_eq (T.machine hT.wf true).R_next i (PosIter.R_default hT.wf true)).1
  obtain ⟨h1, h2⟩ := C07_to_from_usize T hT i (IntTy.usize_has.2 ⟨by omega, hi⟩)
  rw [hn]
  by_cases hlt : (i : Int) < cols T * rows T
  · obtain ⟨p, h3, h4, h5⟩ := h1 hlt
    exact ⟨_, h3, (allPositions_index hT i p).2 ⟨h4, h5⟩⟩
  · refine ⟨_, h2 (by omega), ?_⟩
    have := (C09_iter_each_once T hT.wf true).2.2
    exact List.getElem?_eq_none (by omega)

/-- C125. `iter().nth_back(i)` is the position `i` places before the last one. -/
theorem C125_nth_back [Target] (T : PosTy) (hT : T.IsGrid) (i : Nat) (p : Int × Int) :
    (nthWith (PosIter.nextBack T true) i (PosIter.default T)).1 = some p ↔ InGrid T p ∧ T.toUsize p = .ok (cols T * rows T - 1 - i) := by
  have hn : (nthWith (PosIter.nextBack T true) i (PosIter.default T)).1 = (allPositions T true).reverse[i]? :=
    (nthWith_eq (R := fun s l => (T.machine hT.wf true).R s l.reverse) (back_front (T.machine hT.wf true).R_nextBack) i
      (l := (allPositions T true).reverse) (by rw [List.reverse_reverse]; exact PosIter.R_default hT.wf true)).1
  have hlen := (C09_iter_each_once T hT.wf true).2.2
  rw [hn]
  by_cases hlt : i < (allPositions T true).length
  · rw [List.getElem?_reverse hlt, allPositions_index hT]
    rw [show (((allPositions T true).length - 1 - i : Nat) : Int) = cols T * rows T - 1 - i from by omega]
  · rw [List.getElem?_eq_none (by rw [List.length_reverse]; omega)]
    refine ⟨(fun h => by cases h), fun ⟨hp, h⟩ => ?_⟩
    obtain ⟨j, g1, -, g3, -⟩ := C07_to_usize T hT p hp
    rw [h] at g1
    injection g1 with g1
    omega

example : runCalls (PosIter.next (PosTy.pos 2 1) true) (PosIter.nextBack (PosTy.pos 2 1) true) 7
      [.nth 1, .rfind (fun p => p.1 == 1), .next, .nthBack 0, .find (fun p => p.1 == 0)] (PosIter.default (PosTy.pos 2 1)) =
    .ok ([some (1, 0), some (1, 1), some (2, 0), some (0, 1), none], ⟨none, none⟩) := by decide +kernel
example : runCalls (BIter.next (.bounded .i8 (-3) 9)) (BIter.nextBack (.bounded .i8 (-3) 9)) 20 [.nth 2, .nthBack 3, .find (fun i => i % 4 == 0)]
    (BIter.iter (.bounded .i8 (-3) 9)) = .ok ([some (-1), some 6, some 0], ⟨some 1, some 5⟩) := by decide +kernel

end Sqrid
