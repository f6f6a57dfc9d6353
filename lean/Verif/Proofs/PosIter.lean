import Verif.Proofs.Pos
/-! Lemmas about the range, line and column iterators. -/

namespace Sqrid

open Spec

/-- What remains in an ideal deque after a schedule of calls. -/
def dequeRest : List End → List α → List α
  | [], l => l
  | .front :: es, l => dequeRest es l.tail
  | .back :: es, l => dequeRest es l.dropLast

theorem runSchedule_rest {σ α : Type _} (next nextBack : σ → Option α × σ)
    (R : σ → List α → Prop)
    (hf : ∀ s l, R s l → (next s).1 = l.head? ∧ R (next s).2 l.tail)
    (hb : ∀ s l, R s l → (nextBack s).1 = l.getLast? ∧ R (nextBack s).2 l.dropLast)
    (es : List End) (s : σ) (l : List α) (h : R s l) :
    R (runSchedule next nextBack es s).2 (dequeRest es l) := by
  induction es generalizing s l with
  | nil => exact h
  | cons e es ih =>
    cases e with
    | front => exact ih _ _ (hf s l h).2
    | back => exact ih _ _ (hb s l h).2

theorem dequeRest_length (es : List End) (l : List α) : (dequeRest es l).length = l.length - es.length := by
  induction es generalizing l with
  | nil => rfl
  | cons e es ih =>
    cases e with
    | front => simp only [dequeRest, ih, List.length_tail, List.length_cons]; omega
    | back => simp only [dequeRest, ih, List.length_dropLast, List.length_cons]; omega

namespace PosIterRange

/-- The `i`-th position of the rectangle with top-left corner `tl` and `w` columns. -/
def at' (tl : Int × Int) (w i : Nat) : Int × Int :=
  (tl.1 + ((i % w : Nat) : Int), tl.2 + ((i / w : Nat) : Int))

/-- Hypotheses on a non-inverted range. -/
structure Ok (T : PosTy) (tl br : Int × Int) : Prop where
  wf : T.WF
  tl_in : T.Valid tl
  br_in : T.Valid br
  hx : tl.1 ≤ br.1
  hy : tl.2 ≤ br.2

/-- Columns of the range. -/
def wd (tl br : Int × Int) : Nat := (br.1 - tl.1 + 1).toNat
/-- Lines of the range. -/
def ht (tl br : Int × Int) : Nat := (br.2 - tl.2 + 1).toNat

variable {T : PosTy} {tl br : Int × Int}

theorem seg_rect : seg (at' tl (wd tl br)) 0 (wd tl br * ht tl br) = rectRows tl br := by
  simp only [seg, Nat.zero_add, rectRows, intsFromTo, List.map_map, List.flatMap_map]
  exact (PosTy.flatMap_range (fun x y => (tl.1 + (x : Int), tl.2 + (y : Int))) (wd tl br) (ht tl br)).symm

theorem rect_length : (rectRows tl br).length = wd tl br * ht tl br := by
  rw [← seg_rect]; simp

/-- One step inside the range. -/
theorem next_inner (h : Ok T tl br) (i : Nat) (hi : i + 1 < wd tl br * ht tl br) :
    next T ⟨tl, br, some (at' tl (wd tl br) i)⟩
      = (some (at' tl (wd tl br) i), ⟨tl, br, some (at' tl (wd tl br) (i + 1))⟩) := by
  obtain ⟨wf, htl, hbr, hx, hy⟩ := h
  rw [PosTy.valid_iff] at htl hbr
  have hw : (wd tl br : Int) = br.1 - tl.1 + 1 := by simp only [wd]; omega
  have hh : (ht tl br : Int) = br.2 - tl.2 + 1 := by simp only [ht]; omega
  have hpos : 0 < wd tl br := by omega
  have hdiv : (i + 1) / wd tl br < ht tl br := PosTy.div_lt_of_lt hi
  simp only [next]
  rcases PosTy.divmod_succ (wd tl br) i hpos with ⟨ha, hb, hc⟩ | ⟨ha, hb, hc⟩
  · -- same line
    simp only [at', hb, hc] at hdiv ⊢
    generalize i / wd tl br = q at *
    generalize i % wd tl br = r at *
    rw [PosTy.next_in_row wf (by simp only; omega) (by simp only; omega)]
    simp only
    rw [if_neg (by omega), if_neg (by omega), Option.filter_some, if_pos (by simp only [decide_eq_true_eq]; omega)]
    simp; omega
  · -- next line
    simp only [at', hb, hc] at hdiv ⊢
    generalize i / wd tl br = q at *
    generalize i % wd tl br = r at *
    rcases Int.lt_or_le br.1 T.X.MAX with hlt | hge
    · rw [PosTy.next_in_row wf (by simp only; omega) (by simp only; omega)]
      simp only
      rw [if_neg (by omega), if_pos (by omega), BTy.inc_some wf.2 (by omega) (by omega)]
      simp only [PosTy.newSame, Except.toOption, Option.filter_some]
      rw [if_pos (by simp only [decide_eq_true_eq]; omega)]
      simp; omega
    · rw [PosTy.next_row wf (by simp only; omega) (by simp only; omega) (by simp only; omega)]
      simp only
      by_cases hm : T.X.MIN < tl.1
      · rw [if_pos hm]
        simp only [PosTy.newSame, Except.toOption, Option.filter_some]
        rw [if_pos (by simp only [decide_eq_true_eq]; omega)]
        simp; omega
      · rw [if_neg hm, if_neg (by omega), Option.filter_some, if_pos (by simp only [decide_eq_true_eq]; omega)]
        simp; omega

theorem at_last (h : Ok T tl br) : at' tl (wd tl br) (wd tl br * ht tl br - 1) = br := by
  obtain ⟨wf, htl, hbr, hx, hy⟩ := h
  have hw : (wd tl br : Int) = br.1 - tl.1 + 1 := by simp only [wd]; omega
  have hh : (ht tl br : Int) = br.2 - tl.2 + 1 := by simp only [ht]; omega
  have hpos : 0 < wd tl br := by omega
  obtain ⟨k, hk⟩ : ∃ k, ht tl br = k + 1 := ⟨ht tl br - 1, by omega⟩
  have e : wd tl br * ht tl br - 1 = wd tl br * k + (wd tl br - 1) := by
    rw [hk, Nat.mul_succ]; omega
  simp only [at']
  rw [e, Nat.mul_add_mod, Nat.mul_add_div hpos, Nat.mod_eq_of_lt (by omega), Nat.div_eq_of_lt (by omega)]
  apply Prod.ext <;> simp only <;> omega

/-- The last step, when nothing is lost. -/
theorem next_end (h : Ok T tl br) (hc : br.2 < T.Y.MAX ∨ br.1 = T.X.MAX) :
    next T ⟨tl, br, some br⟩ = (some br, ⟨tl, br, none⟩) := by
  obtain ⟨wf, htl, hbr, hx, hy⟩ := h
  rw [PosTy.valid_iff] at htl hbr
  simp only [next]
  rcases Int.lt_or_le br.1 T.X.MAX with hlt | hge
  · rw [PosTy.next_in_row wf (by omega) (by omega)]
    simp only
    rw [if_neg (by omega), if_pos (by omega), BTy.inc_some wf.2 (by omega) (by omega)]
    simp only [PosTy.newSame, Except.toOption, Option.filter_some]
    rw [if_neg (by simp only [decide_eq_true_eq]; omega)]
  · rcases Int.lt_or_le br.2 T.Y.MAX with hlt2 | hge2
    · rw [PosTy.next_row wf (by omega) (by omega) (by omega)]
      simp only
      by_cases hm : T.X.MIN < tl.1
      · rw [if_pos hm]
        simp only [PosTy.newSame, Except.toOption, Option.filter_some]
        rw [if_neg (by simp only [decide_eq_true_eq]; omega)]
      · rw [if_neg hm, if_neg (by omega), Option.filter_some, if_neg (by simp only [decide_eq_true_eq]; omega)]
    · have e : br = T.last := Prod.ext (by simp only [PosTy.last]; omega) (by simp only [PosTy.last]; omega)
      rw [show T.next br = none by rw [e]; exact PosTy.next_last wf]
      simp

/-- The last step, when the bottom-right position is lost (`?` at postrait.rs:520). -/
theorem next_end_lost (h : Ok T tl br) (hc : br.2 = T.Y.MAX ∧ br.1 < T.X.MAX) :
    next T ⟨tl, br, some br⟩ = (none, ⟨tl, br, none⟩) := by
  obtain ⟨wf, htl, hbr, hx, hy⟩ := h
  rw [PosTy.valid_iff] at htl hbr
  simp only [next]
  rw [PosTy.next_in_row wf (by omega) (by omega)]
  simp only
  rw [if_neg (by omega), if_pos (by omega), BTy.inc_none wf.2 (by omega)]

/-- Collecting a range: the first `M` positions of the rectangle, where `M` is the full count, or one less when the
last one is lost. -/
theorem collect_range (h : Ok T tl br) (M : Nat)
    (hM : (M = wd tl br * ht tl br ∧ (br.2 < T.Y.MAX ∨ br.1 = T.X.MAX)) ∨
      (M + 1 = wd tl br * ht tl br ∧ (br.2 = T.Y.MAX ∧ br.1 < T.X.MAX)))
    (fuel : Nat) (hf : M < fuel) :
    collectWith (liftNext (next T)) fuel (new tl br) = .ok (seg (at' tl (wd tl br)) 0 M) := by
  have hNpos : 0 < wd tl br * ht tl br := by
    have := h.hx; have := h.hy
    exact Nat.mul_pos (by simp only [wd]; omega) (by simp only [ht]; omega)
  refine collectWith_lift_eq (next T)
    (fun s l => (s = ⟨tl, br, none⟩ ∧ l = []) ∨
      ∃ i, i ≤ M ∧ i < wd tl br * ht tl br ∧ s = ⟨tl, br, some (at' tl (wd tl br) i)⟩ ∧
        l = seg (at' tl (wd tl br)) i (M - i)) ?_ _ _ (Or.inr ⟨0, by omega, by omega, ?_, by simp⟩) fuel (by simpa using hf)
  · rintro s l (⟨rfl, rfl⟩ | ⟨i, hi, hiN, rfl, rfl⟩)
    · exact ⟨rfl, Or.inl ⟨rfl, rfl⟩⟩
    · by_cases hlast : i + 1 < wd tl br * ht tl br
      · obtain ⟨k, hk⟩ : ∃ k, M - i = k + 1 := ⟨M - i - 1, by omega⟩
        rw [next_inner h i hlast, hk, seg_succ]
        refine ⟨rfl, Or.inr ⟨i + 1, by omega, hlast, rfl, ?_⟩⟩
        rw [List.tail_cons]; congr 1; omega
      · have hi' : i = wd tl br * ht tl br - 1 := by omega
        rcases hM with ⟨hM, hc⟩ | ⟨hM, hc⟩
        · have hk : M - i = 0 + 1 := by omega
          rw [hk, seg_succ, hi', at_last h, next_end h hc]
          exact ⟨rfl, Or.inl ⟨rfl, rfl⟩⟩
        · have hk : M - i = 0 := by omega
          rw [hk, hi', at_last h, next_end_lost h hc]
          exact ⟨rfl, Or.inl ⟨rfl, rfl⟩⟩
  · simp [new, at']

end PosIterRange

/-- Collecting a column, from `(x, y0)` to the last line. -/
theorem collect_inX {T : PosTy} (hT : T.WF) (x y0 : Int) (h0 : T.Y.Valid y0) (fuel : Nat)
    (hf : (T.Y.MAX - y0 + 1).toNat < fuel) :
    collectWith (liftNext (PosIterInX.next T)) fuel (some (x, y0))
      = .ok ((intsFromTo y0 T.Y.MAX).map fun y => (x, y)) := by
  have h0' : T.Y.MIN ≤ y0 ∧ y0 ≤ T.Y.MAX := h0
  refine collectWith_lift_eq (PosIterInX.next T)
    (fun s l => (s = none ∧ l = []) ∨ ∃ y, y0 ≤ y ∧ y ≤ T.Y.MAX ∧ s = some (x, y) ∧
      l = (intsFromTo y T.Y.MAX).map fun y => (x, y)) ?_ _ _ (Or.inr ⟨y0, by omega, by omega, rfl, rfl⟩) fuel
      (by simpa [intsFromTo] using hf)
  rintro s l (⟨rfl, rfl⟩ | ⟨y, h1, h2, rfl, rfl⟩)
  · exact ⟨rfl, Or.inl ⟨rfl, rfl⟩⟩
  · obtain ⟨k, hk⟩ : ∃ k, (T.Y.MAX - y + 1).toNat = k + 1 := ⟨(T.Y.MAX - y).toNat, by omega⟩
    simp only [PosIterInX.next]
    have hl : ((intsFromTo y T.Y.MAX).map fun y => (x, y))
        = (x, y) :: ((intsFromTo (y + 1) T.Y.MAX).map fun y => (x, y)) := by
      simp only [intsFromTo, hk, List.range_succ_eq_map, List.map_cons, List.map_map]
      rw [show (T.Y.MAX - (y + 1) + 1).toNat = k by omega]
      simp only [List.cons.injEq]
      refine ⟨by simp, List.map_congr_left ?_⟩
      intro i _; simp; omega
    rw [hl]
    refine ⟨rfl, ?_⟩
    rcases Int.lt_or_le y T.Y.MAX with hlt | hge
    · rw [BTy.inc_some hT.2 (by omega) (by omega)]
      exact Or.inr ⟨y + 1, by omega, by omega, rfl, rfl⟩
    · rw [BTy.inc_none hT.2 (by omega)]
      refine Or.inl ⟨rfl, ?_⟩
      have : (T.Y.MAX - (y + 1) + 1).toNat = 0 := by omega
      simp [intsFromTo, this]

/-- Collecting a line, from `(x0, y)` to the last column. -/
theorem collect_inY {T : PosTy} (hT : T.WF) (x0 y : Int) (h0 : T.X.Valid x0) (fuel : Nat)
    (hf : (T.X.MAX - x0 + 1).toNat < fuel) :
    collectWith (liftNext (PosIterInY.next T)) fuel (some (x0, y))
      = .ok ((intsFromTo x0 T.X.MAX).map fun x => (x, y)) := by
  have h0' : T.X.MIN ≤ x0 ∧ x0 ≤ T.X.MAX := h0
  refine collectWith_lift_eq (PosIterInY.next T)
    (fun s l => (s = none ∧ l = []) ∨ ∃ x, x0 ≤ x ∧ x ≤ T.X.MAX ∧ s = some (x, y) ∧
      l = (intsFromTo x T.X.MAX).map fun x => (x, y)) ?_ _ _ (Or.inr ⟨x0, by omega, by omega, rfl, rfl⟩) fuel
      (by simpa [intsFromTo] using hf)
  rintro s l (⟨rfl, rfl⟩ | ⟨x, h1, h2, rfl, rfl⟩)
  · exact ⟨rfl, Or.inl ⟨rfl, rfl⟩⟩
  · obtain ⟨k, hk⟩ : ∃ k, (T.X.MAX - x + 1).toNat = k + 1 := ⟨(T.X.MAX - x).toNat, by omega⟩
    simp only [PosIterInY.next]
    have hl : ((intsFromTo x T.X.MAX).map fun x => (x, y))
        = (x, y) :: ((intsFromTo (x + 1) T.X.MAX).map fun x => (x, y)) := by
      simp only [intsFromTo, hk, List.range_succ_eq_map, List.map_cons, List.map_map]
      rw [show (T.X.MAX - (x + 1) + 1).toNat = k by omega]
      simp only [List.cons.injEq]
      refine ⟨by simp, List.map_congr_left ?_⟩
      intro i _; simp; omega
    rw [hl]
    refine ⟨rfl, ?_⟩
    rcases Int.lt_or_le x T.X.MAX with hlt | hge
    · rw [BTy.inc_some hT.1 (by omega) (by omega)]
      exact Or.inr ⟨x + 1, by omega, by omega, rfl, rfl⟩
    · rw [BTy.inc_none hT.1 (by omega)]
      refine Or.inl ⟨rfl, ?_⟩
      have : (T.X.MAX - (x + 1) + 1).toNat = 0 := by omega
      simp [intsFromTo, this]

end Sqrid
