import Verif.Spec.Box
import Verif.Props.Pos
import Verif.Props.PosIter
/-! C154: the smallest rectangle around some positions. -/

namespace Sqrid
open Spec PosIterRange

/-- The corners are determined by what C14 says about them. -/
theorem tlbrOf_unique {items : List (Int × Int)} {tl br : Int × Int} (hm : ∀ p ∈ items, tl.1 ≤ p.1 ∧ p.1 ≤ br.1 ∧ tl.2 ≤ p.2 ∧ p.2 ≤ br.2)
    (h1 : ∃ p ∈ items, p.1 = tl.1) (h2 : ∃ p ∈ items, p.2 = tl.2) (h3 : ∃ p ∈ items, p.1 = br.1) (h4 : ∃ p ∈ items, p.2 = br.2) :
    PosTy.tlbrOf items = .ok (tl, br) := by
  obtain ⟨a, ha, ea⟩ := h1
  obtain ⟨b, hb, eb⟩ := h2
  obtain ⟨c, hc, ec⟩ := h3
  obtain ⟨d, hd, ed⟩ := h4
  obtain ⟨tl', br', h, hm', ⟨a', ha', ea'⟩, ⟨b', hb', eb'⟩, ⟨c', hc', ec'⟩, ⟨d', hd', ed'⟩⟩ := (C14_tlbr_of items).2 (List.ne_nil_of_mem ha)
  have := hm a' ha'; have := hm b' hb'; have := hm c' hc'; have := hm d' hd'
  have := hm' a ha; have := hm' b hb; have := hm' c hc; have := hm' d hd
  rw [h, show tl' = tl from Prod.ext (by omega) (by omega), show br' = br from Prod.ext (by omega) (by omega)]

/-- C154. A position is inside the two corners of `tlbr_of` if and only if it is inside all pairs of corners that all the items are inside of. -/
theorem C154_smallest (items : List (Int × Int)) (hne : items ≠ []) :
    ∃ tl br, PosTy.tlbrOf items = .ok (tl, br) ∧
      ∀ p, PosTy.inside p tl br = true ↔ ∀ a b, (∀ q ∈ items, PosTy.inside q a b = true) → PosTy.inside p a b = true := by
  obtain ⟨tl, br, h, hm, ⟨a, ha, ea⟩, ⟨b, hb, eb⟩, ⟨c, hc, ec⟩, ⟨d, hd, ed⟩⟩ := (C14_tlbr_of items).2 hne
  refine ⟨tl, br, h, fun p => ⟨fun hp u v hq => ?_, fun hp => hp tl br fun q hq => ?_⟩⟩
  · have := (C16_inside _ _ _).1.1 (hq a ha); have := (C16_inside _ _ _).1.1 (hq b hb)
    have := (C16_inside _ _ _).1.1 (hq c hc); have := (C16_inside _ _ _).1.1 (hq d hd)
    have := (C16_inside _ _ _).1.1 hp
    have := hm a ha
    exact (C16_inside _ _ _).1.2 (by omega)
  · have := hm q hq
    exact (C16_inside _ _ _).1.2 (by omega)

example : PosTy.tlbrOf [(3, 4), (1, 5), (2, 0)] = .ok ((1, 0), (3, 5)) ∧ PosTy.inside (1, 0) (1, 0) (3, 5) = true := by decide

/-- C154. Only which positions there are counts for `tlbr_of`, neither their order nor how often each comes. -/
theorem C154_order (items items' : List (Int × Int)) (h : ∀ p, p ∈ items ↔ p ∈ items') : PosTy.tlbrOf items = PosTy.tlbrOf items' := by
  cases items with
  | nil => cases items' with
    | nil => rfl
    | cons x xs => exact absurd ((h x).2 List.mem_cons_self) List.not_mem_nil
  | cons x xs =>
    obtain ⟨tl, br, e, hm, ⟨a, ha, ea⟩, ⟨b, hb, eb⟩, ⟨c, hc, ec⟩, ⟨d, hd, ed⟩⟩ := (C14_tlbr_of (x :: xs)).2 (by simp)
    rw [e]
    exact (tlbrOf_unique (fun p hp => hm p ((h p).2 hp)) ⟨a, (h a).1 ha, ea⟩ ⟨b, (h b).1 hb, eb⟩ ⟨c, (h c).1 hc, ec⟩ ⟨d, (h d).1 hd, ed⟩).symm

example : PosTy.tlbrOf [(3, 4), (1, 5), (2, 0)] = PosTy.tlbrOf [(2, 0), (2, 0), (1, 5), (3, 4), (1, 5)] :=
  C154_order _ _ fun p => by simp only [List.mem_cons, List.not_mem_nil, or_false]; tauto

/-- C154. The corners of two sequences together are the corners of their four corners. -/
theorem C154_union (xs ys : List (Int × Int)) (a b c d : Int × Int) (hx : PosTy.tlbrOf xs = .ok (a, b)) (hy : PosTy.tlbrOf ys = .ok (c, d)) :
    PosTy.tlbrOf (xs ++ ys) = PosTy.tlbrOf [a, b, c, d] := by
  have key : ∀ zs (u v : Int × Int), PosTy.tlbrOf zs = .ok (u, v) → (∀ p ∈ zs, u.1 ≤ p.1 ∧ p.1 ≤ v.1 ∧ u.2 ≤ p.2 ∧ p.2 ≤ v.2) ∧
      (∃ p ∈ zs, p.1 = u.1) ∧ (∃ p ∈ zs, p.2 = u.2) ∧ (∃ p ∈ zs, p.1 = v.1) ∧ (∃ p ∈ zs, p.2 = v.2) := by
    intro zs u v h
    have hne : zs ≠ [] := by rintro rfl; exact absurd h (by simp [PosTy.tlbrOf])
    obtain ⟨u', v', e, r⟩ := (C14_tlbr_of zs).2 hne
    rw [h] at e
    simp only [Except.ok.injEq, Prod.mk.injEq] at e
    obtain ⟨rfl, rfl⟩ := e
    exact r
  obtain ⟨tl, br, e, hm, ⟨p1, i1, e1⟩, ⟨p2, i2, e2⟩, ⟨p3, i3, e3⟩, ⟨p4, i4, e4⟩⟩ := (C14_tlbr_of [a, b, c, d]).2 (by simp)
  obtain ⟨mx, ⟨x1, j1, f1⟩, ⟨x2, j2, f2⟩, ⟨x3, j3, f3⟩, ⟨x4, j4, f4⟩⟩ := key xs a b hx
  obtain ⟨my, ⟨y1, k1, g1⟩, ⟨y2, k2, g2⟩, ⟨y3, k3, g3⟩, ⟨y4, k4, g4⟩⟩ := key ys c d hy
  have ma := hm a (by simp); have mb := hm b (by simp); have mc := hm c (by simp); have md := hm d (by simp)
  have nx := mx x1 j1; have ny := my y1 k1
  simp only [List.mem_cons, List.not_mem_nil, or_false] at i1 i2 i3 i4
  rw [e]
  refine tlbrOf_unique (fun p hp => ?_) ?_ ?_ ?_ ?_
  · rcases List.mem_append.1 hp with hp | hp
    · have := mx p hp; omega
    · have := my p hp; omega
  · by_cases hh : a.1 = tl.1
    · exact ⟨x1, List.mem_append_left _ j1, by omega⟩
    · refine ⟨y1, List.mem_append_right _ k1, ?_⟩
      rcases i1 with rfl | rfl | rfl | rfl <;> omega
  · by_cases hh : a.2 = tl.2
    · exact ⟨x2, List.mem_append_left _ j2, by omega⟩
    · refine ⟨y2, List.mem_append_right _ k2, ?_⟩
      rcases i2 with rfl | rfl | rfl | rfl <;> omega
  · by_cases hh : b.1 = br.1
    · exact ⟨x3, List.mem_append_left _ j3, by omega⟩
    · refine ⟨y3, List.mem_append_right _ k3, ?_⟩
      rcases i3 with rfl | rfl | rfl | rfl <;> omega
  · by_cases hh : b.2 = br.2
    · exact ⟨x4, List.mem_append_left _ j4, by omega⟩
    · refine ⟨y4, List.mem_append_right _ k4, ?_⟩
      rcases i4 with rfl | rfl | rfl | rfl <;> omega

example : PosTy.tlbrOf ([(3, 4), (1, 5)] ++ [(2, 0), (7, 1)]) = PosTy.tlbrOf [(1, 4), (3, 5), (2, 0), (7, 1)] :=
  C154_union _ _ _ _ _ _ (by decide) (by decide)

/-- A rectangle in the grid has at most as many positions as the grid. -/
theorem rectRows_length_le {T : PosTy} {tl br : Int × Int} (h1 : InGrid T tl) (h2 : InGrid T br) (hx : tl.1 ≤ br.1) (hy : tl.2 ≤ br.2) :
    ((rectRows tl br).length : Int) ≤ cols T * rows T := by
  have hw : ((wd tl br : Nat) : Int) ≤ cols T := by simp only [wd, cols, InGrid] at *; omega
  have hh : ((ht tl br : Nat) : Int) ≤ rows T := by simp only [ht, rows, InGrid] at *; omega
  rw [rect_length]
  push_cast
  exact Int.mul_le_mul hw hh (Int.natCast_nonneg _) (by omega)

theorem intsFromTo_pairwise (a b : Int) : (intsFromTo a b).Pairwise (· < ·) := by
  rw [intsFromTo, List.pairwise_map]
  exact List.pairwise_lt_range.imp fun h => by omega

theorem rectRows_pairwise (tl br : Int × Int) : (rectRows tl br).Pairwise ReadsBefore := by
  rw [rectRows, List.pairwise_flatMap]
  refine ⟨fun y _ => ?_, (intsFromTo_pairwise _ _).imp fun h p hp q hq => ?_⟩
  · rw [List.pairwise_map]
    exact (intsFromTo_pairwise _ _).imp fun h => .inr ⟨rfl, h⟩
  · obtain ⟨_, _, rfl⟩ := List.mem_map.1 hp
    obtain ⟨_, _, rfl⟩ := List.mem_map.1 hq
    exact .inl h

/-- C154. Going through the `iter_range` of the corners that `tlbr_of` returns gives each position inside them once, in reading order; but if the lower right corner is on the
last line and not in the last column, it is left out, even if it is one of the items. -/
theorem C154_box (T : PosTy) (hT : T.WF) (items : List (Int × Int)) (hne : items ≠ []) (hi : ∀ p ∈ items, InGrid T p) (fuel : Nat) (hfuel : cols T * rows T < (fuel : Int)) :
    ∃ tl br l, PosTy.tlbrOf items = .ok (tl, br) ∧ boxPositions T items fuel = .ok (.ok l) ∧ l.Pairwise ReadsBefore ∧
      (∀ p, p ∈ l ↔ PosTy.inside p tl br = true ∧ ¬ (LeavesOut T br ∧ p = br)) ∧ (∀ p ∈ items, p ∈ l ∨ LeavesOut T br ∧ p = br) := by
  obtain ⟨tl, br, h, hm, _⟩ := (C14_tlbr_of items).2 hne
  obtain ⟨g1, g2⟩ := C14_tlbr_in_grid T items hi tl br h
  obtain ⟨a, ha⟩ := List.exists_mem_of_ne_nil items hne
  have := hm a ha
  have hx : tl.1 ≤ br.1 := by omega
  have hy : tl.2 ≤ br.2 := by omega
  have hlen := rectRows_length_le g1 g2 hx hy
  have hin : ∀ p, PosTy.inside p tl br = true ↔ p ∈ rectRows tl br := fun p => by
    rw [(C16_inside _ _ _).1, (C12_rect_spec tl br).1]
    omega
  have hmem : ∀ p ∈ items, p ∈ rectRows tl br := fun p hp => by
    have := hm p hp
    exact ((C12_rect_spec tl br).1 p).2 (by omega)
  by_cases hc : LeavesOut T br
  · obtain ⟨l, e, hl⟩ := C12_iter_range_lost T hT tl br g1 g2 hx hy hc fuel (by omega)
    have hpw := rectRows_pairwise tl br
    have hnd := (C12_rect_spec tl br).2
    rw [hl] at hpw hnd
    have hbr : br ∉ l := fun hb => (List.nodup_append.1 hnd).2.2 br hb br (by simp) rfl
    refine ⟨tl, br, l, h, by simp only [boxPositions, h, e, Out.ok_bind], (List.pairwise_append.1 hpw).1, fun p => ?_, fun p hp => ?_⟩
    · rw [hin, hl, List.mem_append, List.mem_singleton]
      constructor
      · exact fun hp => ⟨.inl hp, fun ⟨_, hq⟩ => hbr (hq ▸ hp)⟩
      · rintro ⟨hp | hp, hq⟩
        · exact hp
        · exact absurd ⟨hc, hp⟩ hq
    · have := hmem p hp
      rw [hl, List.mem_append, List.mem_singleton] at this
      exact this.imp_right fun e => ⟨hc, e⟩
  · have hc' : br.2 < T.Y.MAX ∨ br.1 = T.X.MAX := by
      simp only [LeavesOut, InGrid] at *
      omega
    refine ⟨tl, br, rectRows tl br, h, by simp only [boxPositions, h, C12_iter_range_partial T hT tl br g1 g2 hx hy hc' fuel (by omega), Out.ok_bind],
      rectRows_pairwise tl br, fun p => ?_, fun p hp => .inl (hmem p hp)⟩
    rw [hin]
    exact ⟨fun hp => ⟨hp, fun hq => hc hq.1⟩, fun hp => hp.1⟩

/-- C154. What `tlbr_of` returns for the positions of the box itself: the same corners; unless the corner is left out and the box has only one line or one column. Then the
last line or column is missing; and a box of one position has become empty. -/
theorem C154_again (T : PosTy) (hT : T.WF) (items : List (Int × Int)) (hne : items ≠ []) (hi : ∀ p ∈ items, InGrid T p) (fuel : Nat) (hfuel : cols T * rows T < (fuel : Int)) :
    ∃ tl br l, PosTy.tlbrOf items = .ok (tl, br) ∧ boxPositions T items fuel = .ok (.ok l) ∧
      (¬ LeavesOut T br ∨ (tl.1 ≠ br.1 ∧ tl.2 ≠ br.2) → PosTy.tlbrOf l = .ok (tl, br)) ∧
      (LeavesOut T br → tl.1 = br.1 → tl.2 ≠ br.2 → PosTy.tlbrOf l = .ok (tl, (br.1, br.2 - 1))) ∧
      (LeavesOut T br → tl.1 ≠ br.1 → tl.2 = br.2 → PosTy.tlbrOf l = .ok (tl, (br.1 - 1, br.2))) ∧
      (LeavesOut T br → tl = br → PosTy.tlbrOf l = .error .empty) := by
  obtain ⟨tl, br, l, h, e, _, hl, _⟩ := C154_box T hT items hne hi fuel hfuel
  obtain ⟨tl', br', h', hm, _⟩ := (C14_tlbr_of items).2 hne
  rw [h] at h'
  simp only [Except.ok.injEq, Prod.mk.injEq] at h'
  obtain ⟨rfl, rfl⟩ := h'
  obtain ⟨a, ha⟩ := List.exists_mem_of_ne_nil items hne
  have := hm a ha
  clear hm
  have hl' : ∀ p, p ∈ l ↔ (tl.1 ≤ p.1 ∧ p.1 ≤ br.1 ∧ tl.2 ≤ p.2 ∧ p.2 ≤ br.2) ∧ ¬ (LeavesOut T br ∧ p.1 = br.1 ∧ p.2 = br.2) := fun p => by
    rw [hl, (C16_inside _ _ _).1, Prod.ext_iff]
    refine and_congr_left fun _ => ?_
    omega
  refine ⟨tl, br, l, h, e, fun hc => ?_, fun hc h1 h2 => ?_, fun hc h1 h2 => ?_, fun hc h1 => ?_⟩
  · refine tlbrOf_unique (fun p hp => ((hl' p).1 hp).1) ⟨(tl.1, tl.2), (hl' _).2 ⟨by omega, fun hq => ?_⟩, rfl⟩ ⟨(tl.1, tl.2), (hl' _).2 ⟨by omega, fun hq => ?_⟩, rfl⟩
      ⟨(br.1, tl.2), (hl' _).2 ⟨by omega, fun hq => ?_⟩, rfl⟩ ⟨(tl.1, br.2), (hl' _).2 ⟨by omega, fun hq => ?_⟩, rfl⟩ <;>
    · rcases hc with hc | hc
      · exact hc hq.1
      · obtain ⟨_, q1, q2⟩ := hq
        simp only at q1 q2
        omega
  · refine tlbrOf_unique (fun p hp => ?_) ⟨(tl.1, tl.2), (hl' _).2 ⟨by omega, fun hq => ?_⟩, rfl⟩ ⟨(tl.1, tl.2), (hl' _).2 ⟨by omega, fun hq => ?_⟩, rfl⟩
      ⟨(br.1, tl.2), (hl' _).2 ⟨by omega, fun hq => ?_⟩, rfl⟩ ⟨(tl.1, br.2 - 1), (hl' _).2 ⟨by simp only; omega, fun hq => ?_⟩, rfl⟩
    · obtain ⟨q1, q2⟩ := (hl' p).1 hp
      have : ¬ (p.1 = br.1 ∧ p.2 = br.2) := fun hq => q2 ⟨hc, hq⟩
      simp only
      omega
    all_goals
      obtain ⟨_, q1, q2⟩ := hq
      simp only at q1 q2
      omega
  · refine tlbrOf_unique (fun p hp => ?_) ⟨(tl.1, tl.2), (hl' _).2 ⟨by omega, fun hq => ?_⟩, rfl⟩ ⟨(tl.1, tl.2), (hl' _).2 ⟨by omega, fun hq => ?_⟩, rfl⟩
      ⟨(br.1 - 1, tl.2), (hl' _).2 ⟨by simp only; omega, fun hq => ?_⟩, rfl⟩ ⟨(tl.1, br.2), (hl' _).2 ⟨by omega, fun hq => ?_⟩, rfl⟩
    · obtain ⟨q1, q2⟩ := (hl' p).1 hp
      have : ¬ (p.1 = br.1 ∧ p.2 = br.2) := fun hq => q2 ⟨hc, hq⟩
      simp only
      omega
    all_goals
      obtain ⟨_, q1, q2⟩ := hq
      simp only at q1 q2
      omega
  · have : l = [] := List.eq_nil_iff_forall_not_mem.2 fun p hp => by
      obtain ⟨q1, q2⟩ := (hl' p).1 hp
      have : ¬ (p.1 = br.1 ∧ p.2 = br.2) := fun hq => q2 ⟨hc, hq⟩
      subst h1
      omega
    rw [this]
    rfl

/-- In a grid of 4 by 3, all of the box of three positions; and a box that reaches the last line, without its corner, which is one of the items. -/
example : boxPositions (PosTy.pos 3 2) [(2, 0), (1, 1), (1, 0)] 13 = .ok (.ok [(1, 0), (2, 0), (1, 1), (2, 1)]) ∧
    boxPositions (PosTy.pos 3 2) [(1, 1), (2, 2)] 13 = .ok (.ok [(1, 1), (2, 1), (1, 2)]) ∧ boxPositions (PosTy.pos 3 2) [(2, 2)] 13 = .ok (.ok []) := by decide +kernel

example : ∃ tl br l, PosTy.tlbrOf [(1, 1), (2, 2)] = .ok (tl, br) ∧ boxPositions (PosTy.pos 3 2) [(1, 1), (2, 2)] 13 = .ok (.ok l) ∧ l.Pairwise ReadsBefore ∧
    (∀ p, p ∈ l ↔ PosTy.inside p tl br = true ∧ ¬ (LeavesOut (PosTy.pos 3 2) br ∧ p = br)) ∧ (∀ p ∈ [(1, 1), (2, 2)], p ∈ l ∨ LeavesOut (PosTy.pos 3 2) br ∧ p = br) :=
  C154_box (PosTy.pos 3 2) (by decide) _ (by decide) (by unfold InGrid; decide) 13 (by decide)

end Sqrid
