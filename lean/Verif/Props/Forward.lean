import Verif.Spec.Forward
import Verif.Props.Adapters
import Verif.Props.PosIter
import Verif.Props.Dir
import Verif.Props.Gridbool
import Verif.Props.SearchLaws
import Verif.Props.Exhausted
/-!
# C130: std's methods on the iterators that go forward only
-/

namespace Sqrid

open Spec

attribute [local instance] debug64

section
variable {σ α β : Type} {next : σ → Out (Option α × σ)} {R : σ → List α → Prop}

theorem advanceOut_eq (hf : ∀ s l, R s l → ∃ s', next s = .ok (l.head?, s') ∧ R s' l.tail) (n : Nat) : ∀ {s l}, R s l →
    ∃ s', advanceOut next n s = .ok (decide (n ≤ l.length), s') ∧ R s' (l.drop n) := by
  induction n with
  | zero => intro s l h; exact ⟨s, by simp [advanceOut], h⟩
  | succ n ih =>
    intro s l h
    obtain ⟨s', h1, h2⟩ := hf s l h
    unfold advanceOut
    rw [h1, Out.ok_bind]
    cases l with
    | nil => exact ⟨s', by simp, h2⟩
    | cons a l =>
      obtain ⟨s'', i1, i2⟩ := ih (s := s') (l := l) h2
      exact ⟨s'', by simpa using i1, i2⟩

theorem nthOut_eq (hf : ∀ s l, R s l → ∃ s', next s = .ok (l.head?, s') ∧ R s' l.tail) (n : Nat) {s l} (h : R s l) :
    ∃ s', nthOut next n s = .ok (l[n]?, s') ∧ R s' (l.drop (n + 1)) := by
  obtain ⟨s', h1, h2⟩ := advanceOut_eq hf n h
  unfold nthOut
  rw [h1, Out.ok_bind]
  by_cases hle : n ≤ l.length
  · simp only [hle, decide_true, if_true]
    obtain ⟨s'', i1, i2⟩ := hf _ _ h2
    rw [List.tail_drop] at i2
    exact ⟨s'', by rw [i1, List.head?_drop], i2⟩
  · simp only [hle, decide_false, Bool.false_eq_true, if_false]
    rw [List.drop_of_length_le (by omega)] at h2 ⊢
    exact ⟨s', by rw [List.getElem?_eq_none (by omega)], h2⟩

theorem findOut_eq (hf : ∀ s l, R s l → ∃ s', next s = .ok (l.head?, s') ∧ R s' l.tail) (f : α → Bool) (fuel : Nat) : ∀ {s l}, R s l → l.length < fuel →
    ∃ s', findOut next (fun a => .ok (f a)) fuel s = .ok (l.find? f, s') ∧ R s' (l.dropWhile fun a => !f a).tail := by
  induction fuel with
  | zero => intro s l _ h; omega
  | succ fuel ih =>
    intro s l h hl
    obtain ⟨s', h1, h2⟩ := hf s l h
    unfold findOut
    rw [h1, Out.ok_bind]
    cases l with
    | nil => exact ⟨s', rfl, h2⟩
    | cons a l =>
      simp only [List.head?_cons, Out.ok_bind]
      cases hfa : f a with
      | true => exact ⟨s', by simp [hfa], by simpa [hfa] using h2⟩
      | false =>
        obtain ⟨s'', i1, i2⟩ := ih (s := s') (l := l) h2 (by simp only [List.length_cons] at hl; omega)
        refine ⟨s'', ?_, by simpa [hfa] using i2⟩
        simp only [Bool.false_eq_true, if_false, i1, List.find?_cons, hfa]

theorem foldOut_eq (hf : ∀ s l, R s l → ∃ s', next s = .ok (l.head?, s') ∧ R s' l.tail) (f : β → α → β) (fuel : Nat) : ∀ {b s l}, R s l → l.length < fuel →
    foldOut next f fuel b s = .ok (l.foldl f b) := by
  induction fuel with
  | zero => intro b s l _ h; omega
  | succ fuel ih =>
    intro b s l h hl
    obtain ⟨s', h1, h2⟩ := hf s l h
    unfold foldOut
    rw [h1, Out.ok_bind]
    cases l with
    | nil => rfl
    | cons a l => exact ih h2 (by simp only [List.length_cons] at hl; omega)

theorem runForward_eq (hf : ∀ s l, R s l → ∃ s', next s = .ok (l.head?, s') ∧ R s' l.tail) (cs : List (ForwardCall α)) (fuel : Nat) : ∀ {s l}, R s l →
    l.length < fuel → ∃ s', runForward next fuel cs s = .ok ((forwards cs l).1, s') ∧ R s' (forwards cs l).2 ∧ (forwards cs l).2.length ≤ l.length := by
  induction cs with
  | nil => intro s l h _; exact ⟨s, rfl, h, Nat.le_refl _⟩
  | cons c cs ih =>
    intro s l h hl
    have key : ∃ s', c.run next fuel s = .ok ((forward c l).1, s') ∧ R s' (forward c l).2 ∧ (forward c l).2.length ≤ l.length := by
      cases c with
      | next =>
        obtain ⟨s', h1, h2⟩ := hf s l h
        exact ⟨s', h1, h2, by simp [forward]⟩
      | nth n =>
        obtain ⟨s', h1, h2⟩ := nthOut_eq hf n h
        exact ⟨s', h1, h2, by simp [forward]⟩
      | find f =>
        obtain ⟨s', h1, h2⟩ := findOut_eq hf f fuel h hl
        refine ⟨s', h1, h2, ?_⟩
        have := (List.dropWhile_sublist (l := l) fun a => !f a).length_le
        simp only [forward, List.length_tail]
        omega
    obtain ⟨s', h1, h2, h3⟩ := key
    obtain ⟨s'', i1, i2, i3⟩ := ih h2 (by omega)
    refine ⟨s'', ?_, i2, by simp only [forwards]; omega⟩
    unfold runForward
    rw [h1, Out.ok_bind]
    simp only
    rw [i1]
    rfl

/-- An iterator that answers `next` as the items of a list do hands them out. -/
theorem handsOut_of_rel (hf : ∀ s l, R s l → ∃ s', next s = .ok (l.head?, s') ∧ R s' l.tail) {s : σ} {l : List α} (h : R s l) : HandsOut next s l := by
  intro calls fuel hl
  obtain ⟨it, h1, h2, h3⟩ := runForward_eq hf calls fuel h hl
  refine ⟨it, h1, collectWith_eq next R hf _ it h2 fuel (by omega), ?_, ?_, fun f b => foldOut_eq hf f fuel h2 (by omega)⟩
  · rw [countOut, foldOut_eq hf _ fuel h2 (by omega)]
    generalize (forwards calls l).2 = k
    have : ∀ (k : List α) (n : Nat), k.foldl (fun n _ => n + 1) n = n + k.length := by
      intro k
      induction k with
      | nil => intro n; rfl
      | cons a k ih => intro n; rw [List.foldl_cons, ih, List.length_cons]; omega
    rw [this, Nat.zero_add]
  · rw [lastOut, foldOut_eq hf _ fuel h2 (by omega)]
    generalize (forwards calls l).2 = k
    rcases List.eq_nil_or_concat k with rfl | ⟨k, a, rfl⟩
    · rfl
    · simp

/-- An iterator that does not start again after its end hands out what `collect` returns. -/
theorem handsOut_of_collect (hfused : ∀ s s', next s = .ok (none, s') → ∃ s'', next s' = .ok (none, s'')) {fuel : Nat} {s : σ} {l : List α}
    (h : collectWith next fuel s = .ok l) : HandsOut next s l := by
  refine handsOut_of_rel (R := fun s l => ∃ fuel, collectWith next fuel s = .ok l) ?_ ⟨fuel, h⟩
  rintro s l ⟨fuel, h⟩
  cases fuel with
  | zero => simp [collectWith] at h
  | succ k =>
    simp only [collectWith] at h
    obtain ⟨⟨v, s'⟩, h1, h2⟩ := Out.bind_eq_ok.1 h
    cases v with
    | none =>
      injection h2 with h2
      subst h2
      obtain ⟨s'', h''⟩ := hfused s s' h1
      exact ⟨s', h1, 1, by simp [collectWith, h'']⟩
    | some a =>
      obtain ⟨r, h3, h4⟩ := Out.bind_eq_ok.1 h2
      injection h4 with h4
      subst h4
      exact ⟨s', h1, k, h3⟩

/-- `map` over such an iterator. -/
theorem mapNext_rel (hf : ∀ s l, R s l → ∃ s', next s = .ok (l.head?, s') ∧ R s' l.tail) (f : α → Out β) (s : σ) (l' : List β)
    (h : ∃ l, R s l ∧ l.mapM f = .ok l') : ∃ s', mapNext f next s = .ok (l'.head?, s') ∧ ∃ l, R s' l ∧ l.mapM f = .ok l'.tail := by
  obtain ⟨l, h1, h2⟩ := h
  obtain ⟨s', h3, h4⟩ := hf s l h1
  unfold mapNext
  rw [h3, Out.ok_bind]
  cases l with
  | nil =>
    rw [List.mapM_nil] at h2
    injection h2 with h2
    subst h2
    exact ⟨s', rfl, [], h4, rfl⟩
  | cons a l =>
    rw [List.mapM_cons] at h2
    obtain ⟨b, h5, h6⟩ := Out.bind_eq_ok.1 h2
    obtain ⟨bs, h7, h8⟩ := Out.bind_eq_ok.1 h6
    injection h8 with h8
    subst h8
    refine ⟨s', ?_, l, h4, h7⟩
    simp only [List.head?_cons, h5, Out.ok_bind]

end

/-- `filter` over such an iterator. -/
theorem filterNext_rel {σ : Type} {next : σ → Out (Option P2 × σ)} {R : σ → List P2 → Prop}
    (hf : ∀ s l, R s l → ∃ s', next s = .ok (l.head?, s') ∧ R s' l.tail) (f : P2 → Out Bool) (fuel : Nat) : ∀ (s : σ) (l' : List P2),
    (∃ l, R s l ∧ Gridbool.filterOut f l = .ok l' ∧ l.length < fuel) →
    ∃ s', findOut next f fuel s = .ok (l'.head?, s') ∧ ∃ l, R s' l ∧ Gridbool.filterOut f l = .ok l'.tail ∧ l.length < fuel := by
  induction fuel with
  | zero => rintro s l' ⟨l, -, -, h⟩; omega
  | succ fuel ih =>
    rintro s l' ⟨l, h1, h2, hl⟩
    obtain ⟨s', h3, h4⟩ := hf s l h1
    unfold findOut
    rw [h3, Out.ok_bind]
    cases l with
    | nil =>
      injection h2 with h2
      subst h2
      exact ⟨s', rfl, [], h4, rfl, hl⟩
    | cons a l =>
      simp only [Gridbool.filterOut] at h2
      obtain ⟨b, h5, h6⟩ := Out.bind_eq_ok.1 h2
      obtain ⟨bs, h7, h8⟩ := Out.bind_eq_ok.1 h6
      injection h8 with h8
      simp only [List.length_cons] at hl
      simp only [List.head?_cons, h5, Out.ok_bind]
      cases b with
      | true =>
        simp only [if_true] at h8
        subst h8
        exact ⟨s', rfl, l, h4, h7, by omega⟩
      | false =>
        simp only [Bool.false_eq_true, if_false] at h8 ⊢
        subst h8
        obtain ⟨s'', i1, k, i2, i3, i4⟩ := ih s' bs ⟨l, h4, h7, by omega⟩
        exact ⟨s'', i1, k, i2, i3, by omega⟩

/-! ## C130 -/

/-- C130. An iterator over a rectangle hands out what collecting it gives; `C12` says which positions these are. -/
theorem C130_range (T : PosTy) (hT : T.WF) (tl br : Int × Int) (h1 : InGrid T tl) (h2 : InGrid T br) (hx : tl.1 ≤ br.1) (hy : tl.2 ≤ br.2) :
    HandsOut (liftNext (PosIterRange.next T)) (PosIterRange.new tl br)
      (if br.2 = T.Y.MAX ∧ br.1 < T.X.MAX then (rectRows tl br).dropLast else rectRows tl br) := by
  by_cases hc : br.2 = T.Y.MAX ∧ br.1 < T.X.MAX
  · obtain ⟨l, h3, h4⟩ := C12_iter_range_lost T hT tl br h1 h2 hx hy hc _ (Nat.le_refl _)
    rw [if_pos hc, h4, List.dropLast_concat]
    exact handsOut_of_collect (PosIterRange.fused T) h3
  · rw [if_neg hc]
    have h2' : (T.X.MIN ≤ br.1 ∧ br.1 ≤ T.X.MAX) ∧ (T.Y.MIN ≤ br.2 ∧ br.2 ≤ T.Y.MAX) := h2
    exact handsOut_of_collect (PosIterRange.fused T) (C12_iter_range_partial T hT tl br h1 h2 hx hy (by omega) _ (Nat.lt_succ_self _))

/-- C130. An iterator over a column or a line hands out its positions in order. -/
theorem C130_lines [Target] (T : PosTy) (hT : T.IsGrid) (c : Int) :
    HandsOut (liftNext (PosIterInX.next T)) (PosIterInX.new T c) ((intsFromTo T.Y.MIN T.Y.MAX).map fun y => (c, y)) ∧
    HandsOut (liftNext (PosIterInY.next T)) (PosIterInY.new T c) ((intsFromTo T.X.MIN T.X.MAX).map fun x => (x, c)) :=
  ⟨handsOut_of_collect (PosIterInX.fused T) (C13_iter_in_x_partial T hT c _ (Nat.lt_succ_self _)),
    handsOut_of_collect (PosIterInY.fused T) (C13_iter_in_y_partial T hT c _ (Nat.lt_succ_self _))⟩

/-- C130. The same in any position type, also one that does not start at 0 (see `C13_iter_in_x_exact` for the items). -/
theorem C130_lines_any (T : PosTy) (hT : T.WF) (c : Int) :
    HandsOut (liftNext (PosIterInX.next T)) (PosIterInX.new T c) ((c, 0) :: if T.Y.Valid 1 then (intsFromTo 1 T.Y.MAX).map fun y => (c, y) else []) ∧
    HandsOut (liftNext (PosIterInY.next T)) (PosIterInY.new T c) ((0, c) :: if T.X.Valid 1 then (intsFromTo 1 T.X.MAX).map fun x => (x, c) else []) :=
  ⟨handsOut_of_collect (PosIterInX.fused T) (C13_iter_in_x_exact T hT c _ (Nat.lt_succ_self _)),
    handsOut_of_collect (PosIterInY.fused T) (C13_iter_in_y_exact T hT c _ (Nat.lt_succ_self _))⟩

/-- C130. `Dir::iter` hands out the directions clockwise from north. -/
theorem C130_dirs (D : Bool) : HandsOut (DirIter.next D) DirIter.default (clockwise D) :=
  handsOut_of_collect (DirIter.fused D) (C26_iter D _ (Nat.lt_succ_self _))

theorem PosIter.rel_default {T : PosTy} (hT : T.WF) : ∃ R : PosIter → List (Int × Int) → Prop,
    (∀ s l, R s l → ∃ s', liftNext (PosIter.next T true) s = .ok (l.head?, s') ∧ R s' l.tail) ∧ R (PosIter.default T) (allPositions T true) :=
  ⟨(T.machine hT true).R, fun s l h => ⟨(PosIter.next T true s).2,
    congrArg Out.ok (Prod.ext ((T.machine hT true).R_next s l h).1 rfl), ((T.machine hT true).R_next s l h).2⟩,
    PosIter.R_default hT true⟩

/-- C130. The iterators of a `Gridbool` with enough words hand out what collecting them gives; `C38` says which items these are. `bound` is the number of calls of the
inner `next` that one call of the filter may make; in Rust there is no bound. -/
theorem C130_gridbool [Target] (T : PosTy) (hT : T.IsGrid) (gb : List (BitVec 32)) (hW : cols T * rows T ≤ 32 * (gb.length : Int)) (bound : Nat)
    (hb : cols T * rows T < (bound : Int)) :
    ∃ l lp lt lf, Gridbool.iter T gb = .ok l ∧ Gridbool.iterPos T gb = .ok lp ∧ Gridbool.iterT T gb = .ok lt ∧ Gridbool.iterF T gb = .ok lf ∧
      HandsOut (Gridbool.iterNext T gb) (PosIter.default T) l ∧ HandsOut (Gridbool.iterPosNext T gb) (PosIter.default T) lp ∧
      HandsOut (Gridbool.iterTNext T gb bound) (PosIter.default T) lt ∧ HandsOut (Gridbool.iterFNext T gb bound) (PosIter.default T) lf := by
  obtain ⟨l, h1, -, h2⟩ := C38_iter T hT gb hW
  obtain ⟨lt, lf, h3, h4, -⟩ := C38_iter_t_f T hT gb hW
  obtain ⟨R, hf, hR⟩ := PosIter.rel_default hT.wf
  have hlen : (allPositions T true).length < bound := by
    have := (C09_iter_each_once T hT.wf true).2.2
    omega
  refine ⟨l, _, lt, lf, h1, h2, h3, h4, ?_, ?_, ?_, ?_⟩
  · rw [Gridbool.iter, PosTy.toList_eq hT.wf, Out.ok_bind] at h1
    exact handsOut_of_rel (mapNext_rel hf _) ⟨_, hR, h1⟩
  · rw [Gridbool.iterPos, PosTy.toList_eq hT.wf, Out.ok_bind] at h2
    exact handsOut_of_rel (mapNext_rel hf _) ⟨_, hR, h2⟩
  · rw [Gridbool.iterT, PosTy.toList_eq hT.wf, Out.ok_bind] at h3
    exact handsOut_of_rel (filterNext_rel hf _ bound) ⟨_, hR, h3, hlen⟩
  · rw [Gridbool.iterF, PosTy.toList_eq hT.wf, Out.ok_bind] at h4
    exact handsOut_of_rel (filterNext_rel hf _ bound) ⟨_, hR, h4, hlen⟩

/-- C130. `Grid::iter_pos` hands out what collecting it gives, see `C29`. -/
theorem C130_grid [Target] {α : Type} (T : PosTy) (hT : T.IsGrid) (g : List α) (hg : (g.length : Int) = cols T * rows T) :
    ∃ l, Grid.iterPos T g = .ok l ∧ HandsOut (Grid.iterPosNext T g) (PosIter.default T) l := by
  obtain ⟨l, h1, -⟩ := C29_iter_pos T hT g hg
  obtain ⟨R, hf, hR⟩ := PosIter.rel_default hT.wf
  refine ⟨l, h1, ?_⟩
  rw [Grid.iterPos, PosTy.toList_eq hT.wf, Out.ok_bind] at h1
  exact handsOut_of_rel (mapNext_rel hf _) ⟨_, hR, h1⟩

/-- C130. The breadth-first traversal hands out its layers; `C49` says which they are. -/
theorem C130_bf [Target] (T : PosTy) (hT : T.IsGrid) (S : SetImpl) (hS : Bf.IsIter T (Bf.iterAll S)) (D : Bool) (go : Int × Int → Dir → Option (Int × Int))
    (hgo : StaysIn T go) (orig : Int × Int) (ho : InGrid T orig) (fuel : Nat) (hfuel : cols T * rows T < (fuel : Int)) :
    ∃ it layers, BfIter.new S D go orig = .ok it ∧ Bf.iterAll S D go orig fuel = .ok layers ∧ HandsOut (BfIter.next S D go) it layers := by
  obtain ⟨ls, h1, -⟩ := C49_layers_exact T hT _ hS D go hgo orig ho fuel hfuel
  obtain ⟨it, h2, h3⟩ := Out.bind_eq_ok.1 h1
  exact ⟨it, ls, h2, h1, handsOut_of_collect (fun s s' h => ⟨s', C86_bf_fused S D go s s' h⟩) h3⟩

theorem collect_of_yields {σ α : Type} {next : σ → Out (Option α × σ)} (n : Nat) : ∀ {s t : σ} {l : List α}, yields next n s = .ok (l, t) → l.length < n →
    collectWith next n s = .ok l := by
  induction n with
  | zero => intro s t l _ h; omega
  | succ n ih =>
    intro s t l h hl
    simp only [yields] at h
    obtain ⟨⟨v, s'⟩, h1, h2⟩ := Out.bind_eq_ok.1 h
    simp only [collectWith, h1, Out.ok_bind]
    cases v with
    | none =>
      injection h2 with h2
      injection h2 with h2 _
      subst h2
      rfl
    | some a =>
      obtain ⟨⟨r, t'⟩, h3, h4⟩ := Out.bind_eq_ok.1 h2
      injection h4 with h4
      injection h4 with h4 _
      subst h4
      simp only [List.length_cons] at hl
      simp only [ih h3 (by omega), Out.ok_bind]

/-- C130. The A* iterator hands out finitely many items, and they cover exactly the reachable positions. -/
theorem C130_astar [Target] (T : PosTy) (hT : T.Searchable) (C : MapImpl Int) (hC : C.Is T 0) (D : Bool) (go : Int × Int → Dir → Option (Int × Int))
    (hgo : StaysIn T go) (orig dest : Int × Int) (ho : InGrid T orig) (hd : InGrid T dest) :
    ∃ it items, AstarIter.new C orig = .ok it ∧ HandsOut (AstarIter.next T C D go dest) it items ∧
      (∀ q, q ∈ items.map Prod.fst ↔ Reachable go D orig q) ∧ (items.length : Int) ≤ 2 * (cols T * rows T) * (cols T * rows T) + 1 := by
  obtain ⟨items, st, h1, h2, h3, h4⟩ := C129_astar T hT C hC D go hgo orig dest ho hd ((2 * (cols T * rows T) * (cols T * rows T) + 1).toNat + 1)
  obtain ⟨it, h5, h6⟩ := Out.bind_eq_ok.1 h1
  have hlt : items.length < (2 * (cols T * rows T) * (cols T * rows T) + 1).toNat + 1 := by omega
  refine ⟨it, items, h5, handsOut_of_collect (fun s s' h => ⟨s', C86_astar_fused T C D go dest s s' h⟩) (collect_of_yields _ h6 hlt), fun q => ⟨?_, fun hq => ?_⟩, h3⟩
  · intro hq
    obtain ⟨m, hm, rfl⟩ := List.mem_map.1 hq
    exact h2 m hm
  · exact (h4 hlt q (hq.elim fun _ h => isPath_inGrid hgo ho h)).1 hq

/-- C130. The uniform-cost iterator hands out finitely many items, and they cover exactly the positions that can be reached at a cost below the largest `usize`. -/
theorem C130_ucs [Target] (T : PosTy) (hT : T.Searchable) (C : MapImpl Int) (hC : C.Is T 0) (D : Bool) (go : Int × Int → Dir → Option ((Int × Int) × Int))
    (hgo : StaysIn T (dropCost go)) (hc : UsizeCosts go) (orig : Int × Int) (ho : InGrid T orig) (hno : NoOverflow go D orig) :
    ∃ it items, UcsIter.new C orig = .ok it ∧ HandsOut (UcsIter.next C D go) it items ∧
      (∀ q, q ∈ items.map Prod.fst ↔ ∃ k, IsMinCost go D orig q k ∧ k < limit) ∧ (items.length : Int) ≤ 8 * (cols T * rows T) + 1 := by
  obtain ⟨items, st, h1, h2, h3, h4⟩ := C129_ucs T hT C hC D go hgo hc orig ho hno ((8 * (cols T * rows T) + 1).toNat + 1)
  obtain ⟨it, h5, h6⟩ := Out.bind_eq_ok.1 h1
  have hlt : items.length < (8 * (cols T * rows T) + 1).toNat + 1 := by omega
  refine ⟨it, items, h5, handsOut_of_collect (fun s s' h => ⟨s', C86_ucs_fused C D go s s' h⟩) (collect_of_yields _ h6 hlt), fun q => ⟨?_, ?_⟩, h3⟩
  · intro hq
    obtain ⟨m, hm, rfl⟩ := List.mem_map.1 hq
    exact h2 m hm
  · rintro ⟨k, hk, hlim⟩
    have hq : InGrid T q := by
      obtain ⟨ds, hp⟩ := hk.1
      exact cost_inGrid hgo ho _ _ _ hp
    exact ((h4 hlt q hq).1 k hk hlim).1

example : runForward (liftNext (PosIterRange.next (PosTy.pos 3 3))) 20 [.nth 1, .find (fun p => p.1 == 1), .next, .nth 9, .next]
    (PosIterRange.new (1, 0) (2, 2)) = .ok ([some (2, 0), some (1, 1), some (2, 1), none, none], ⟨(1, 0), (2, 2), none⟩) := by decide +kernel
example : runForward (DirIter.next false) 9 [.nth 2, .find (fun d => d == .N), .next] DirIter.default = .ok ([some .S, none, none], none) := by decide +kernel
example : runForward (Gridbool.iterTNext (PosTy.pos 2 1) [0x14000000#32] 7) 7 [.nth 1, .next] (PosIter.default (PosTy.pos 2 1)) =
    .ok ([some (2, 1), none], ⟨none, none⟩) := by decide +kernel
example : Bf.IsIter (PosTy.pos 3 3) (Bf.iterAll (.gridbool (PosTy.pos 3 3) 1)) := .inl ⟨1, by decide, rfl⟩
example : (PosTy.pos 3 2).Searchable ∧ (MapImpl.btree (0 : Int)).Is (PosTy.pos 3 2) 0 ∧ StaysIn (PosTy.pos 3 2) (aroundWalls (PosTy.pos 3 2) [(1, 1)]) :=
  ⟨PosTy.pos_searchable (by decide) (by decide) (.inl rfl), .inr (.inr rfl), (aroundWalls_adjacent _ _).staysIn⟩

end Sqrid
