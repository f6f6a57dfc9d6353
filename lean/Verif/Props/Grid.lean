import Verif.Proofs.Grid
import Verif.Spec.Grid
import Mathlib.Data.List.Induction
/-!
# Properties of grids: C27 – C36

A grid value is the list of its SIZE items. `(g.length : Int) = cols T * rows T` says that SIZE is the number of
positions, as the documentation requires.
-/

namespace Sqrid

-- Statements that do not mention a target are about a debug build for a 64-bit machine.
attribute [local instance] debug64

open Spec

namespace Grid

theorem lastWrite_concat (ws : List (P2 × α)) (w : P2 × α) (p : P2) :
    lastWrite (ws ++ [w]) p = if w.1 = p then some w.2 else lastWrite ws p := by
  simp only [lastWrite, List.reverse_append, List.reverse_cons, List.reverse_nil, List.nil_append, List.singleton_append,
    List.find?_cons]
  by_cases h : w.1 = p <;> simp [h]

theorem writes_rep [Target] {T : PosTy} (hT : T.IsGrid) (ws : List (P2 × α)) (hws : ∀ w ∈ ws, InGrid T w.1) {g : List α}
    {f : P2 → α} (h : Rep T g f) :
    ∃ g', ws.foldlM (fun g w => Grid.set T g w.1 w.2) g = .ok g' ∧
      Rep T g' (fun p => (lastWrite ws p).getD (f p)) := by
  obtain ⟨g', h1, h2⟩ := foldlM_rel (Rep T) (fun g (w : P2 × α) => Grid.set T g w.1 w.2) (fun f w => upd f w.1 w.2) ws
    (fun g f w hw hR => hR.set' hT (hws w hw) w.2) g f h
  refine ⟨g', h1, h2.1, fun p hp => ?_⟩
  rw [h2.2 p hp]
  congr 1
  clear h1 h2 hws h
  induction ws using List.reverseRecOn with
  | nil => rfl
  | append_singleton ws w ih =>
    simp only at ih ⊢
    rw [List.foldl_append, List.foldl_cons, List.foldl_nil, lastWrite_concat]
    by_cases e : w.1 = p
    · subst e; simp
    · rw [upd_other _ _ (fun h => e h.symm), if_neg e, ih]

theorem get_mem [Target] {g : List α} {T : PosTy} {p : P2} {v : α} (h : Grid.get T g p = .ok v) : v ∈ g := by
  simp only [Grid.get] at h
  revert h
  cases T.toUsize p <;> simp only [Out.ok_bind, Out.panic_bind, Out.ub_bind, Out.timeout_bind, reduceCtorEq,
    false_implies]
  intro h
  rw [getUnchecked] at h
  revert h
  split
  · rename_i hv
    intro h; cases h
    exact List.mem_of_getElem? hv
  · intro h; cases h

end Grid

/-! ## C27 -/

/-- C27. On a grid with one item per position, reading a position never leaves the array: it returns one of the items. -/
theorem C27_get_safe [Target] (T : PosTy) (hT : T.IsGrid) (g : List α) (hg : (g.length : Int) = cols T * rows T) (p : Int × Int)
    (hp : InGrid T p) : ∃ v, Grid.get T g p = .ok v ∧ v ∈ g := by
  obtain ⟨f, hf⟩ := Grid.exists_rep hT g ((Grid.length_iff hT g).1 hg)
  exact ⟨f p, hf.get hT hp, Grid.get_mem (hf.get hT hp)⟩

/-- C27. After any sequence of writes (none of which leaves the array), reading `p` gives the last value written at `p`, or
the initial value. -/
theorem C27_write_history [Target] (T : PosTy) (hT : T.IsGrid) (g : List α) (hg : (g.length : Int) = cols T * rows T)
    (ws : List ((Int × Int) × α)) (hws : ∀ w ∈ ws, InGrid T w.1) :
    ∃ g', ws.foldlM (fun g w => Grid.set T g w.1 w.2) g = .ok g' ∧ g'.length = g.length ∧
      ∀ p, InGrid T p → Grid.get T g' p = match lastWrite ws p with
        | some v => .ok v
        | none => Grid.get T g p := by
  have hl := (Grid.length_iff hT g).1 hg
  obtain ⟨f, hf⟩ := Grid.exists_rep hT g hl
  obtain ⟨g', h1, h2⟩ := Grid.writes_rep hT ws hws hf
  refine ⟨g', h1, by rw [h2.1, hl], fun p hp => ?_⟩
  rw [h2.get hT hp, hf.get hT hp]
  cases lastWrite ws p <;> rfl

/-- C27. `Grid::repeat` and `Grid::default` give the same value at every position. -/
theorem C27_repeat [Target] (T : PosTy) (hT : T.IsGrid) (SIZE : Nat) (hS : (SIZE : Int) = cols T * rows T) (v : α) (p : Int × Int)
    (hp : InGrid T p) :
    Grid.get T (Grid.repeat SIZE v) p = .ok v ∧ Grid.get T (Grid.default SIZE v) p = .ok v := by
  have hd : Grid.default SIZE v = Grid.repeat SIZE v := by simp [Grid.default, Grid.repeat]
  rw [hd, and_self]
  exact (Grid.rep_repeat hT SIZE (by rw [← hT.cells_eq] at hS; omega) v).get hT hp

/-- Non-vacuity: a 3x2 grid written three times, once twice at the same position. -/
example : (PosTy.pos 2 1).IsGrid ∧ (([1, 2, 3, 4, 5, 6] : List Nat).length : Int) = cols (PosTy.pos 2 1) * rows (PosTy.pos 2 1) ∧
    (∀ w ∈ ([((2, 1), 9), ((0, 0), 7), ((2, 1), 8)] : List ((Int × Int) × Nat)), InGrid (PosTy.pos 2 1) w.1) ∧
    ([((2, 1), 9), ((0, 0), 7), ((2, 1), 8)] : List ((Int × Int) × Nat)).foldlM
      (fun g w => Grid.set (PosTy.pos 2 1) g w.1 w.2) [1, 2, 3, 4, 5, 6] = .ok [7, 2, 3, 4, 5, 8] :=
  ⟨PosTy.pos_isGrid (by decide) (by decide) (.inl rfl), by decide, by unfold InGrid; decide, by decide⟩

/-! ## C28 -/

/-- What C28 claims: whatever SIZE is, every grid value that can be constructed is safe to read at every position. -/
def C28_claim [Target] : Prop :=
  ∀ (T : PosTy), T.IsGrid → ∀ (SIZE : Nat) (v : Nat) (p : Int × Int), InGrid T p →
    Grid.get T (Grid.repeat SIZE v) p ≠ .ub

/-- C28 does not hold: the `_ASSERTS` constant is never evaluated, so `Grid::<_, Pos<2, 1>, 3>::repeat(7)` compiles and reading
`(0, 1)` is an out-of-bounds `get_unchecked`. -/
theorem C28_refuted [Target] : ¬ C28_claim := fun h =>
  h (PosTy.pos 2 1) (PosTy.pos_isGrid (by decide_target) (by decide_target) (by fits_small)) 3 7 (0, 1) (by unfold InGrid; decide_target) (by decide_target)

/-- C28, exact: a grid of any SIZE is safe to read at `p` exactly when the rank of `p` in reading order is below SIZE. -/
theorem C28_get_exact [Target] (T : PosTy) (hT : T.IsGrid) (g : List α) (p : Int × Int) (hp : InGrid T p) :
    (rankRow T p < g.length → ∃ v, Grid.get T g p = .ok v) ∧ (¬ rankRow T p < g.length → Grid.get T g p = .ub) := by
  have hc := hT.idx_cast hp
  have hr : rankRow T p = (T.idx p : Int) := by
    rw [hc, rankRow, cols, hT.x0, hT.y0, Int.sub_zero, Int.sub_zero, Int.sub_zero]
  rw [hr, Grid.get_idx hT g hp, Grid.getUnchecked, Int.toNat_natCast]
  constructor
  · intro h
    rw [List.getElem?_eq_getElem (by omega)]
    exact ⟨_, rfl⟩
  · intro h
    rw [List.getElem?_eq_none (by omega)]

/-- C28, the part that holds: a grid is safe to read at every position exactly when SIZE is at least the number of positions. In
particular it is when SIZE is the documented WIDTH*HEIGHT. Missing: nothing forces SIZE to be that. -/
theorem C28_safe_iff_partial [Target] (T : PosTy) (hT : T.IsGrid) (SIZE : Nat) (v : α) :
    (∀ p, InGrid T p → Grid.get T (Grid.repeat SIZE v) p ≠ .ub) ↔ cols T * rows T ≤ SIZE := by
  have hlen : (Grid.repeat SIZE v).length = SIZE := by simp [Grid.repeat]
  have hxm := hT.xmax0; have hym := hT.ymax0
  constructor
  · intro h
    have hlast : InGrid T (T.X.MAX, T.Y.MAX) := by
      rw [PosTy.inGrid_iff, hT.valid_iff']; simp only; omega
    by_contra hc
    refine h _ hlast ((C28_get_exact T hT _ _ hlast).2 ?_)
    rw [hlen]
    have e : rankRow T (T.X.MAX, T.Y.MAX) = cols T * rows T - 1 := by
      simp only [rankRow, cols, rows, hT.x0, hT.y0]; ring
    omega
  · intro h p hp
    have h1 := hT.idx_lt hp
    have h2 := hT.idx_cast hp
    have hr : rankRow T p = (T.idx p : Int) := by
      rw [h2, rankRow, cols, hT.x0, hT.y0, Int.sub_zero, Int.sub_zero, Int.sub_zero]
    obtain ⟨v', hv⟩ := (C28_get_exact T hT (Grid.repeat SIZE v) p hp).1 (by
      rw [hlen, hr]; have := hT.cells_eq; omega)
    rw [hv]; simp

example : (PosTy.pos 2 1).IsGrid ∧ InGrid (PosTy.pos 2 1) (0, 1) ∧ ¬ rankRow (PosTy.pos 2 1) (0, 1) < ((Grid.repeat 3 7 : List Nat).length : Int) ∧
    cols (PosTy.pos 2 1) * rows (PosTy.pos 2 1) = 6 :=
  ⟨PosTy.pos_isGrid (by decide) (by decide) (.inl rfl), by unfold InGrid; decide, by decide, by decide⟩

/-! ## C29 -/

/-- C29. `iter_pos` visits the positions in reading order, together with what reading the grid there gives, and its values are those of
`iter`. -/
theorem C29_iter_pos [Target] (T : PosTy) (hT : T.IsGrid) (g : List α) (hg : (g.length : Int) = cols T * rows T) :
    ∃ l, Grid.iterPos T g = .ok l ∧ l.map Prod.fst = allPositions T true ∧ l.map Prod.snd = Grid.iter g ∧
      ∀ pv ∈ l, Grid.get T g pv.1 = .ok pv.2 := by
  have hl := (Grid.length_iff hT g).1 hg
  obtain ⟨f, hf⟩ := Grid.exists_rep hT g hl
  have hm : ∀ l : List P2, (∀ p ∈ l, T.Valid p) →
      l.mapM (fun p => do let v ← Grid.get T g p; (.ok (p, v) : Out (P2 × α))) = .ok (l.map fun p => (p, f p)) := by
    intro l hl
    induction l with
    | nil => rfl
    | cons p l ih =>
      rw [List.mapM_cons, hf.get hT (hl p (by simp)), Out.ok_bind, Out.ok_bind, ih (fun q hq => hl q (by simp [hq]))]
      rfl
  refine ⟨(allPositions T true).map fun p => (p, f p), ?_, ?_, ?_, ?_⟩
  · rw [Grid.iterPos, PosTy.toList_eq hT.wf, Out.ok_bind, hm _ (fun p hp => PosTy.mem_allPositions.1 hp)]
  · rw [List.map_map]; exact List.map_id _
  · rw [List.map_map, Grid.iter]
    apply List.ext_getElem?
    intro i
    by_cases hi : i < T.nx * T.ny
    · have e : (allPositions T true)[i]? = some (T.rowAt i) := by
        rw [← PosTy.seg_enumAt, seg]
        simp only [List.getElem?_map, List.getElem?_range hi, Option.map_some, Nat.zero_add]
        rfl
      rw [List.getElem?_map, e]
      have := hf.2 _ (PosTy.rowAt_valid hT.wf hi)
      rw [hT.idx_rowAt hi] at this
      rw [this]; rfl
    · rw [List.getElem?_eq_none (by rw [List.length_map, PosTy.allPositions_length]; omega),
        List.getElem?_eq_none (by omega)]
  · intro pv hpv
    simp only [List.mem_map] at hpv
    obtain ⟨p, hp, rfl⟩ := hpv
    exact hf.get hT (PosTy.mem_allPositions.1 hp)

/-- C29. `iter` yields the cells in reading order: the item of rank `rankRow p` is the one at `p`. -/
theorem C29_iter_order [Target] (T : PosTy) (hT : T.IsGrid) (g : List α) (hg : (g.length : Int) = cols T * rows T) (p : Int × Int)
    (hp : InGrid T p) : ∃ v, (Grid.iter g)[(rankRow T p).toNat]? = some v ∧ Grid.get T g p = .ok v := by
  have hl := (Grid.length_iff hT g).1 hg
  obtain ⟨f, hf⟩ := Grid.exists_rep hT g hl
  refine ⟨f p, ?_, hf.get hT hp⟩
  have hr : rankRow T p = (T.idx p : Int) := by
    rw [hT.idx_cast hp, rankRow, cols, hT.x0, hT.y0, Int.sub_zero, Int.sub_zero, Int.sub_zero]
  rw [hr, Int.toNat_natCast, Grid.iter]
  exact hf.2 p hp

theorem Grid.fromIterLoop_eq (n : Nat) (items : List α) :
    Grid.fromIterLoop n items = if n ≤ items.length then .ok (items.take n, items.drop n) else .panic := by
  induction n generalizing items with
  | zero => simp [Grid.fromIterLoop]
  | succ n ih =>
    cases items with
    | nil => simp [Grid.fromIterLoop]
    | cons a items =>
      rw [Grid.fromIterLoop, ih]
      by_cases h : n ≤ items.length
      · rw [if_pos h, if_pos (by simp; omega)]; rfl
      · rw [if_neg h, if_neg (by simp; omega)]; rfl

/-- C29. Collecting an iterator succeeds exactly when it has SIZE items, and then the grid has those items in order; it panics
otherwise. Collecting what `iter` yields gives back the grid. -/
theorem C29_collect (SIZE : Nat) (items : List α) :
    (items.length = SIZE → Grid.fromIter SIZE items = .ok items) ∧
    (items.length ≠ SIZE → Grid.fromIter SIZE items = .panic) ∧
    (∀ g : List α, Grid.fromIter g.length (Grid.iter g) = .ok g) := by
  have key : ∀ (SIZE : Nat) (items : List α), items.length = SIZE → Grid.fromIter SIZE items = .ok items := by
    rintro _ items rfl
    rw [Grid.fromIter, Grid.fromIterLoop_eq, if_pos (Nat.le_refl _), Out.ok_bind]
    simp
  refine ⟨key SIZE items, fun h => ?_, fun g => key _ _ rfl⟩
  rw [Grid.fromIter, Grid.fromIterLoop_eq]
  by_cases h1 : SIZE ≤ items.length
  · rw [if_pos h1, Out.ok_bind]
    have : (items.drop SIZE).isEmpty = false := by
      rw [List.isEmpty_eq_false_iff]; intro hc
      rw [List.drop_eq_nil_iff] at hc; omega
    simp [this]
  · rw [if_neg h1]; rfl

example : Grid.iterPos (PosTy.pos 1 1) [10, 20, 30, 40] = .ok [((0, 0), 10), ((1, 0), 20), ((0, 1), 30), ((1, 1), 40)] ∧
    (([10, 20, 30, 40] : List Nat).length : Int) = cols (PosTy.pos 1 1) * rows (PosTy.pos 1 1) ∧
    Grid.fromIter 3 [1, 2] = .panic ∧ Grid.fromIter 3 [1, 2, 3] = .ok [1, 2, 3] ∧ Grid.fromIter 3 [1, 2, 3, 4] = .panic := by decide

/-! ## C30 -/

/-- C30. After `extend`, a position holds the value of the last pair with that position, or its former value. -/
theorem C30_extend [Target] (T : PosTy) (hT : T.IsGrid) (g : List α) (hg : (g.length : Int) = cols T * rows T)
    (pairs : List ((Int × Int) × α)) (hp : ∀ w ∈ pairs, InGrid T w.1) :
    ∃ g', Grid.extend T g pairs = .ok g' ∧ g'.length = g.length ∧
      ∀ p, InGrid T p → Grid.get T g' p = match lastWrite pairs p with
        | some v => .ok v
        | none => Grid.get T g p :=
  C27_write_history T hT g hg pairs hp

/-- C30. Extending any grid with `iter_pos` of another one of the same dimensions copies the other one. -/
theorem C30_extend_copies [Target] (T : PosTy) (hT : T.IsGrid) (g h : List α) (hg : (g.length : Int) = cols T * rows T)
    (hh : (h.length : Int) = cols T * rows T) :
    (Grid.iterPos T h >>= fun l => Grid.extend T g l) = .ok h := by
  obtain ⟨l, h1, h2, h3, h4⟩ := C29_iter_pos T hT h hh
  obtain ⟨fg, hfg⟩ := Grid.exists_rep hT g ((Grid.length_iff hT g).1 hg)
  obtain ⟨fh, hfh⟩ := Grid.exists_rep hT h ((Grid.length_iff hT h).1 hh)
  have hv : ∀ w ∈ l, InGrid T w.1 := fun w hw => PosTy.mem_allPositions.1 (by rw [← h2]; exact List.mem_map_of_mem hw)
  obtain ⟨g', e1, e2⟩ := Grid.writes_rep hT l hv hfg
  rw [h1, Out.ok_bind]
  show l.foldlM (fun g w => Grid.set T g w.1 w.2) g = _
  rw [e1]
  congr 1
  refine e2.ext hT hfh (fun p hp => ?_)
  have hval : ∀ v, lastWrite l p = some v → v = fh p := by
    intro v hv'
    rw [lastWrite, Option.map_eq_some_iff] at hv'
    obtain ⟨w, hw, rfl⟩ := hv'
    have hm := List.mem_reverse.1 (List.mem_of_find?_eq_some hw)
    have he := List.find?_some hw
    simp only [decide_eq_true_eq] at he
    have := h4 w hm
    rw [he, hfh.get hT hp] at this
    injection this with this
    exact this.symm
  have hsome : lastWrite l p ≠ none := by
    intro hn
    rw [lastWrite, Option.map_eq_none_iff, List.find?_eq_none] at hn
    have : p ∈ l.map Prod.fst := by rw [h2]; exact PosTy.mem_allPositions.2 hp
    obtain ⟨w, hw, rfl⟩ := List.mem_map.1 this
    exact hn w (List.mem_reverse.2 hw) (by simp)
  cases hlw : lastWrite l p with
  | none => exact absurd hlw hsome
  | some v => rw [Option.getD_some]; exact hval v hlw

example : (Grid.iterPos (PosTy.pos 1 1) [10, 20, 30, 40] >>= fun l => Grid.extend (PosTy.pos 1 1) [1, 2, 3, 4] l) =
    .ok [10, 20, 30, 40] ∧ Grid.extend (PosTy.pos 1 1) [1, 2, 3, 4] [((1, 0), 7), ((0, 1), 8), ((1, 0), 9)] = .ok [1, 9, 8, 4] := by
  decide

/-! ## C31 -/

namespace Grid

/-- Progress of `try_from`: the nested vector left after taking the items of index below `i`. -/
def Taken (T : PosTy) (i : Nat) (v w : List (List α)) : Prop :=
  w.length = v.length ∧ (∀ y : Nat, (w[y]?).map List.length = (v[y]?).map List.length) ∧
  ∀ p, T.Valid p → i ≤ T.idx p → cellAt w p = cellAt v p

theorem cellAt_set {w : List (List α)} {y x : Nat} {row : List α} (hrow : w[y]? = some row) (d : α) (p : P2)
    (hne : ¬ (p.2.toNat = y ∧ p.1.toNat = x)) : cellAt (w.set y (row.set x d)) p = cellAt w p := by
  simp only [cellAt]
  by_cases e : p.2.toNat = y
  · have hx : x ≠ p.1.toNat := fun h => hne ⟨e, h.symm⟩
    have hlt : y < w.length := by
      by_contra hc
      rw [List.getElem?_eq_none (by omega)] at hrow
      cases hrow
    rw [e, List.getElem?_set_self hlt, hrow, Option.bind_some, Option.bind_some, List.getElem?_set_ne hx]
  · rw [List.getElem?_set_ne (fun h => e h.symm)]

theorem fromVecVecItem_eq [Target] {T : PosTy} (hT : T.IsGrid) (dflt : α) {v w : List (List α)} {i : Nat}
    (hi : i < T.nx * T.ny) (h : Taken T i v w) :
    ∃ w', fromVecVecItem T dflt w i = .ok ((cellAt v (T.rowAt i)).getD dflt, w') ∧ Taken T (i + 1) v w' := by
  have hv := PosTy.rowAt_valid hT.wf hi
  have hidx := hT.idx_rowAt hi
  have hv' := hT.valid_iff'.1 hv
  have hfu : T.tryFromUsize (i : Int) = .ok (.ok (T.rowAt i)) := by
    obtain ⟨j, h1, h2⟩ := C07_from_to_usize T hT (T.rowAt i) hv
    rw [hT.toUsize_idx hv, hidx] at h1
    injection h1 with h1
    rw [h1]; exact h2
  have hlast : Taken T (i + 1) v w := ⟨h.1, h.2.1, fun p hp hle => h.2.2 p hp (by omega)⟩
  have hcell := h.2.2 _ hv (by omega)
  have hx : T.X.toUsize (T.rowAt i).1 = .ok (T.rowAt i).1 := by
    have := hT.x_fits
    rw [BTy.toUsize, IntTy.tryFrom, if_pos (IntTy.usize_has.2 ⟨by omega, by omega⟩)]
  have hy : T.Y.toUsize (T.rowAt i).2 = .ok (T.rowAt i).2 := by
    have := hT.y_fits
    rw [BTy.toUsize, IntTy.tryFrom, if_pos (IntTy.usize_has.2 ⟨by omega, by omega⟩)]
  rw [fromVecVecItem, hfu, Out.ok_bind, Out.unwrapRes_ok, Out.ok_bind, hx]
  simp only
  rw [hy]
  simp only
  rw [← hcell]
  cases hrow : w[(T.rowAt i).2.toNat]? with
  | none =>
    refine ⟨w, ?_, hlast⟩
    simp [cellAt, hrow]
  | some row =>
    simp only
    by_cases hlt : (T.rowAt i).1.toNat < row.length
    · rw [if_pos hlt, takeAt, hrow]
      simp only
      rw [List.getElem?_eq_getElem hlt]
      simp only
      refine ⟨w.set (T.rowAt i).2.toNat (row.set (T.rowAt i).1.toNat dflt), ?_, ?_, ?_, ?_⟩
      · simp only [cellAt, hrow, Option.bind_some, List.getElem?_eq_getElem hlt, Option.getD_some]
      · rw [List.length_set]; exact h.1
      · intro y
        rw [← h.2.1 y]
        by_cases e : y = (T.rowAt i).2.toNat
        · have hl : y < w.length := by
            by_contra hc
            rw [e] at hc
            rw [List.getElem?_eq_none (by omega)] at hrow
            cases hrow
          rw [e] at hl
          rw [e, List.getElem?_set_self hl, hrow, Option.map_some, Option.map_some, List.length_set]
        · rw [List.getElem?_set_ne (fun h => e h.symm)]
      · intro p hp hle
        rw [cellAt_set hrow, h.2.2 p hp (by omega)]
        rintro ⟨e1, e2⟩
        have hp' := hT.valid_iff'.1 hp
        have : p = T.rowAt i := Prod.ext (by omega) (by omega)
        rw [this, hidx] at hle
        omega
    · rw [if_neg hlt]
      refine ⟨w, ?_, hlast⟩
      simp only [cellAt, hrow, Option.bind_some]
      rw [List.getElem?_eq_none (by omega), Option.getD_none]

theorem fromVecVecLoop_eq [Target] {T : PosTy} (hT : T.IsGrid) (dflt : α) (v : List (List α)) (n : Nat) :
    ∀ i w, i + n ≤ T.nx * T.ny → Taken T i v w →
      fromVecVecLoop T dflt i n w = .ok ((List.range n).map fun j => (cellAt v (T.rowAt (i + j))).getD dflt) := by
  induction n with
  | zero => intro i w _ _; rfl
  | succ n ih =>
    intro i w hle h
    obtain ⟨w', h1, h2⟩ := fromVecVecItem_eq hT dflt (by omega) h
    rw [fromVecVecLoop, h1, Out.ok_bind]
    simp only
    rw [ih (i + 1) w' (by omega) h2, Out.ok_bind, List.range_succ_eq_map]
    simp only [List.map_cons, List.map_map, Nat.add_zero]
    congr 2
    apply List.map_congr_left
    intro j _
    simp only [Function.comp_apply]
    rw [show i + 1 + j = i + (j + 1) by omega]

end Grid

theorem Grid.anyLonger_eq [Target] {T : PosTy} (hT : T.IsGrid) (v : List (List α)) :
    Grid.anyLonger T v = .ok (v.any fun l => decide (l.length > (T.X.MAX + 1).toNat)) := by
  induction v with
  | nil => rfl
  | cons l v ih =>
    rw [Grid.anyLonger, hT.width_eq, Out.ok_bind, List.any_cons]
    by_cases h : l.length > (T.X.MAX + 1).toNat
    · rw [if_pos h, decide_eq_true h, Bool.true_or]
    · rw [if_neg h, ih, decide_eq_false h, Bool.false_or]

theorem Grid.ite_ok_true (c : Prop) [Decidable c] (b : Bool) : (if c then Out.ok true else Out.ok b) = Out.ok (decide c || b) := by
  by_cases h : c <;> simp [h]

/-- C31. `Grid::try_from(Vec<Vec<T>>)` fails with `OutOfBounds` exactly when there are more rows than lines or a row is longer than
a line; otherwise each cell holds the entry at the same place, or the default where the nested vector has none. It never panics. -/
theorem C31_try_from_vecvec [Target] (T : PosTy) (hT : T.IsGrid) (SIZE : Nat) (hS : (SIZE : Int) = cols T * rows T) (dflt : α)
    (v : List (List α)) :
    (((v.length : Int) > rows T ∨ ∃ line ∈ v, (line.length : Int) > cols T) →
      Grid.tryFromVecVec T SIZE dflt v = .ok (.error .outOfBounds)) ∧
    (¬ ((v.length : Int) > rows T ∨ ∃ line ∈ v, (line.length : Int) > cols T) →
      ∃ g, Grid.tryFromVecVec T SIZE dflt v = .ok (.ok g) ∧ g.length = SIZE ∧
        ∀ p, InGrid T p → Grid.get T g p = .ok ((cellAt v p).getD dflt)) := by
  have hx := hT.xmax0; have hy := hT.ymax0
  have hcond : (decide (v.length > (T.Y.MAX + 1).toNat) || v.any (fun l => decide (l.length > (T.X.MAX + 1).toNat))) = true ↔
      ((v.length : Int) > rows T ∨ ∃ line ∈ v, (line.length : Int) > cols T) := by
    simp only [Bool.or_eq_true, decide_eq_true_eq, List.any_eq_true, rows, cols, hT.x0, hT.y0, Int.sub_zero]
    constructor
    · rintro (h | ⟨l, hl, h⟩)
      · left; omega
      · exact Or.inr ⟨l, hl, by omega⟩
    · rintro (h | ⟨l, hl, h⟩)
      · left; omega
      · exact Or.inr ⟨l, hl, by omega⟩
  rw [Grid.tryFromVecVec, Grid.tooBig, hT.height_eq, Out.ok_bind, Grid.anyLonger_eq hT, Grid.ite_ok_true, Out.ok_bind]
  constructor
  · intro h
    rw [if_pos (hcond.2 h)]
  · intro h
    have hS' : SIZE = T.nx * T.ny := by rw [← hT.cells_eq] at hS; omega
    rw [if_neg (fun hc => h (hcond.1 hc)), Grid.fromVecVecLoop_eq hT dflt v SIZE 0 v (by omega) ⟨rfl, fun _ => rfl, fun _ _ _ => rfl⟩,
      Out.ok_bind]
    refine ⟨_, rfl, by simp, fun p hp => ?_⟩
    refine Grid.Rep.get hT (f := fun p => (cellAt v p).getD dflt) ⟨by simp [hS'], fun q hq => ?_⟩ hp
    obtain ⟨i, hi, rfl⟩ := PosTy.exists_rowAt hq
    rw [hT.idx_rowAt hi]
    simp [hS', hi]

example : Grid.tryFromVecVec (PosTy.pos 2 1) 6 0 [[1, 2], [3, 4, 5]] = .ok (.ok [1, 2, 0, 3, 4, 5]) ∧
    Grid.tryFromVecVec (PosTy.pos 2 1) 6 0 [[1, 2, 3, 4]] = .ok (.error .outOfBounds) ∧
    Grid.tryFromVecVec (PosTy.pos 2 1) 6 0 [[], [], []] = .ok (.error .outOfBounds) ∧
    Grid.tryFromVecVec (PosTy.pos 2 1) 6 0 [[], [7]] = .ok (.ok [0, 0, 0, 7, 0, 0]) := by decide

/-! ## C32 -/

namespace Grid

theorem u16_cast_small {n : Nat} (h : n < 65536) : IntTy.u16.cast (n : Int) = n := by
  simp only [IntTy.cast, IntTy.u16]; omega

/-- What `extend_from_vecvec` has done to one line, starting at column `x`. -/
theorem extendRow_rep [Target] {T : PosTy} (hT : T.IsGrid) (y : Nat) (hy : y < 65536) (line : List α) :
    ∀ (x : Nat) (g : List α) (f : P2 → α), x + line.length ≤ 65536 → Rep T g f →
    ∃ g' f' n, Rep T g' f' ∧ n ≤ line.length ∧
      (∀ i, i < n → T.Valid (((x + i : Nat) : Int), (y : Int))) ∧
      (∀ p : P2, f' p = if p.2 = y ∧ (x : Int) ≤ p.1 ∧ p.1 < ((x + n : Nat) : Int) then (line[p.1.toNat - x]?).getD (f p) else f p) ∧
      ((n = line.length ∧ extendRow T y x line g = .ok (g', .ok ())) ∨
       (n < line.length ∧ ¬ T.Valid (((x + n : Nat) : Int), (y : Int)) ∧
        extendRow T y x line g = .ok (g', .error .outOfBounds))) := by
  induction line with
  | nil =>
    intro x g f _ hR
    refine ⟨g, f, 0, hR, Nat.le_refl _, fun i hi => absurd hi (Nat.not_lt_zero i), fun p => ?_, Or.inl ⟨rfl, rfl⟩⟩
    rw [if_neg (by omega)]
  | cons c line ih =>
    intro x g f hle hR
    rw [List.length_cons] at hle
    rw [extendRow, u16_cast_small (by omega), u16_cast_small hy, PosTy.new_eq hT.wf]
    by_cases hv : T.Valid ((x : Int), (y : Int))
    · rw [if_pos hv]
      simp only
      obtain ⟨g1, h1, h2⟩ := hR.set' hT hv c
      rw [h1, Out.ok_bind]
      obtain ⟨g', f', n, k1, k2, k3, k4, k5⟩ := ih (x + 1) g1 _ (by omega) h2
      refine ⟨g', f', n + 1, k1, by rw [List.length_cons]; omega, ?_, ?_, ?_⟩
      · intro i hi
        cases i with
        | zero => exact hv
        | succ i =>
          have := k3 i (by omega)
          rwa [show x + 1 + i = x + (i + 1) by omega] at this
      · intro p
        rw [k4]
        by_cases e : p = ((x : Int), (y : Int))
        · subst e
          rw [if_neg (by simp only; omega), upd_same, if_pos ⟨rfl, Int.le_refl _, by push_cast; omega⟩]
          simp
        · have e' : p.2 = y → p.1 ≠ x := fun a b => e (Prod.ext b a)
          rw [upd_other _ _ e]
          by_cases hc : p.2 = y ∧ (x : Int) ≤ p.1 ∧ p.1 < ((x + (n + 1) : Nat) : Int)
          · have := e' hc.1
            rw [if_pos hc, if_pos (by omega), show p.1.toNat - x = (p.1.toNat - (x + 1)) + 1 by omega,
              List.getElem?_cons_succ]
          · rw [if_neg hc, if_neg (by omega)]
      · rw [List.length_cons, show x + (n + 1) = x + 1 + n by omega]
        rcases k5 with ⟨a, b⟩ | ⟨a, b, c⟩
        · exact Or.inl ⟨by omega, b⟩
        · exact Or.inr ⟨by omega, b, c⟩
    · rw [if_neg hv]
      refine ⟨g, f, 0, hR, Nat.zero_le _, fun i hi => absurd hi (Nat.not_lt_zero i), fun p => ?_, Or.inr ⟨by simp, hv, rfl⟩⟩
      rw [if_neg (by omega)]

theorem extendRows_rep [Target] {T : PosTy} (hT : T.IsGrid) (v : List (List α)) :
    ∀ (y : Nat) (g : List α) (f : P2 → α), y + v.length ≤ 65536 → (∀ line ∈ v, line.length ≤ 65536) → Rep T g f →
    ∃ g' f' k n, Rep T g' f' ∧
      (∀ (j : Nat) (i : Nat) (line : List α), v[j]? = some line → i < line.length → (j < k ∨ (j = k ∧ i < n)) →
        T.Valid ((i : Int), ((y + j : Nat) : Int))) ∧
      (∀ p : P2, 0 ≤ p.1 → f' p = if (y : Int) ≤ p.2 ∧ (p.2 < ((y + k : Nat) : Int) ∨ (p.2 = ((y + k : Nat) : Int) ∧ p.1 < n))
        then (cellAt v (p.1, p.2 - y)).getD (f p) else f p) ∧
      ((k = v.length ∧ n = 0 ∧ extendRows T y v g = .ok (g', .ok ())) ∨
       (k < v.length ∧ (∃ line, v[k]? = some line ∧ n < line.length) ∧ ¬ T.Valid ((n : Int), ((y + k : Nat) : Int)) ∧
        extendRows T y v g = .ok (g', .error .outOfBounds))) := by
  induction v with
  | nil =>
    intro y g f _ _ hR
    refine ⟨g, f, 0, 0, hR, ?_, fun p _ => ?_, Or.inl ⟨rfl, rfl, rfl⟩⟩
    · intro j i line hl; simp at hl
    · rw [if_neg (by omega)]
  | cons line v ih =>
    intro y g f hle hlen hR
    rw [List.length_cons] at hle
    obtain ⟨g1, f1, n1, a1, a2, a3, a4, a5⟩ := extendRow_rep hT y (by omega) line 0 g f
      (by have := hlen line (by simp); omega) hR
    rw [extendRows]
    rcases a5 with ⟨e1, e2⟩ | ⟨e1, e2, e3⟩
    · rw [e2, Out.ok_bind]
      simp only
      obtain ⟨g', f', k, n, b1, b2, b3, b4⟩ := ih (y + 1) g1 f1 (by omega) (fun l hl => hlen l (by simp [hl])) a1
      refine ⟨g', f', k + 1, n, b1, ?_, ?_, ?_⟩
      · intro j i l hl hi hb
        cases j with
        | zero =>
          simp at hl; subst hl
          have := a3 i (by omega)
          simpa using this
        | succ j =>
          rw [List.getElem?_cons_succ] at hl
          have := b2 j i l hl hi (by omega)
          rwa [show y + 1 + j = y + (j + 1) by omega] at this
      · intro p hp0
        rw [b3 p hp0]
        by_cases hy0 : p.2 = y
        · have hc : (y : Int) ≤ p.2 ∧ (p.2 < ((y + (k + 1) : Nat) : Int) ∨ (p.2 = ((y + (k + 1) : Nat) : Int) ∧ p.1 < n)) := by omega
          rw [if_neg (by omega), if_pos hc, a4]
          have hcell : cellAt (line :: v) (p.1, p.2 - y) = line[p.1.toNat]? := by
            simp only [cellAt, hy0, Int.sub_self, Int.toNat_zero, List.getElem?_cons_zero, Option.bind_some]
          rw [hcell]
          by_cases hlt : p.1 < ((0 + n1 : Nat) : Int)
          · rw [if_pos ⟨hy0, by omega, hlt⟩, Nat.sub_zero]
          · rw [if_neg (fun h => hlt h.2.2), List.getElem?_eq_none (by omega), Option.getD_none]
        · have hf1 : f1 p = f p := by rw [a4, if_neg (fun h => hy0 h.1)]
          rw [hf1]
          by_cases hc : (y : Int) ≤ p.2 ∧ (p.2 < ((y + (k + 1) : Nat) : Int) ∨ (p.2 = ((y + (k + 1) : Nat) : Int) ∧ p.1 < n))
          · rw [if_pos hc, if_pos (by omega)]
            congr 1
            simp only [cellAt]
            rw [show (p.2 - (y : Int)).toNat = (p.2 - ((y + 1 : Nat) : Int)).toNat + 1 by omega, List.getElem?_cons_succ]
          · rw [if_neg hc, if_neg (by omega)]
      · rw [List.length_cons, List.getElem?_cons_succ, show y + (k + 1) = y + 1 + k by omega]
        rcases b4 with ⟨c1, c2, c3⟩ | ⟨c1, c2, c3, c4⟩
        · exact Or.inl ⟨by omega, c2, c3⟩
        · exact Or.inr ⟨by omega, c2, c3, c4⟩
    · rw [e3, Out.ok_bind]
      simp only
      refine ⟨g1, f1, 0, n1, a1, ?_, ?_, Or.inr ⟨by simp, ⟨line, rfl, e1⟩, by simpa using e2, rfl⟩⟩
      · intro j i l hl hi hb
        have hj : j = 0 := by omega
        subst hj
        simp at hl; subst hl
        have := a3 i (by omega)
        simpa using this
      · intro p hp0
        rw [a4]
        by_cases hc : (y : Int) ≤ p.2 ∧ (p.2 < ((y + 0 : Nat) : Int) ∨ (p.2 = ((y + 0 : Nat) : Int) ∧ p.1 < n1))
        · have hy0 : p.2 = y := by omega
          rw [if_pos hc, if_pos (by omega)]
          simp only [cellAt, hy0, Int.sub_self, Int.toNat_zero, List.getElem?_cons_zero, Option.bind_some, Nat.sub_zero]
        · rw [if_neg hc, if_neg (by omega)]

end Grid

/-- What C32 claims: the call succeeds exactly when every entry of the nested vector is at a place of the grid. -/
def C32_claim [Target] : Prop :=
  ∀ (T : PosTy), T.IsGrid → ∀ (g : List Nat), (g.length : Int) = cols T * rows T → ∀ v : List (List Nat),
    (∃ g', Grid.extendFromVecVec T g v = .ok (g', .ok ())) ↔
      ∀ p : Int × Int, 0 ≤ p.1 → 0 ≤ p.2 → cellAt v p ≠ none → InGrid T p

theorem Grid.extendRows_empty [Target] (T : PosTy) (n : Nat) (rest : List (List α)) :
    ∀ y g, Grid.extendRows T y (List.replicate n [] ++ rest) g = Grid.extendRows T (y + n) rest g := by
  induction n with
  | zero => intro y g; rfl
  | succ n ih =>
    intro y g
    rw [List.replicate_succ, List.cons_append, Grid.extendRows, Grid.extendRow, Out.ok_bind]
    simp only
    rw [ih, show y + 1 + n = y + (n + 1) by omega]

/-- C32 does not hold: the line number is truncated to 16 bits, so that on a 1x1 grid 65536 empty lines followed by `[5]` are accepted,
and the 5 is written at (0,0). -/
theorem C32_refuted [Target] : ¬ C32_claim := by
  intro h
  have h1 := (h (PosTy.pos 0 0) (PosTy.pos_isGrid (by decide_target) (by decide_target) (by fits_small)) [7] (by decide_target)
    (List.replicate 65536 [] ++ [[5]])).1 ⟨[5], by
      rw [Grid.extendFromVecVec, Grid.extendRows_empty, show (0 + 65536) = 65536 from rfl]
      decide_target⟩
  have h2 := h1 (0, 65536) (by decide_target) (by decide_target) (by
    have e : (List.replicate 65536 ([] : List Nat) ++ [[5]])[65536]? = some [5] := by
      rw [List.getElem?_append_right (by rw [List.length_replicate])]
      rw [List.length_replicate]; rfl
    simp only [cellAt]
    rw [show (65536 : Int).toNat = 65536 from rfl, e]
    simp)
  revert h2
  unfold InGrid
  decide_target

/-- C32, the part that holds: with at most 65536 lines of at most 65536 entries. If all entries are at places of the grid
the call returns `Ok`, the cells of the entries are overwritten and no other. Otherwise it returns `Err(OutOfBounds)`; then the entries before the first
misplaced one (in reading order) have been written, and nothing else. It never panics. Missing: longer vectors, see
`C32_refuted`. -/
theorem C32_extend_from_vecvec_partial [Target] (T : PosTy) (hT : T.IsGrid) (g : List α) (hg : (g.length : Int) = cols T * rows T)
    (v : List (List α)) (hv : v.length ≤ 65536) (hline : ∀ line ∈ v, line.length ≤ 65536) :
    ((∀ p : Int × Int, 0 ≤ p.1 → 0 ≤ p.2 → cellAt v p ≠ none → InGrid T p) →
      ∃ g', Grid.extendFromVecVec T g v = .ok (g', .ok ()) ∧ g'.length = g.length ∧
        ∀ p, InGrid T p → Grid.get T g' p = match cellAt v p with
          | some c => .ok c
          | none => Grid.get T g p) ∧
    (¬ (∀ p : Int × Int, 0 ≤ p.1 → 0 ≤ p.2 → cellAt v p ≠ none → InGrid T p) →
      ∃ g' q, Grid.extendFromVecVec T g v = .ok (g', .error .outOfBounds) ∧ g'.length = g.length ∧
        0 ≤ q.1 ∧ 0 ≤ q.2 ∧ cellAt v q ≠ none ∧ ¬ InGrid T q ∧
        (∀ p : Int × Int, 0 ≤ p.1 → 0 ≤ p.2 → cellAt v p ≠ none → Before p q → InGrid T p) ∧
        (∀ p, InGrid T p → Before p q → Grid.get T g' p = match cellAt v p with
          | some c => .ok c
          | none => Grid.get T g p) ∧
        (∀ p, InGrid T p → ¬ Before p q → Grid.get T g' p = Grid.get T g p)) := by
  have hl := (Grid.length_iff hT g).1 hg
  obtain ⟨f, hf⟩ := Grid.exists_rep hT g hl
  obtain ⟨g', f', k, n, h1, h2, h3, h4⟩ := Grid.extendRows_rep hT v 0 g f (by omega) hline hf
  have hval : ∀ p : Int × Int, 0 ≤ p.1 → 0 ≤ p.2 → cellAt v p ≠ none → (p.2 < k ∨ (p.2 = k ∧ p.1 < n)) → InGrid T p := by
    intro p hp1 hp2 hc hb
    simp only [cellAt] at hc
    cases hrow : v[p.2.toNat]? with
    | none => rw [hrow] at hc; simp at hc
    | some line =>
      rw [hrow, Option.bind_some] at hc
      have hlt : p.1.toNat < line.length := by
        by_contra hn
        exact hc (List.getElem?_eq_none (by omega))
      have := h2 p.2.toNat p.1.toNat line hrow hlt (by omega)
      rw [Nat.zero_add, Int.toNat_of_nonneg hp1, Int.toNat_of_nonneg hp2] at this
      exact this
  have hget : ∀ p, InGrid T p → (p.2 < k ∨ (p.2 = k ∧ p.1 < n)) → Grid.get T g' p = match cellAt v p with
          | some c => .ok c
          | none => Grid.get T g p := by
    intro p hp hb
    have hp' := hT.valid_iff'.1 hp
    rw [h1.get hT hp, hf.get hT hp, h3 p hp'.1.1, if_pos (by omega)]
    rw [show (p.1, p.2 - ((0 : Nat) : Int)) = p from Prod.ext rfl (by simp)]
    cases cellAt v p <;> rfl
  rcases h4 with ⟨c1, c2, c3⟩ | ⟨c1, ⟨line, c2, c2'⟩, c3, c4⟩
  · have hrowlt : ∀ p : Int × Int, 0 ≤ p.2 → cellAt v p ≠ none → p.2 < k := by
      intro p hp2 hc
      by_contra hn
      apply hc
      simp only [cellAt]
      rw [List.getElem?_eq_none (by omega), Option.bind_none]
    have hall : ∀ p : Int × Int, 0 ≤ p.1 → 0 ≤ p.2 → cellAt v p ≠ none → InGrid T p :=
      fun p h1 h2 h3 => hval p h1 h2 h3 (Or.inl (hrowlt p h2 h3))
    refine ⟨fun _ => ⟨g', c3, by rw [h1.1, hl], fun p hp => ?_⟩, fun hn => absurd hall hn⟩
    have hp' := hT.valid_iff'.1 hp
    cases hc : cellAt v p with
    | some c =>
      rw [hget p hp (Or.inl (hrowlt p hp'.2.1 (by rw [hc]; simp))), hc]
    | none =>
      by_cases hb : p.2 < k
      · rw [hget p hp (Or.inl hb), hc]
      · simp only
        rw [h1.get hT hp, hf.get hT hp, h3 p hp'.1.1, if_neg (by omega)]
  · rw [Nat.zero_add] at c3
    have hq : cellAt v ((n : Int), (k : Int)) ≠ none := by
      simp only [cellAt, Int.toNat_natCast, c2, Option.bind_some]
      rw [List.getElem?_eq_getElem c2']; simp
    refine ⟨fun hall => absurd (hall _ (by simp) (by simp) hq) c3, fun _ =>
      ⟨g', ((n : Int), (k : Int)), c4, by rw [h1.1, hl], by simp, by simp, hq, c3, ?_, ?_, ?_⟩⟩
    · intro p a b c d; exact hval p a b c d
    · intro p hp hb; exact hget p hp hb
    · intro p hp hb
      have hp' := hT.valid_iff'.1 hp
      simp only [Before] at hb
      rw [h1.get hT hp, hf.get hT hp, h3 p hp'.1.1, if_neg (by omega)]

example : Grid.extendFromVecVec (PosTy.pos 2 1) [1, 2, 3, 4, 5, 6] [[7], [8, 9]] = .ok ([7, 2, 3, 8, 9, 6], .ok ()) ∧
    Grid.extendFromVecVec (PosTy.pos 2 1) [1, 2, 3, 4, 5, 6] [[7, 7, 7, 7], [8, 9]] = .ok ([7, 7, 7, 4, 5, 6], .error .outOfBounds) ∧
    Grid.extendFromVecVec (PosTy.pos 2 1) [1, 2, 3, 4, 5, 6] [[], [], [], [], [1]] = .ok ([1, 2, 3, 4, 5, 6], .error .outOfBounds) := by
  decide

namespace Grid

theorem u16_cast_mod (n : Nat) : IntTy.u16.cast (n : Int) = (n : Int) % 65536 := by
  simp only [IntTy.cast, IntTy.u16]; omega

/-- Writing a list of entries, up to the first one that is not at a place of the grid. -/
def putAll [Target] (T : PosTy) : List (P2 × α) → List α → Out (List α × Res Unit)
  | [], g => .ok (g, .ok ())
  | w :: ws, g =>
    match T.new w.1.1 w.1.2 with
    | .error e => .ok (g, .error e)
    | .ok p => do
      let g ← set T g p w.2
      putAll T ws g

theorem extendRow_putAll [Target] (T : PosTy) (y : Nat) (line : List α) : ∀ (x : Nat) (g : List α),
    extendRow T y x line g = putAll T ((line.zipIdx x).map fun (c, x) => (((x : Int) % 65536, (y : Int) % 65536), c)) g := by
  induction line with
  | nil => intro x g; rfl
  | cons c line ih =>
    intro x g
    rw [extendRow, List.zipIdx_cons, List.map_cons, putAll, u16_cast_mod, u16_cast_mod]
    cases T.new ((x : Int) % 65536) ((y : Int) % 65536) with
    | error e => rfl
    | ok p =>
      simp only
      exact congrArg _ (funext fun g => ih (x + 1) g)

theorem putAll_append [Target] (T : PosTy) (l1 l2 : List (P2 × α)) : ∀ g : List α,
    putAll T (l1 ++ l2) g = (putAll T l1 g >>= fun gr => match gr.2 with
      | .error e => .ok (gr.1, .error e)
      | .ok () => putAll T l2 gr.1) := by
  induction l1 with
  | nil => intro g; rfl
  | cons w l1 ih =>
    intro g
    rw [List.cons_append, putAll, putAll]
    cases T.new w.1.1 w.1.2 with
    | error e => rfl
    | ok p =>
      simp only
      rw [bind_assoc]
      exact congrArg _ (funext fun g => ih g)

theorem extendRows_putAll [Target] (T : PosTy) (v : List (List α)) : ∀ (y : Nat) (g : List α),
    extendRows T y v g = putAll T ((v.zipIdx y).flatMap fun (line, y) => line.zipIdx.map fun (c, x) => (((x : Int) % 65536, (y : Int) % 65536), c)) g := by
  induction v with
  | nil => intro y g; rfl
  | cons line v ih =>
    intro y g
    rw [extendRows, List.zipIdx_cons, List.flatMap_cons, putAll_append, extendRow_putAll]
    refine congrArg _ (funext fun gr => ?_)
    obtain ⟨g, r⟩ := gr
    cases r with
    | error e => rfl
    | ok u => exact ih (y + 1) g

theorem putAll_ok [Target] {T : PosTy} (hT : T.IsGrid) (ws : List (P2 × α)) (h : ∀ w ∈ ws, T.Valid w.1) (g : List α) :
    putAll T ws g = (extend T g ws >>= fun g => .ok (g, .ok ())) := by
  induction ws generalizing g with
  | nil => rfl
  | cons w ws ih =>
    rw [putAll, PosTy.new_eq hT.wf, if_pos (h w (by simp)), extend, List.foldlM_cons, bind_assoc]
    exact congrArg (set T g w.1 w.2 >>= ·) (funext fun g => ih (fun w hw => h w (by simp [hw])) g)

theorem putAll_stop [Target] {T : PosTy} (hT : T.IsGrid) {w : P2 × α} (hw : ¬ T.Valid w.1) (ws : List (P2 × α)) (g : List α) :
    putAll T (w :: ws) g = .ok (g, .error .outOfBounds) := by
  rw [putAll, PosTy.new_eq hT.wf, if_neg hw]

end Grid

/-- C32, the exact behaviour for every nested vector. Columns and lines count modulo 65536. If all the entries are then at places of the grid the
call returns `Ok`, and each cell has the last entry written there, or what it had. Otherwise it returns `Err(OutOfBounds)`, and the same is true
of the entries before the first misplaced one. It never panics. -/
theorem C32_exact [Target] (T : PosTy) (hT : T.IsGrid) (g : List α) (hg : (g.length : Int) = cols T * rows T) (v : List (List α)) :
    ((∀ w ∈ entriesMod v, InGrid T w.1) →
      ∃ g', Grid.extendFromVecVec T g v = .ok (g', .ok ()) ∧ g'.length = g.length ∧
        ∀ p, InGrid T p → Grid.get T g' p = match lastWrite (entriesMod v) p with
          | some c => .ok c
          | none => Grid.get T g p) ∧
    (∀ pre w post, entriesMod v = pre ++ w :: post → (∀ w ∈ pre, InGrid T w.1) → ¬ InGrid T w.1 →
      ∃ g', Grid.extendFromVecVec T g v = .ok (g', .error .outOfBounds) ∧ g'.length = g.length ∧
        ∀ p, InGrid T p → Grid.get T g' p = match lastWrite pre p with
          | some c => .ok c
          | none => Grid.get T g p) := by
  have e : Grid.extendFromVecVec T g v = Grid.putAll T (entriesMod v) g := Grid.extendRows_putAll T v 0 g
  constructor
  · intro h
    obtain ⟨g', h1, h2, h3⟩ := C30_extend T hT g hg (entriesMod v) h
    exact ⟨g', by rw [e, Grid.putAll_ok hT _ h, h1]; rfl, h2, h3⟩
  · intro pre w post hv hpre hw
    obtain ⟨g', h1, h2, h3⟩ := C30_extend T hT g hg pre hpre
    refine ⟨g', ?_, h2, h3⟩
    rw [e, hv, Grid.putAll_append, Grid.putAll_ok hT _ hpre, h1]
    exact Grid.putAll_stop hT hw post g'

example : entriesMod [[7, 8], [], [9]] = [((0, 0), 7), ((1, 0), 8), ((0, 2), 9)] ∧
    entriesMod [[7, 7, 7, 7], [8, 9]] = [((0, 0), 7), ((1, 0), 7), ((2, 0), 7)] ++ ((3, 0), 7) :: [((0, 1), 8), ((1, 1), 9)] := by
  decide

/-! ## C33 -/

/-- C33. After `flip_h`, the value at `p` is the former value at `p.flip_h()`, that is at `(WIDTH - 1 - x, y)`; no panic. -/
theorem C33_flip_h [Target] (T : PosTy) (hT : T.IsGrid) (g : List α) (hg : (g.length : Int) = cols T * rows T) :
    ∃ g', Grid.flipH T g = .ok g' ∧ g'.length = g.length ∧
      (∀ p, InGrid T p → Grid.get T g' p = Grid.get T g (cols T - 1 - p.1, p.2)) ∧
      (∀ p, InGrid T p → Grid.get T g' p = (T.flipH p >>= fun q => Grid.get T g q)) := by
  have hl := (Grid.length_iff hT g).1 hg
  obtain ⟨f, hf⟩ := Grid.exists_rep hT g hl
  obtain ⟨g', f', h1, h2, h3⟩ := Grid.flipH_rep hT hf
  have key : ∀ p, InGrid T p → Grid.get T g' p = Grid.get T g (T.X.MAX - p.1, p.2) := by
    intro p hp
    rw [h2.get hT hp, h3 p hp, hf.get hT (C17_flip_h_exact T hT p hp).2]
  refine ⟨g', h1, by rw [h2.1, hl], fun p hp => ?_, fun p hp => ?_⟩
  · rw [key p hp, show cols T - 1 - p.1 = T.X.MAX - p.1 by rw [cols, hT.x0]; omega]
  · rw [(C17_flip_h_exact T hT p hp).1, Out.ok_bind, key p hp]

/-- C33. After `flip_v`, the value at `p` is the former value at `p.flip_v()`, that is at `(x, HEIGHT - 1 - y)`; no panic. -/
theorem C33_flip_v [Target] (T : PosTy) (hT : T.IsGrid) (g : List α) (hg : (g.length : Int) = cols T * rows T) :
    ∃ g', Grid.flipV T g = .ok g' ∧ g'.length = g.length ∧
      (∀ p, InGrid T p → Grid.get T g' p = Grid.get T g (p.1, rows T - 1 - p.2)) ∧
      (∀ p, InGrid T p → Grid.get T g' p = (T.flipV p >>= fun q => Grid.get T g q)) := by
  have hl := (Grid.length_iff hT g).1 hg
  obtain ⟨f, hf⟩ := Grid.exists_rep hT g hl
  obtain ⟨g', f', h1, h2, h3⟩ := Grid.flipV_rep hT hf
  have key : ∀ p, InGrid T p → Grid.get T g' p = Grid.get T g (p.1, T.Y.MAX - p.2) := by
    intro p hp
    rw [h2.get hT hp, h3 p hp, hf.get hT (C17_flip_v_exact T hT p hp).2]
  refine ⟨g', h1, by rw [h2.1, hl], fun p hp => ?_, fun p hp => ?_⟩
  · rw [key p hp, show rows T - 1 - p.2 = T.Y.MAX - p.2 by rw [rows, hT.y0]; omega]
  · rw [(C17_flip_v_exact T hT p hp).1, Out.ok_bind, key p hp]

/-- C33. Flipping twice restores the grid. -/
theorem C33_flip_twice [Target] (T : PosTy) (hT : T.IsGrid) (g : List α) (hg : (g.length : Int) = cols T * rows T) :
    (Grid.flipH T g >>= Grid.flipH T) = .ok g ∧ (Grid.flipV T g >>= Grid.flipV T) = .ok g := by
  obtain ⟨f, hf⟩ := Grid.exists_rep hT g ((Grid.length_iff hT g).1 hg)
  constructor
  · obtain ⟨g1, f1, h1, h2, h3⟩ := Grid.flipH_rep hT hf
    obtain ⟨g2, f2, k1, k2, k3⟩ := Grid.flipH_rep hT h2
    rw [h1, Out.ok_bind, k1]
    congr 1
    refine k2.ext hT hf (fun p hp => ?_)
    rw [k3 p hp, h3 _ (C17_flip_h_exact T hT p hp).2]
    congr 1
    apply Prod.ext <;> simp
  · obtain ⟨g1, f1, h1, h2, h3⟩ := Grid.flipV_rep hT hf
    obtain ⟨g2, f2, k1, k2, k3⟩ := Grid.flipV_rep hT h2
    rw [h1, Out.ok_bind, k1]
    congr 1
    refine k2.ext hT hf (fun p hp => ?_)
    rw [k3 p hp, h3 _ (C17_flip_v_exact T hT p hp).2]
    congr 1
    apply Prod.ext <;> simp

example : Grid.flipH (PosTy.pos 2 1) [1, 2, 3, 4, 5, 6] = .ok [3, 2, 1, 6, 5, 4] ∧
    Grid.flipV (PosTy.pos 2 1) [1, 2, 3, 4, 5, 6] = .ok [4, 5, 6, 1, 2, 3] ∧
    (([1, 2, 3, 4, 5, 6] : List Nat).length : Int) = cols (PosTy.pos 2 1) * rows (PosTy.pos 2 1) := by decide

/-! ## C34 -/

/-- C34. On a square grid, after `rotate_cw` the value at `p.rotate_cw()` is the former value at `p`; after `rotate_cc` the value at
`p.rotate_cc()` is the former value at `p`; no panic. -/
theorem C34_rotate [Target] (M : Int) (hM : 0 ≤ M ∧ M ≤ 65535) (hfit : Fits M M) (g : List α) (hg : (g.length : Int) = (M + 1) * (M + 1)) :
    (∃ g', Grid.rotateCw M g = .ok g' ∧ g'.length = g.length ∧
      (∀ p, InGrid (PosTy.pos M M) p → Grid.get (PosTy.pos M M) g' (M - p.2, p.1) = Grid.get (PosTy.pos M M) g p) ∧
      (∀ p, InGrid (PosTy.pos M M) p →
        ((PosTy.pos M M).rotateCw p >>= fun q => Grid.get (PosTy.pos M M) g' q) = Grid.get (PosTy.pos M M) g p)) ∧
    (∃ g', Grid.rotateCc M g = .ok g' ∧ g'.length = g.length ∧
      (∀ p, InGrid (PosTy.pos M M) p → Grid.get (PosTy.pos M M) g' (p.2, M - p.1) = Grid.get (PosTy.pos M M) g p) ∧
      (∀ p, InGrid (PosTy.pos M M) p →
        ((PosTy.pos M M).rotateCc p >>= fun q => Grid.get (PosTy.pos M M) g' q) = Grid.get (PosTy.pos M M) g p)) := by
  have hT := PosTy.pos_isGrid hM hM hfit
  have hl : g.length = _ := (Grid.length_iff hT g).1 (by
    rw [hg]; show _ = (M - 0 + 1) * (M - 0 + 1); rw [Int.sub_zero])
  obtain ⟨f, hf⟩ := Grid.exists_rep hT g hl
  obtain ⟨⟨g1, f1, h1, h2, h3⟩, ⟨g2, f2, k1, k2, k3⟩⟩ := Grid.rotate_rep hM hfit hf
  have rot : ∀ p, InGrid (PosTy.pos M M) p → (PosTy.pos M M).rotateCw p = .ok (M - p.2, p.1) ∧ InGrid (PosTy.pos M M) (M - p.2, p.1) ∧
    (PosTy.pos M M).rotateCc p = .ok (p.2, M - p.1) ∧ InGrid (PosTy.pos M M) (p.2, M - p.1) :=
    fun p hp => C18_rotate_exact _ hT rfl p hp
  have key1 : ∀ p, InGrid (PosTy.pos M M) p → Grid.get (PosTy.pos M M) g1 (M - p.2, p.1) = Grid.get (PosTy.pos M M) g p := by
    intro p hp
    have hv := (rot p hp).2.1
    rw [h2.get hT hv, h3 _ hv, hf.get hT hp]
    congr 2
    apply Prod.ext <;> simp [cc]
  have key2 : ∀ p, InGrid (PosTy.pos M M) p → Grid.get (PosTy.pos M M) g2 (p.2, M - p.1) = Grid.get (PosTy.pos M M) g p := by
    intro p hp
    have hv := (rot p hp).2.2.2
    rw [k2.get hT hv, k3 _ hv, hf.get hT hp]
    congr 2
    apply Prod.ext <;> simp [cw]
  refine ⟨⟨g1, h1, by rw [h2.1, hl], key1, fun p hp => ?_⟩, ⟨g2, k1, by rw [k2.1, hl], key2, fun p hp => ?_⟩⟩
  · rw [(rot p hp).1, Out.ok_bind, key1 p hp]
  · rw [(rot p hp).2.2.1, Out.ok_bind, key2 p hp]

/-- C34. `rotate_cc` undoes `rotate_cw` and conversely, and four rotations restore the grid. -/
theorem C34_rotate_laws [Target] (M : Int) (hM : 0 ≤ M ∧ M ≤ 65535) (hfit : Fits M M) (g : List α) (hg : (g.length : Int) = (M + 1) * (M + 1)) :
    (Grid.rotateCw M g >>= Grid.rotateCc M) = .ok g ∧ (Grid.rotateCc M g >>= Grid.rotateCw M) = .ok g ∧
    (Grid.rotateCw M g >>= Grid.rotateCw M >>= Grid.rotateCw M >>= Grid.rotateCw M) = .ok g := by
  have hT := PosTy.pos_isGrid hM hM hfit
  have hl : g.length = _ := (Grid.length_iff hT g).1 (by
    rw [hg]; show _ = (M - 0 + 1) * (M - 0 + 1); rw [Int.sub_zero])
  obtain ⟨f, hf⟩ := Grid.exists_rep hT g hl
  have v1 : ∀ p, (PosTy.pos M M).Valid p → (PosTy.pos M M).Valid (cw M p) :=
    fun p hp => (C18_rotate_exact _ hT rfl p hp).2.1
  have v2 : ∀ p, (PosTy.pos M M).Valid p → (PosTy.pos M M).Valid (cc M p) :=
    fun p hp => (C18_rotate_exact _ hT rfl p hp).2.2.2
  obtain ⟨⟨g1, f1, h1, h2, h3⟩, ⟨g2, f2, k1, k2, k3⟩⟩ := Grid.rotate_rep hM hfit hf
  obtain ⟨⟨g3, f3, a1, a2, a3⟩, ⟨g4, f4, b1, b2, b3⟩⟩ := Grid.rotate_rep hM hfit h2
  obtain ⟨⟨g5, f5, c1, c2, c3⟩, -⟩ := Grid.rotate_rep hM hfit k2
  obtain ⟨⟨g6, f6, d1, d2, d3⟩, -⟩ := Grid.rotate_rep hM hfit a2
  obtain ⟨⟨g7, f7, e1, e2, e3⟩, -⟩ := Grid.rotate_rep hM hfit d2
  refine ⟨?_, ?_, ?_⟩
  · rw [h1, Out.ok_bind, b1]
    congr 1
    exact b2.ext hT hf (fun p hp => by rw [b3 p hp, h3 _ (v1 p hp), cc_cw])
  · rw [k1, Out.ok_bind, c1]
    congr 1
    exact c2.ext hT hf (fun p hp => by rw [c3 p hp, k3 _ (v2 p hp), cw_cc])
  · rw [h1, Out.ok_bind, a1, Out.ok_bind, d1, Out.ok_bind, e1]
    congr 1
    refine e2.ext hT hf (fun p hp => ?_)
    rw [e3 p hp, d3 _ (v2 p hp), a3 _ (v2 _ (v2 p hp)), h3 _ (v2 _ (v2 _ (v2 p hp)))]
    congr 1
    apply Prod.ext <;> simp [cc]

example : Grid.rotateCw 2 [1, 2, 3, 4, 5, 6, 7, 8, 9] = .ok [7, 4, 1, 8, 5, 2, 9, 6, 3] ∧
    Grid.rotateCc 1 [1, 2, 3, 4] = .ok [2, 4, 1, 3] ∧
    (([1, 2, 3, 4] : List Nat).length : Int) = (1 + 1) * (1 + 1) := by decide

/-! ## C35 -/

/-- C35. `grid.line(y)` has one entry per column, and its entry `x` is `grid[(x, y)]`; no panic for a valid `y`. -/
theorem C35_line [Target] (T : PosTy) (hT : T.IsGrid) (g : List α) (hg : (g.length : Int) = cols T * rows T) (y : Int)
    (hy : T.Y.MIN ≤ y ∧ y ≤ T.Y.MAX) :
    ∃ l, Grid.line T g y = .ok l ∧ (l.length : Int) = cols T ∧
      ∀ x : Nat, (x : Int) < cols T → ∃ v, l[x]? = some v ∧ Grid.get T g ((x : Int), y) = .ok v := by
  have hl := (Grid.length_iff hT g).1 hg
  obtain ⟨f, hf⟩ := Grid.exists_rep hT g hl
  obtain ⟨s1, s2, s3⟩ := hT.line_bounds hy
  have hx0 := hT.x0; have hy0 := hT.y0; have hxm := hT.xmax0
  have hlen : (g.length : Int) = (T.X.MAX + 1) * (T.Y.MAX + 1) := by
    rw [hg, cols, rows, hx0, hy0, Int.sub_zero, Int.sub_zero]
  have hyu : T.Y.toUsize y = .ok y := by
    have := hT.y_fits
    rw [BTy.toUsize, IntTy.tryFrom, if_pos (IntTy.usize_has.2 ⟨by omega, by omega⟩)]
  have hfit := hT.fits
  have e : Grid.line T g y = .ok ((g.drop (y * (T.X.MAX + 1)).toNat).take (T.X.MAX + 1).toNat) := by
    rw [Grid.line, hT.width_eq, Out.ok_bind, hyu, Out.unwrapRes_ok, Out.ok_bind,
      IntTy.usize_mul ⟨by omega, by omega⟩, Out.ok_bind, IntTy.usize_add ⟨by omega, by omega⟩, Out.ok_bind, if_pos (by omega),
      show y * (T.X.MAX + 1) + (T.X.MAX + 1) - y * (T.X.MAX + 1) = T.X.MAX + 1 by omega]
  refine ⟨_, e, ?_, ?_⟩
  · rw [List.length_take, List.length_drop, cols, hx0]; omega
  · intro x hx
    rw [cols, hx0] at hx
    have hv : T.Valid ((x : Int), y) := by rw [hT.valid_iff']; simp only; omega
    refine ⟨f (x, y), ?_, hf.get hT hv⟩
    rw [List.getElem?_take, if_pos (by omega), List.getElem?_drop]
    have hi := hf.2 _ hv
    have hc := hT.idx_cast hv
    simp only at hc
    rw [← hi]
    congr 1
    omega

/-- C35. Writing entry `x` of `grid.line_mut(y)` is writing at position `(x, y)`. An `x` beyond the columns panics. -/
theorem C35_line_mut [Target] (T : PosTy) (hT : T.IsGrid) (g : List α) (hg : (g.length : Int) = cols T * rows T) (y : Int)
    (hy : T.Y.MIN ≤ y ∧ y ≤ T.Y.MAX) (x : Nat) (v : α) :
    ((x : Int) < cols T → Grid.lineMutSet T g y x v = Grid.set T g ((x : Int), y) v ∧
      ∃ g', Grid.lineMutSet T g y x v = .ok g' ∧ Grid.get T g' ((x : Int), y) = .ok v ∧
        ∀ q, InGrid T q → q ≠ ((x : Int), y) → Grid.get T g' q = Grid.get T g q) ∧
    (¬ (x : Int) < cols T → Grid.lineMutSet T g y x v = .panic) := by
  have hl := (Grid.length_iff hT g).1 hg
  obtain ⟨f, hf⟩ := Grid.exists_rep hT g hl
  obtain ⟨s1, s2, s3⟩ := hT.line_bounds hy
  have hx0 := hT.x0; have hy0 := hT.y0; have hxm := hT.xmax0
  have hlen : (g.length : Int) = (T.X.MAX + 1) * (T.Y.MAX + 1) := by
    rw [hg, cols, rows, hx0, hy0, Int.sub_zero, Int.sub_zero]
  have hyu : T.Y.toUsize y = .ok y := by
    have := hT.y_fits
    rw [BTy.toUsize, IntTy.tryFrom, if_pos (IntTy.usize_has.2 ⟨by omega, by omega⟩)]
  have hfit := hT.fits
  have e : Grid.lineMutSet T g y x v =
      if x < (T.X.MAX + 1).toNat then .ok (g.set ((y * (T.X.MAX + 1)).toNat + x) v) else .panic := by
    rw [Grid.lineMutSet, hT.width_eq, Out.ok_bind, hyu, Out.unwrapRes_ok, Out.ok_bind,
      IntTy.usize_mul ⟨by omega, by omega⟩, Out.ok_bind, IntTy.usize_add ⟨by omega, by omega⟩, Out.ok_bind, if_pos (by omega),
      show y * (T.X.MAX + 1) + (T.X.MAX + 1) - y * (T.X.MAX + 1) = T.X.MAX + 1 by omega]
  rw [e, cols, hx0]
  constructor
  · intro hx
    have hv : T.Valid ((x : Int), y) := by rw [hT.valid_iff']; simp only; omega
    have hc := hT.idx_cast hv
    simp only at hc
    have hi : (y * (T.X.MAX + 1)).toNat + x = T.idx ((x : Int), y) := by omega
    rw [if_pos (by omega), hi]
    refine ⟨(hf.set hT hv v).symm, _, rfl, ?_, ?_⟩
    · rw [(hf.set_idx hT hv v).get hT hv, upd_same]
    · intro q hq hne
      rw [(hf.set_idx hT hv v).get hT hq, upd_other _ _ hne, hf.get hT hq]
  · intro hx
    rw [if_neg (by omega)]

example : Grid.line (PosTy.pos 2 1) [1, 2, 3, 4, 5, 6] 1 = .ok [4, 5, 6] ∧
    Grid.lineMutSet (PosTy.pos 2 1) [1, 2, 3, 4, 5, 6] 1 2 9 = .ok [1, 2, 3, 4, 5, 9] ∧
    Grid.lineMutSet (PosTy.pos 2 1) [1, 2, 3, 4, 5, 6] 0 3 9 = .panic := by decide

/-! ## C36 -/

theorem Grid.mapM_ok_iff (f : α → Out β) (l : List α) (r : List β) :
    l.mapM f = .ok r ↔ l.length = r.length ∧ ∀ (i : Nat) a, l[i]? = some a → ∃ b, r[i]? = some b ∧ f a = .ok b := by
  induction l generalizing r with
  | nil =>
    rw [List.mapM_nil]
    constructor
    · intro h
      injection h with h
      subst h
      simp
    · rintro ⟨h, _⟩
      cases r with
      | nil => rfl
      | cons b r => simp at h
  | cons a l ih =>
    rw [List.mapM_cons]
    constructor
    · intro h
      cases ha : f a with
      | panic => rw [ha] at h; cases h
      | ub => rw [ha] at h; cases h
      | timeout => rw [ha] at h; cases h
      | ok b =>
        rw [ha, Out.ok_bind] at h
        cases hl : l.mapM f with
        | panic => rw [hl] at h; cases h
        | ub => rw [hl] at h; cases h
        | timeout => rw [hl] at h; cases h
        | ok r' =>
          rw [hl, Out.ok_bind] at h
          injection h with h
          subst h
          obtain ⟨h1, h2⟩ := (ih r').1 hl
          refine ⟨by simp [h1], fun i => ?_⟩
          cases i with
          | zero => intro x hx; simp only [List.getElem?_cons_zero, Option.some.injEq] at hx; exact ⟨b, rfl, by rw [← hx, ha]⟩
          | succ i => intro x hx; simpa using h2 i x (by simpa using hx)
    · rintro ⟨h1, h2⟩
      cases r with
      | nil => simp at h1
      | cons b r =>
        obtain ⟨b', hb, ha⟩ := h2 0 a rfl
        simp only [List.getElem?_cons_zero, Option.some.injEq] at hb
        subst hb
        have hl := (ih r).2 ⟨by simpa using h1, fun i x hx => by simpa using h2 (i + 1) x (by simpa using hx)⟩
        rw [ha, Out.ok_bind, hl, Out.ok_bind]; rfl

/-- C36. `-grid` is the grid whose cell at every position is the negation of the cell of `grid` there, and is a value exactly when each
of these negations is one. `neg` is the negation of the element type. -/
theorem C36_neg [Target] (T : PosTy) (hT : T.IsGrid) (neg : α → Out α) (g : List α) (hg : (g.length : Int) = cols T * rows T) (g' : List α) :
    Grid.neg neg g = .ok g' ↔ g'.length = g.length ∧
      ∀ p, InGrid T p → ∃ v w, Grid.get T g p = .ok v ∧ neg v = .ok w ∧ Grid.get T g' p = .ok w := by
  have hl := (Grid.length_iff hT g).1 hg
  obtain ⟨f, hf⟩ := Grid.exists_rep hT g hl
  have hmap : Grid.neg neg g = .ok g' ↔ g.mapM neg = .ok g' := by
    rw [Grid.neg, Grid.iter]
    cases hm : g.mapM neg with
    | panic => rw [Out.panic_bind]
    | ub => rfl
    | timeout => rfl
    | ok r =>
      rw [Out.ok_bind, (C29_collect g.length r).1 ((Grid.mapM_ok_iff neg g r).1 hm).1.symm]
  rw [hmap, Grid.mapM_ok_iff]
  constructor
  · rintro ⟨h1, h2⟩
    refine ⟨h1.symm, fun p hp => ?_⟩
    obtain ⟨w, hw, hn⟩ := h2 (T.idx p) (f p) (hf.2 p hp)
    refine ⟨f p, w, hf.get hT hp, hn, ?_⟩
    rw [Grid.get_idx hT _ hp, Grid.getUnchecked, Int.toNat_natCast, hw]
  · rintro ⟨h1, h2⟩
    refine ⟨h1.symm, fun i a ha => ?_⟩
    have hi : i < T.nx * T.ny := by
      rw [← hl]
      by_contra hc
      rw [List.getElem?_eq_none (by omega)] at ha
      cases ha
    have hv := PosTy.rowAt_valid hT.wf hi
    obtain ⟨v, w, e1, e2, e3⟩ := h2 _ hv
    rw [Grid.get_idx hT _ hv, hT.idx_rowAt hi, Grid.getUnchecked, Int.toNat_natCast, ha] at e1
    injection e1 with e1
    rw [Grid.get_idx hT _ hv, hT.idx_rowAt hi, Grid.getUnchecked, Int.toNat_natCast, List.getElem?_eq_getElem (by omega)] at e3
    injection e3 with e3
    exact ⟨w, by rw [List.getElem?_eq_getElem (by omega), e3], by rw [e1]; exact e2⟩

/-- C36. If negation never panics on the elements, neither does it on the grid. -/
theorem C36_neg_total (neg : α → Out α) (g : List α) (hn : ∀ v ∈ g, ∃ w, neg v = .ok w) : ∃ g', Grid.neg neg g = .ok g' := by
  have : ∀ l : List α, (∀ v ∈ l, ∃ w, neg v = .ok w) → ∃ r, l.mapM neg = .ok r := by
    intro l
    induction l with
    | nil => intro _; exact ⟨[], rfl⟩
    | cons a l ih =>
      intro h
      obtain ⟨w, hw⟩ := h a (by simp)
      obtain ⟨r, hr⟩ := ih fun v hv => h v (by simp [hv])
      exact ⟨w :: r, by rw [List.mapM_cons, hw, Out.ok_bind, hr, Out.ok_bind]; rfl⟩
  obtain ⟨r, hr⟩ := this g hn
  refine ⟨r, ?_⟩
  rw [Grid.neg, Grid.iter, hr, Out.ok_bind, (C29_collect g.length r).1 ((Grid.mapM_ok_iff neg g r).1 hr).1.symm]

/-- C36. If negating a cell returns or panics, negating the grid panics exactly if negating some cell does. -/
theorem C36_neg_panics (neg : α → Out α) (g : List α) (hn : ∀ v ∈ g, (∃ w, neg v = .ok w) ∨ neg v = .panic) :
    Grid.neg neg g = .panic ↔ ∃ v ∈ g, neg v = .panic := by
  constructor
  · intro h
    by_contra hno
    obtain ⟨g', hg'⟩ := C36_neg_total neg g fun v hv => (hn v hv).resolve_right fun h => hno ⟨v, hv, h⟩
    rw [hg'] at h
    cases h
  · rintro ⟨v, hv, h⟩
    have key : ∀ l : List α, (∀ v ∈ l, (∃ w, neg v = .ok w) ∨ neg v = .panic) → v ∈ l → l.mapM neg = .panic := by
      intro l
      induction l with
      | nil => intro _ hv; cases hv
      | cons a l ih =>
        intro hl hv
        rw [List.mapM_cons]
        rcases hl a (by simp) with ⟨w, hw⟩ | hw
        · rcases List.mem_cons.1 hv with rfl | hv
          · rw [h] at hw; cases hw
          · rw [hw, Out.ok_bind, ih (fun v hv => hl v (by simp [hv])) hv]; rfl
        · rw [hw]; rfl
    rw [Grid.neg, Grid.iter, key g hn hv]
    rfl

example : Grid.neg (fun v => IntTy.i32.sub 0 v) [1, -2, 3, 0] = .ok [-1, 2, -3, 0] ∧
    Grid.neg (fun v => IntTy.i32.sub 0 v) [1, -2147483648, 3, 0] = .panic := by decide

end Sqrid
