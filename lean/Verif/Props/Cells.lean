import Mathlib.Data.Nat.Bitwise
import Verif.Props.Conv
import Verif.Props.PosIter
import Verif.Props.Dir
import Verif.Props.Grid
import Verif.Props.Gridbool
/-!
# Properties of raw access, comparison of grids, and of the positions made through the API: C74, C75, C79
-/

namespace Sqrid

-- Statements that do not mention a target are about a debug build for a 64-bit machine.
attribute [local instance] debug64

open Spec

/-! ## C74 -/

namespace Grid

theorem beq_iff (eq : α → α → Bool) (g h : List α) :
    beq eq g h = true ↔ g.length = h.length ∧ ∀ (i : Nat) a b, g[i]? = some a → h[i]? = some b → eq a b = true := by
  induction g generalizing h with
  | nil =>
    cases h with
    | nil => simp [beq]
    | cons b h => simp [beq]
  | cons a g ih =>
    cases h with
    | nil => simp [beq]
    | cons b h =>
      rw [beq, Bool.and_eq_true, ih]
      constructor
      · rintro ⟨h1, h2, h3⟩
        refine ⟨by simp [h2], fun i => ?_⟩
        cases i with
        | zero => intro x y hx hy; simp only [List.getElem?_cons_zero, Option.some.injEq] at hx hy; rw [← hx, ← hy]; exact h1
        | succ i => intro x y hx hy; exact h3 i x y (by simpa using hx) (by simpa using hy)
      · rintro ⟨h1, h2⟩
        exact ⟨h2 0 a b rfl rfl, by simpa using h1, fun i x y hx hy => h2 (i + 1) x y (by simpa using hx) (by simpa using hy)⟩

/-- The order of two grids is decided by the first place where they differ. -/
theorem cmp_iff (c : α → α → Ordering) (g h : List α) (hl : g.length = h.length) :
    (cmp c g h = .eq ↔ ∀ (i : Nat) a b, g[i]? = some a → h[i]? = some b → c a b = .eq) ∧
    (∀ o, o ≠ .eq → (cmp c g h = o ↔ ∃ (i : Nat) (a b : α), g[i]? = some a ∧ h[i]? = some b ∧ c a b = o ∧
      ∀ j, j < i → ∀ a b, g[j]? = some a → h[j]? = some b → c a b = .eq)) := by
  induction g generalizing h with
  | nil =>
    cases h with
    | nil =>
      refine ⟨by simp [cmp], fun o ho => ?_⟩
      simp [cmp, ho.symm]
    | cons b h => simp at hl
  | cons a g ih =>
    cases h with
    | nil => simp at hl
    | cons b h =>
      obtain ⟨ih1, ih2⟩ := ih h (by simpa using hl)
      rw [cmp]
      cases hc : c a b with
      | eq =>
        rw [show Ordering.eq.then (cmp c g h) = cmp c g h from rfl]
        constructor
        · rw [ih1]
          constructor
          · intro hh i
            cases i with
            | zero => intro x y hx hy; simp only [List.getElem?_cons_zero, Option.some.injEq] at hx hy; rw [← hx, ← hy]; exact hc
            | succ i => intro x y hx hy; exact hh i x y (by simpa using hx) (by simpa using hy)
          · intro hh i x y hx hy
            exact hh (i + 1) x y (by simpa using hx) (by simpa using hy)
        · intro o ho
          rw [ih2 o ho]
          constructor
          · rintro ⟨i, x, y, hx, hy, h1, h2⟩
            refine ⟨i + 1, x, y, by simpa using hx, by simpa using hy, h1, fun j hj => ?_⟩
            cases j with
            | zero => intro x y hx hy; simp only [List.getElem?_cons_zero, Option.some.injEq] at hx hy; rw [← hx, ← hy]; exact hc
            | succ j => intro x y hx hy; exact h2 j (by omega) x y (by simpa using hx) (by simpa using hy)
          · rintro ⟨i, x, y, hx, hy, h1, h2⟩
            cases i with
            | zero =>
              simp only [List.getElem?_cons_zero, Option.some.injEq] at hx hy
              rw [← hx, ← hy, hc] at h1
              exact absurd h1.symm ho
            | succ i =>
              exact ⟨i, x, y, by simpa using hx, by simpa using hy, h1, fun j hj x y hx hy =>
                h2 (j + 1) (by omega) x y (by simpa using hx) (by simpa using hy)⟩
      | lt | gt =>
        all_goals
          simp only [Ordering.then]
          constructor
          · constructor
            · intro h; cases h
            · intro hh; have := hh 0 a b rfl rfl; rw [hc] at this; exact this
          · intro o ho
            constructor
            · rintro rfl
              exact ⟨0, a, b, rfl, rfl, hc, fun j hj => absurd hj (by omega)⟩
            · rintro ⟨i, x, y, hx, hy, h1, h2⟩
              cases i with
              | zero =>
                simp only [List.getElem?_cons_zero, Option.some.injEq] at hx hy
                rw [← hx, ← hy, hc] at h1
                exact h1
              | succ i =>
                have := h2 0 (by omega) a b rfl rfl
                rw [hc] at this
                cases this

end Grid

/-- Reading order is the order of the indexes. -/
theorem PosTy.IsGrid.before_iff [Target] {T : PosTy} (hT : T.IsGrid) {p q : Int × Int} (hp : T.Valid p) (hq : T.Valid q) :
    Before p q ↔ T.idx p < T.idx q := by
  have h1 := hT.idx_cast hp
  have h2 := hT.idx_cast hq
  have hp' := hT.valid_iff'.1 hp
  have hq' := hT.valid_iff'.1 hq
  rw [Before]
  constructor
  · rintro (h | ⟨h3, h4⟩)
    · have : (p.2 + 1) * (T.X.MAX + 1) ≤ q.2 * (T.X.MAX + 1) := Int.mul_le_mul_of_nonneg_right (by omega) (by omega)
      rw [Int.add_mul, Int.one_mul] at this
      omega
    · rw [h3] at h1; omega
  · intro h
    by_contra hc
    rcases lt_or_eq_of_le (show q.2 ≤ p.2 by omega) with h3 | h3
    · have : (q.2 + 1) * (T.X.MAX + 1) ≤ p.2 * (T.X.MAX + 1) := Int.mul_le_mul_of_nonneg_right (by omega) (by omega)
      rw [Int.add_mul, Int.one_mul] at this
      omega
    · rw [h3] at h2; omega

/-- C74. Two grids of the same type are `==` exactly when their cells are, at every position. `eq` is the `==` of the element type. -/
theorem C74_grid_eq [Target] (T : PosTy) (hT : T.IsGrid) (eq : α → α → Bool) (g h : List α) (hg : (g.length : Int) = cols T * rows T)
    (hh : (h.length : Int) = cols T * rows T) :
    Grid.beq eq g h = true ↔ ∀ p, InGrid T p → ∃ a b, Grid.get T g p = .ok a ∧ Grid.get T h p = .ok b ∧ eq a b = true := by
  have hg' := (Grid.length_iff hT g).1 hg
  have hh' := (Grid.length_iff hT h).1 hh
  obtain ⟨f, hf⟩ := Grid.exists_rep hT g hg'
  obtain ⟨k, hk⟩ := Grid.exists_rep hT h hh'
  rw [Grid.beq_iff]
  constructor
  · rintro ⟨_, h1⟩ p hp
    exact ⟨f p, k p, hf.get hT hp, hk.get hT hp, h1 _ _ _ (hf.2 p hp) (hk.2 p hp)⟩
  · intro h1
    refine ⟨by omega, fun i a b ha hb => ?_⟩
    have hi : i < T.nx * T.ny := by
      rw [← hg']
      by_contra hc
      rw [List.getElem?_eq_none (by omega)] at ha
      cases ha
    have hv := PosTy.rowAt_valid hT.wf hi
    obtain ⟨a', b', e1, e2, e3⟩ := h1 _ hv
    rw [Grid.get_idx hT _ hv, hT.idx_rowAt hi, Grid.getUnchecked, Int.toNat_natCast, ha] at e1
    rw [Grid.get_idx hT _ hv, hT.idx_rowAt hi, Grid.getUnchecked, Int.toNat_natCast, hb] at e2
    injection e1 with e1
    injection e2 with e2
    rw [e1, e2]; exact e3

example : (PosTy.pos 1 1).IsGrid ∧ Grid.beq (fun a b : Int => decide (a = b)) [1, 2, 3, 4] [1, 2, 3, 4] = true ∧
    Grid.beq (fun a b : Int => decide (a = b)) [1, 2, 3, 4] [1, 2, 3, 5] = false :=
  ⟨PosTy.pos_isGrid (by decide) (by decide) (.inl rfl), by decide, by decide⟩

/-- C74. The order of two grids of the same type is the order of their cells at the first position, in reading order, where the cells differ; they
compare equal if there is none. `c` is the `cmp` of the element type. -/
theorem C74_grid_cmp [Target] (T : PosTy) (hT : T.IsGrid) (c : α → α → Ordering) (g h : List α) (hg : (g.length : Int) = cols T * rows T)
    (hh : (h.length : Int) = cols T * rows T) (o : Ordering) (ho : o ≠ .eq) :
    (Grid.cmp c g h = .eq ↔ ∀ p, InGrid T p → ∃ a b, Grid.get T g p = .ok a ∧ Grid.get T h p = .ok b ∧ c a b = .eq) ∧
    (Grid.cmp c g h = o ↔ ∃ p, InGrid T p ∧ (∃ a b, Grid.get T g p = .ok a ∧ Grid.get T h p = .ok b ∧ c a b = o) ∧
      ∀ q, InGrid T q → Before q p → ∃ a b, Grid.get T g q = .ok a ∧ Grid.get T h q = .ok b ∧ c a b = .eq) := by
  have hg' := (Grid.length_iff hT g).1 hg
  have hh' := (Grid.length_iff hT h).1 hh
  obtain ⟨f, hf⟩ := Grid.exists_rep hT g hg'
  obtain ⟨k, hk⟩ := Grid.exists_rep hT h hh'
  have hget : ∀ p, T.Valid p → ∀ o', (∃ a b, Grid.get T g p = .ok a ∧ Grid.get T h p = .ok b ∧ c a b = o') ↔ c (f p) (k p) = o' := by
    intro p hp o'
    rw [hf.get hT hp, hk.get hT hp]
    constructor
    · rintro ⟨a, b, e1, e2, e3⟩
      injection e1 with e1
      injection e2 with e2
      rw [e1, e2]; exact e3
    · intro e; exact ⟨_, _, rfl, rfl, e⟩
  have hidx : ∀ (i : Nat) a b, g[i]? = some a → h[i]? = some b → ∃ p, T.Valid p ∧ T.idx p = i ∧ a = f p ∧ b = k p := by
    intro i a b ha hb
    have hi : i < T.nx * T.ny := by
      rw [← hg']
      by_contra hc
      rw [List.getElem?_eq_none (by omega)] at ha
      cases ha
    have hv := PosTy.rowAt_valid hT.wf hi
    have e := hT.idx_rowAt hi
    have e1 := hf.2 _ hv
    have e2 := hk.2 _ hv
    rw [e, ha] at e1
    rw [e, hb] at e2
    injection e1 with e1
    injection e2 with e2
    exact ⟨_, hv, e, e1, e2⟩
  obtain ⟨h1, h2⟩ := Grid.cmp_iff c g h (by omega)
  constructor
  · rw [h1]
    constructor
    · intro hh p hp
      exact (hget p hp _).2 (hh _ _ _ (hf.2 p hp) (hk.2 p hp))
    · intro hh i a b ha hb
      obtain ⟨p, hp, _, rfl, rfl⟩ := hidx i a b ha hb
      exact (hget p hp _).1 (hh p hp)
  · rw [h2 o ho]
    constructor
    · rintro ⟨i, a, b, ha, hb, e1, e2⟩
      obtain ⟨p, hp, hi, rfl, rfl⟩ := hidx i a b ha hb
      refine ⟨p, hp, (hget p hp _).2 e1, fun q hq hqp => (hget q hq _).2 ?_⟩
      have := (hT.before_iff hq hp).1 hqp
      exact e2 (T.idx q) (by omega) _ _ (hf.2 q hq) (hk.2 q hq)
    · rintro ⟨p, hp, e1, e2⟩
      refine ⟨T.idx p, f p, k p, hf.2 p hp, hk.2 p hp, (hget p hp _).1 e1, fun j hj a b ha hb => ?_⟩
      obtain ⟨q, hq, hi, rfl, rfl⟩ := hidx j a b ha hb
      exact (hget q hq _).1 (e2 q hq ((hT.before_iff hq hp).2 (by omega)))

example : Grid.cmp (fun a b : Int => compare a b) [1, 2, 9, 4] [1, 3, 0, 0] = .lt := by decide

/-- C74. The arrays given by `as_array`, `as_array_mut`, `as_ref`, `as_mut` and `into_inner` hold the cells in reading order: the item at
index `i` is the cell at `tryfrom_usize(i)`, for reading and for writing, and indexes from the number of cells on panic. -/
theorem C74_as_array [Target] (T : PosTy) (hT : T.IsGrid) (g : List α) (hg : (g.length : Int) = cols T * rows T) (i : Int)
    (hi : IntTy.usize.Has i) :
    (∀ p, T.tryFromUsize i = .ok (.ok p) → (∃ v, Grid.asArrayAt g i = .ok v ∧ Grid.get T g p = .ok v) ∧
      ∀ v, ∃ g', Grid.asArrayMutSet g i v = .ok g' ∧ Grid.set T g p v = .ok g') ∧
    (T.tryFromUsize i = .ok (.error .outOfBounds) → Grid.asArrayAt g i = .panic ∧ ∀ v, Grid.asArrayMutSet g i v = .panic) := by
  have hi0 := (IntTy.usize_has.1 hi).1
  obtain ⟨h1, h2⟩ := C07_to_from_usize T hT i hi
  rcases lt_or_ge i (cols T * rows T) with h | h
  · obtain ⟨p, e1, e2, e3⟩ := h1 h
    have hlt : i.toNat < g.length := by omega
    constructor
    · intro q hq
      rw [e1] at hq
      injection hq with hq
      injection hq with hq
      subst hq
      refine ⟨⟨g[i.toNat], ?_, ?_⟩, fun v => ⟨g.set i.toNat v, ?_, ?_⟩⟩
      · rw [Grid.asArrayAt, List.getElem?_eq_getElem hlt]; rfl
      · rw [Grid.get, e3, Out.ok_bind, Grid.getUnchecked, List.getElem?_eq_getElem hlt]
      · rw [Grid.asArrayMutSet, if_pos hlt]
      · rw [Grid.set, e3, Out.ok_bind, Grid.setUnchecked, if_pos hlt]
    · intro hq
      rw [e1] at hq
      injection hq with hq
      cases hq
  · constructor
    · intro p hp
      rw [h2 h] at hp
      injection hp with hp
      cases hp
    · intro _
      refine ⟨?_, fun v => ?_⟩
      · rw [Grid.asArrayAt, List.getElem?_eq_none (by omega)]; rfl
      · rw [Grid.asArrayMutSet, if_neg (by omega)]

example : (PosTy.pos 1 1).tryFromUsize 2 = .ok (.ok (0, 1)) ∧ Grid.asArrayAt [10, 20, 30, 40] 2 = .ok 30 ∧
    Grid.get (PosTy.pos 1 1) [10, 20, 30, 40] (0, 1) = .ok 30 ∧ Grid.asArrayAt [10, 20, 30, 40] 4 = .panic := by decide

/-- C74. Changing every value through `iter_mut()` (or `for v in &mut grid`) changes every cell, each from its own old value. -/
theorem C74_iter_mut [Target] (T : PosTy) (hT : T.IsGrid) (f : α → α) (g : List α) (hg : (g.length : Int) = cols T * rows T) (p : Int × Int)
    (hp : InGrid T p) :
    (Grid.iterMut f g).length = g.length ∧ ∃ v, Grid.get T g p = .ok v ∧ Grid.get T (Grid.iterMut f g) p = .ok (f v) := by
  have hg' := (Grid.length_iff hT g).1 hg
  obtain ⟨k, hk⟩ := Grid.exists_rep hT g hg'
  refine ⟨by simp [Grid.iterMut], k p, hk.get hT hp, ?_⟩
  refine Grid.Rep.get hT (f := fun p => f (k p)) ⟨by simp [Grid.iterMut, hg'], fun q hq => ?_⟩ hp
  rw [Grid.iterMut, List.getElem?_map, hk.2 q hq]; rfl

example : Grid.iterMut (fun v : Int => v * 2) [10, 20, 30, 40] = [20, 40, 60, 80] := by decide

/-! ## C75 -/

/-- C75. The bit of a position whose index is `i` is bit `31 - i % 32` (counting from the least significant) of word `i / 32` of the array given by
`as_inner` and `into_inner`. -/
theorem C75_layout [Target] (T : PosTy) (hT : T.IsGrid) (WORDS : Nat) (hW : cols T * rows T ≤ 32 * (WORDS : Int)) (gb : List (BitVec 32))
    (hg : gb.length = WORDS) (p : Int × Int) (hp : InGrid T p) :
    ∃ (i : Nat) (w : BitVec 32), T.toUsize p = .ok (i : Int) ∧ Gridbool.asInnerAt gb ((i / 32 : Nat) : Int) = .ok w ∧
      Gridbool.get T gb p = .ok (w.getLsbD (31 - i % 32)) := by
  have hW' := (Gridbool.words_iff hT _).1 hW
  subst hg
  have hlt : T.idx p / 32 < gb.length := Gridbool.word_lt hT hW' hp
  refine ⟨T.idx p, gb[T.idx p / 32], hT.toUsize_idx hp, ?_, ?_⟩
  · rw [Gridbool.asInnerAt, Int.toNat_natCast, List.getElem?_eq_getElem hlt]; rfl
  · rw [(Gridbool.exists_rep T gb).get hT hW' hp, Gridbool.bit, List.getElem?_eq_getElem hlt]; rfl

example : (PosTy.pos 39 0).toUsize (33, 0) = .ok 33 ∧ Gridbool.asInnerAt [0#32, 0x40000000#32] 1 = .ok 0x40000000#32 ∧
    Gridbool.get (PosTy.pos 39 0) [0#32, 0x40000000#32] (33, 0) = .ok true := by decide

/-- C75. Writing a word through `as_inner_mut` sets the 32 positions of that word and no other; an index from WORDS on panics. -/
theorem C75_as_inner_mut [Target] (T : PosTy) (hT : T.IsGrid) (WORDS : Nat) (hW : cols T * rows T ≤ 32 * (WORDS : Int)) (gb : List (BitVec 32))
    (hg : gb.length = WORDS) (k : Nat) (w : BitVec 32) :
    (k < WORDS → ∃ gb', Gridbool.asInnerMutSet gb k w = .ok gb' ∧ gb'.length = WORDS ∧
      ∀ p, InGrid T p → ∃ i : Nat, T.toUsize p = .ok (i : Int) ∧
        Gridbool.get T gb' p = if i / 32 = k then .ok (w.getLsbD (31 - i % 32)) else Gridbool.get T gb p) ∧
    (WORDS ≤ k → Gridbool.asInnerMutSet gb k w = .panic) := by
  have hW' := (Gridbool.words_iff hT _).1 hW
  subst hg
  constructor
  · intro hk
    refine ⟨gb.set k w, ?_, by simp, fun p hp => ⟨T.idx p, hT.toUsize_idx hp, ?_⟩⟩
    · rw [Gridbool.asInnerMutSet, Int.toNat_natCast, if_pos hk]
    · have hlt : T.idx p / 32 < gb.length := Gridbool.word_lt hT hW' hp
      rw [(Gridbool.exists_rep T (gb.set k w)).get hT (by simpa using hW') hp, Gridbool.bit]
      by_cases h : T.idx p / 32 = k
      · rw [if_pos h, h, List.getElem?_set_self hk]; rfl
      · rw [if_neg h, List.getElem?_set_ne (fun e => h e.symm), (Gridbool.exists_rep T gb).get hT hW' hp, Gridbool.bit]
  · intro hk
    rw [Gridbool.asInnerMutSet, Int.toNat_natCast, if_neg (by omega)]

example : Gridbool.asInnerMutSet [0#32, 0#32] 1 0x40000000#32 = .ok [0#32, 0x40000000#32] ∧
    Gridbool.asInnerMutSet [0#32, 0#32] 2 0#32 = .panic := by decide

/-- The order of words is decided by the highest bit where they differ. -/
theorem word_lt_iff (x y : BitVec 32) :
    x.toNat < y.toNat ↔ ∃ k, k < 32 ∧ x.getLsbD (31 - k) = false ∧ y.getLsbD (31 - k) = true ∧
      ∀ j, j < k → x.getLsbD (31 - j) = y.getLsbD (31 - j) := by
  have key : ∀ (x y : BitVec 32) (k : Nat), k < 32 → x.getLsbD (31 - k) = false → y.getLsbD (31 - k) = true →
      (∀ j, j < k → x.getLsbD (31 - j) = y.getLsbD (31 - j)) → x.toNat < y.toNat := by
    intro x y k hk h1 h2 h3
    refine Nat.lt_of_testBit (31 - k) h1 h2 fun j hj => ?_
    rcases lt_or_ge j 32 with h | h
    · have := h3 (31 - j) (by omega)
      rw [show 31 - (31 - j) = j by omega] at this
      exact this
    · show x.getLsbD j = y.getLsbD j
      rw [BitVec.getLsbD_of_ge _ _ h, BitVec.getLsbD_of_ge _ _ h]
  constructor
  · intro h
    by_contra hc
    have all : ∀ k, k < 32 → x.getLsbD (31 - k) = y.getLsbD (31 - k) := by
      intro k
      induction k using Nat.strong_induction_on with
      | _ k ih =>
        intro hk
        by_contra hne
        cases hx : x.getLsbD (31 - k) <;> cases hy : y.getLsbD (31 - k)
        · exact hne (by rw [hx, hy])
        · exact hc ⟨k, hk, hx, hy, fun j hj => ih j hj (by omega)⟩
        · have := key y x k hk hy hx (fun j hj => (ih j hj (by omega)).symm)
          omega
        · exact hne (by rw [hx, hy])
    have : x = y := by
      apply BitVec.eq_of_getLsbD_eq
      intro i hi
      have := all (31 - i) (by omega)
      rw [show 31 - (31 - i) = i by omega] at this
      exact this
    subst this
    omega
  · rintro ⟨k, hk, h1, h2, h3⟩
    exact key x y k hk h1 h2 h3

/-- The order of two arrays of words is decided by the first bit where they differ. -/
theorem Gridbool.cmp_lt_iff (a b : List (BitVec 32)) (hl : a.length = b.length) :
    Gridbool.cmp a b = .lt ↔ ∃ i, i < 32 * a.length ∧ bit a i = false ∧ bit b i = true ∧ ∀ j, j < i → bit a j = bit b j := by
  rw [Gridbool.cmp, (Grid.cmp_iff _ a b hl).2 .lt (by decide)]
  have word : ∀ (l : List (BitVec 32)) (k : Nat) (w : BitVec 32), l[k]? = some w → ∀ m, m < 32 → bit l (32 * k + m) = w.getLsbD (31 - m) := by
    intro l k w h m hm
    rw [bit, show (32 * k + m) / 32 = k by omega, h, show (32 * k + m) % 32 = m by omega]; rfl
  constructor
  · rintro ⟨k, x, y, hx, hy, h1, h2⟩
    rw [compare_lt_iff_lt, word_lt_iff] at h1
    obtain ⟨m, hm, e1, e2, e3⟩ := h1
    have hk : k < a.length := by
      by_contra hc
      rw [List.getElem?_eq_none (by omega)] at hx; cases hx
    refine ⟨32 * k + m, by omega, by rw [word a k x hx m hm, e1], by rw [word b k y hy m hm, e2], fun j hj => ?_⟩
    rcases lt_or_ge j (32 * k) with h | h
    · have hj' : j / 32 < k := by omega
      have e := h2 (j / 32) hj' _ _ (List.getElem?_eq_getElem (by omega)) (List.getElem?_eq_getElem (by omega))
      rw [compare_eq_iff_eq] at e
      have e := BitVec.eq_of_toNat_eq e
      rw [bit, bit, List.getElem?_eq_getElem (by omega), List.getElem?_eq_getElem (by omega), Option.getD_some, Option.getD_some, e]
    · obtain ⟨n, rfl⟩ : ∃ n, j = 32 * k + n := ⟨j - 32 * k, by omega⟩
      rw [word a k x hx n (by omega), word b k y hy n (by omega)]
      exact e3 n (by omega)
  · rintro ⟨i, hi, h1, h2, h3⟩
    have ha : a[i / 32]? = some (a[i / 32]'(by omega)) := List.getElem?_eq_getElem (by omega)
    have hb : b[i / 32]? = some (b[i / 32]'(by omega)) := List.getElem?_eq_getElem (by omega)
    refine ⟨i / 32, _, _, ha, hb, ?_, fun j hj x y hx hy => ?_⟩
    · rw [compare_lt_iff_lt, word_lt_iff]
      refine ⟨i % 32, by omega, ?_, ?_, fun j hj => ?_⟩
      · rw [← word a _ _ ha _ (by omega), show 32 * (i / 32) + i % 32 = i by omega]; exact h1
      · rw [← word b _ _ hb _ (by omega), show 32 * (i / 32) + i % 32 = i by omega]; exact h2
      · rw [← word a _ _ ha _ (by omega), ← word b _ _ hb _ (by omega)]
        exact h3 _ (by omega)
    · rw [compare_eq_iff_eq]
      congr 1
      apply BitVec.eq_of_getLsbD_eq
      intro m hm
      have := h3 (32 * j + (31 - m)) (by omega)
      rw [word a j x hx _ (by omega), word b j y hy _ (by omega), show 31 - (31 - m) = m by omega] at this
      exact this

/-- C75. Between gridbools built from the same `repeat(b)` (see C42), the order is decided by the first position, in reading order, where they differ:
the one that is false there is the lesser. -/
theorem C75_gridbool_cmp [Target] (T : PosTy) (hT : T.IsGrid) (WORDS : Nat) (hW : cols T * rows T ≤ 32 * (WORDS : Int)) (b : Bool)
    (g1 g2 : List (BitVec 32)) (h1 : Gridbool.Built T WORDS b g1) (h2 : Gridbool.Built T WORDS b g2) :
    Gridbool.cmp g1 g2 = .lt ↔ ∃ p, InGrid T p ∧ Gridbool.get T g1 p = .ok false ∧ Gridbool.get T g2 p = .ok true ∧
      ∀ q, InGrid T q → Before q p → Gridbool.get T g1 q = Gridbool.get T g2 q := by
  have hW' := (Gridbool.words_iff hT _).1 hW
  obtain ⟨f1, hf1⟩ := h1.rep hT hW'
  obtain ⟨f2, hf2⟩ := h2.rep hT hW'
  rw [Gridbool.cmp_lt_iff g1 g2 (by rw [hf1.1, hf2.1])]
  constructor
  · rintro ⟨i, hi, e1, e2, e3⟩
    have hn : i < T.nx * T.ny := by
      by_contra hc
      have a1 := hf1.2.2 i (by omega) (by rw [← hf1.1]; exact hi)
      have a2 := hf2.2.2 i (by omega) (by rw [← hf1.1]; exact hi)
      rw [a1] at e1
      rw [a2, e1] at e2
      cases e2
    have hv := PosTy.rowAt_valid hT.wf hn
    have e := hT.idx_rowAt hn
    refine ⟨_, hv, ?_, ?_, fun q hq hqp => ?_⟩
    · rw [hf1.get hT hW' hv, ← hf1.2.1 _ hv, e, e1]
    · rw [hf2.get hT hW' hv, ← hf2.2.1 _ hv, e, e2]
    · have := (hT.before_iff hq hv).1 hqp
      rw [e] at this
      rw [hf1.get hT hW' hq, hf2.get hT hW' hq, ← hf1.2.1 _ hq, ← hf2.2.1 _ hq, e3 _ this]
  · rintro ⟨p, hp, e1, e2, e3⟩
    have hp' : T.Valid p := hp
    rw [hf1.get hT hW' hp'] at e1
    rw [hf2.get hT hW' hp'] at e2
    injection e1 with e1
    injection e2 with e2
    have hlt := hT.idx_lt hp'
    refine ⟨T.idx p, by rw [hf1.1]; omega, by rw [hf1.2.1 p hp', e1], by rw [hf2.2.1 p hp', e2], fun j hj => ?_⟩
    have hn : j < T.nx * T.ny := by omega
    have hv := PosTy.rowAt_valid hT.wf hn
    have e := hT.idx_rowAt hn
    have := e3 _ hv ((hT.before_iff hv hp').2 (by omega))
    rw [hf1.get hT hW' hv, hf2.get hT hW' hv, ← hf1.2.1 _ hv, ← hf2.2.1 _ hv, e] at this
    injection this

example : Gridbool.Built (PosTy.pos 2 1) 1 false [0x14000000#32] ∧ Gridbool.Built (PosTy.pos 2 1) 1 false [0x20000000#32] ∧
    Gridbool.cmp [0x14000000#32] [0x20000000#32] = .lt :=
  ⟨.op (.setIterT [(2, 1), (0, 1)]) .repeated (by unfold InGrid; decide) (by decide),
   .op (.setIterT [(2, 0)]) .repeated (by unfold InGrid; decide) (by decide), by decide⟩

/-! ## C79 -/

/-- The positions of type `Pos<XMAX, YMAX>` that a program can make with the constructors, conversions, constants, moves and iterators of the
crate (all but the public fields and `From<bool>`). -/
inductive Pos.Made [Target] (xmax ymax : Int) : Int × Int → Prop
  | new {x y p} : Pos.new xmax ymax x y = .ok p → Made xmax ymax p
  | newUnwrap {x y p} : Pos.newUnwrap xmax ymax x y = .ok p → Made xmax ymax p
  | newStatic {x y p} : Pos.newStatic xmax ymax x y = .ok p → Made xmax ymax p
  | ofU16 {xy p} : Pos.ofU16 xmax ymax xy = .ok p → Made xmax ymax p
  | ofI32 {x y p} : Pos.ofI32 xmax ymax x y = .ok p → Made xmax ymax p
  | ofUsize {i p} : Pos.ofUsize xmax ymax i = .ok (.ok p) → Made xmax ymax p
  | tryFromPos {q p} : (PosTy.pos xmax ymax).tryFromPos q = .ok p → Made xmax ymax p
  | default : Made xmax ymax ((PosTy.pos xmax ymax).X.default, (PosTy.pos xmax ymax).Y.default)
  | FIRST {p} : Pos.FIRST xmax ymax = .ok p → Made xmax ymax p
  | LAST {p} : Pos.LAST xmax ymax = .ok p → Made xmax ymax p
  | CENTER {p} : Pos.CENTER xmax ymax = .ok p → Made xmax ymax p
  | TOP_RIGHT {p} : Pos.TOP_RIGHT xmax ymax = .ok p → Made xmax ymax p
  | BOTTOM_LEFT {p} : Pos.BOTTOM_LEFT xmax ymax = .ok p → Made xmax ymax p
  | first : Made xmax ymax (PosTy.pos xmax ymax).first
  | last : Made xmax ymax (PosTy.pos xmax ymax).last
  | next {p q} : Made xmax ymax p → (PosTy.pos xmax ymax).next p = some q → Made xmax ymax q
  | prev {p q} : Made xmax ymax p → (PosTy.pos xmax ymax).prev p = some q → Made xmax ymax q
  | nextY {p q} : Made xmax ymax p → (PosTy.pos xmax ymax).nextY p = some q → Made xmax ymax q
  | prevY {p q} : Made xmax ymax p → (PosTy.pos xmax ymax).prevY p = some q → Made xmax ymax q
  | addDir {p q d} : Made xmax ymax p → (PosTy.pos xmax ymax).addDir p d = .ok q → Made xmax ymax q
  | flipH {p q} : Made xmax ymax p → (PosTy.pos xmax ymax).flipH p = .ok q → Made xmax ymax q
  | flipV {p q} : Made xmax ymax p → (PosTy.pos xmax ymax).flipV p = .ok q → Made xmax ymax q
  | rotateCw {p q} : Made xmax ymax p → (PosTy.pos xmax ymax).rotateCw p = .ok q → Made xmax ymax q
  | rotateCc {p q} : Made xmax ymax p → (PosTy.pos xmax ymax).rotateCc p = .ok q → Made xmax ymax q
  | tlOf {items tl br} : (∀ p, p ∈ items → Made xmax ymax p) → PosTy.tlbrOf items = .ok (tl, br) → Made xmax ymax tl
  | brOf {items tl br} : (∀ p, p ∈ items → Made xmax ymax p) → PosTy.tlbrOf items = .ok (tl, br) → Made xmax ymax br
  | iter {b l p} : PosIter.toList (PosTy.pos xmax ymax) b = .ok l → p ∈ l → Made xmax ymax p
  | iterRange {tl br fuel l p} : Made xmax ymax tl → Made xmax ymax br →
      collectWith (liftNext (PosIterRange.next (PosTy.pos xmax ymax))) fuel (PosIterRange.new tl br) = .ok l → p ∈ l → Made xmax ymax p
  | iterInX {q fuel l p} : Made xmax ymax q →
      collectWith (liftNext (PosIterInX.next (PosTy.pos xmax ymax))) fuel (PosIterInX.new (PosTy.pos xmax ymax) q.1) = .ok l → p ∈ l →
      Made xmax ymax p
  | iterInY {q fuel l p} : Made xmax ymax q →
      collectWith (liftNext (PosIterInY.next (PosTy.pos xmax ymax))) fuel (PosIterInY.new (PosTy.pos xmax ymax) q.2) = .ok l → p ∈ l →
      Made xmax ymax p

/-- What holds of every item if it holds along the states of the iterator. -/
theorem collectWith_all {σ α : Type} {next : σ → Out (Option α × σ)} {P : α → Prop} {I : σ → Prop}
    (hI : ∀ s v s', I s → next s = .ok (some v, s') → P v ∧ I s') :
    ∀ (fuel : Nat) (s : σ) (l : List α), I s → collectWith next fuel s = .ok l → ∀ a ∈ l, P a := by
  intro fuel
  induction fuel with
  | zero => intro s l _ h; cases h
  | succ n ih =>
    intro s l hs h
    rw [collectWith] at h
    cases hn : next s with
    | panic => rw [hn] at h; cases h
    | ub => rw [hn] at h; cases h
    | timeout => rw [hn] at h; cases h
    | ok r =>
      obtain ⟨v, s'⟩ := r
      rw [hn, Out.ok_bind] at h
      cases v with
      | none => injection h with h; subst h; simp
      | some a =>
        obtain ⟨h1, h2⟩ := hI s a s' hs hn
        simp only at h
        cases hc : collectWith next n s' with
        | panic => rw [hc] at h; cases h
        | ub => rw [hc] at h; cases h
        | timeout => rw [hc] at h; cases h
        | ok rest =>
          rw [hc, Out.ok_bind] at h
          injection h with h
          subst h
          intro b hb
          rcases List.mem_cons.1 hb with rfl | hb
          · exact h1
          · exact ih s' rest h2 hc b hb

theorem PosIterRange.items_valid {T : PosTy} (hT : T.WF) {tl br : Int × Int} (h1 : InGrid T tl) {fuel : Nat} {l : List (Int × Int)}
    (h : collectWith (liftNext (PosIterRange.next T)) fuel (PosIterRange.new tl br) = .ok l) : ∀ p ∈ l, InGrid T p := by
  refine collectWith_all (I := fun s => s.topleft = tl ∧ ∀ p, s.value = some p → InGrid T p) ?_ fuel _ l
    ⟨rfl, fun p hp => by cases hp; exact h1⟩ h
  rintro ⟨tl', br', v0⟩ v s' ⟨rfl, hv⟩ hn
  simp only at h1 hv
  cases v0 with
  | none => cases hn
  | some p0 =>
    have hp0 := hv p0 rfl
    simp only [liftNext, PosIterRange.next] at hn
    have fin : ∀ (o : Option (Int × Int)), (∀ q, o = some q → InGrid T q) →
        ∀ q, (o.filter fun p => decide (p.2 ≤ br'.2)) = some q → InGrid T q := by
      intro o ho q hq
      exact ho q (Option.eq_some_of_filter_eq_some hq)
    cases hx : T.next p0 with
    | none =>
      rw [hx] at hn
      injection hn with hn
      injection hn with e1 e2
      injection e1 with e1
      subst e1 e2
      exact ⟨hp0, rfl, fin none (fun q hq => by cases hq)⟩
    | some p =>
      have hp := ((C08_next T hT p0 hp0).2 p hx).1
      rw [hx] at hn
      simp only at hn
      split at hn
      · injection hn with hn
        injection hn with e1 e2
        injection e1 with e1
        subst e1 e2
        refine ⟨hp0, rfl, fin (Except.toOption (PosTy.newSame tl'.1 p.2)) ?_⟩
        intro q hq
        simp only [PosTy.newSame, Except.toOption, Option.some.injEq] at hq
        subst hq
        exact ⟨h1.1, hp.2⟩
      · split at hn
        · cases hy : T.Y.inc p.2 with
          | none => rw [hy] at hn; injection hn with hn; injection hn with e1 e2; cases e1
          | some y =>
            rw [hy] at hn
            injection hn with hn
            injection hn with e1 e2
            injection e1 with e1
            subst e1 e2
            refine ⟨hp0, rfl, fin (Except.toOption (PosTy.newSame tl'.1 y)) ?_⟩
            intro q hq
            simp only [PosTy.newSame, Except.toOption, Option.some.injEq] at hq
            subst hq
            rw [BTy.inc_eq hT.2] at hy
            split at hy
            · rename_i hval
              injection hy with hy
              subst hy
              exact ⟨h1.1, hval⟩
            · cases hy
        · injection hn with hn
          injection hn with e1 e2
          injection e1 with e1
          subst e1 e2
          refine ⟨hp0, rfl, fin (some p) ?_⟩
          intro q hq
          injection hq with hq
          subst hq
          exact hp

theorem PosIterInX.items_valid {T : PosTy} (hT : T.WF) {x : Int} (h0 : InGrid T (x, 0)) {fuel : Nat} {l : List (Int × Int)}
    (h : collectWith (liftNext (PosIterInX.next T)) fuel (PosIterInX.new T x) = .ok l) : ∀ p ∈ l, InGrid T p := by
  refine collectWith_all (I := fun s => ∀ p, s = some p → InGrid T p) ?_ fuel _ l (fun p hp => by cases hp; exact h0) h
  intro s v s' hs hn
  cases s with
  | none => cases hn
  | some p =>
    have hp := hs p rfl
    simp only [liftNext, PosIterInX.next] at hn
    injection hn with hn
    injection hn with e1 e2
    injection e1 with e1
    subst e1 e2
    refine ⟨hp, fun q hq => ?_⟩
    rw [BTy.inc_eq hT.2] at hq
    split at hq
    · rename_i hval
      simp only [Option.bind_some, PosTy.newSame, Except.toOption, Option.some.injEq] at hq
      subst hq
      exact ⟨hp.1, hval⟩
    · cases hq

theorem PosIterInY.items_valid {T : PosTy} (hT : T.WF) {y : Int} (h0 : InGrid T (0, y)) {fuel : Nat} {l : List (Int × Int)}
    (h : collectWith (liftNext (PosIterInY.next T)) fuel (PosIterInY.new T y) = .ok l) : ∀ p ∈ l, InGrid T p := by
  refine collectWith_all (I := fun s => ∀ p, s = some p → InGrid T p) ?_ fuel _ l (fun p hp => by cases hp; exact h0) h
  intro s v s' hs hn
  cases s with
  | none => cases hn
  | some p =>
    have hp := hs p rfl
    simp only [liftNext, PosIterInY.next] at hn
    injection hn with hn
    injection hn with e1 e2
    injection e1 with e1
    subst e1 e2
    refine ⟨hp, fun q hq => ?_⟩
    rw [BTy.inc_eq hT.1] at hq
    split at hq
    · rename_i hval
      simp only [Option.bind_some, PosTy.newSame, Except.toOption, Option.some.injEq] at hq
      subst hq
      exact ⟨hval, hp.2⟩
    · cases hq

theorem Pos.new_inGrid {xmax ymax x y : Int} {p : Int × Int} (h : Pos.new xmax ymax x y = .ok p) : InGrid (PosTy.pos xmax ymax) p := by
  simp only [Pos.new, BTy.new_eq] at h
  by_cases h1 : (BTy.bounded .u16 0 xmax).Valid x
  · by_cases h2 : (BTy.bounded .u16 0 ymax).Valid y
    · rw [if_pos h1, if_pos h2] at h
      injection h with h
      subst h
      exact ⟨h1, h2⟩
    · rw [if_pos h1, if_neg h2] at h; cases h
  · rw [if_neg h1] at h; cases h

/-- The results of the rotations are in the grid, also if the subtraction wraps around. -/
theorem PosTy.rotate_valid [Target] {T : PosTy} (hT : T.WF) {p q : Int × Int} : (T.rotateCw p = .ok q → InGrid T q) ∧ (T.rotateCc p = .ok q → InGrid T q) := by
  have tf : ∀ {B : BTy} (hB : B.WF) {v w : Int}, Out.unwrapRes (B.tryFrom v) = .ok w → B.Valid w := by
    intro B hB v w h
    rw [BTy.tryFrom_eq hB] at h
    split at h
    · rename_i hv
      injection h with h
      exact h ▸ hv
    · cases h
  constructor
  · intro h
    rw [PosTy.rotateCw] at h
    obtain ⟨v, -, h⟩ := Out.bind_ok h
    obtain ⟨x, hx, h⟩ := Out.bind_ok h
    obtain ⟨y, hy, h⟩ := Out.bind_ok h
    injection h with h
    subst h
    exact ⟨tf hT.1 hx, tf hT.2 hy⟩
  · intro h
    rw [PosTy.rotateCc] at h
    obtain ⟨x, hx, h⟩ := Out.bind_ok h
    obtain ⟨v, -, h⟩ := Out.bind_ok h
    obtain ⟨y, hy, h⟩ := Out.bind_ok h
    injection h with h
    subst h
    exact ⟨tf hT.1 hx, tf hT.2 hy⟩

/-- C79, the part that holds: every position made with the constructors, conversions, constants, moves and iterators of the crate, in any number and
order, is a position of its grid. Missing: the public fields and `From<bool>`, see `C79_refuted`. -/
theorem C79_made_partial [Target] (xmax ymax : Int) (hx : IntTy.u16.Has xmax) (hy : IntTy.u16.Has ymax) (p : Int × Int)
    (hp : Pos.Made xmax ymax p) : InGrid (PosTy.pos xmax ymax) p := by
  have hx' : 0 ≤ xmax ∧ xmax ≤ 65535 := hx
  have hy' : 0 ≤ ymax ∧ ymax ≤ 65535 := hy
  have hw : (PosTy.pos xmax ymax).WF := ⟨⟨by decide, Int.le_refl 0, hx'.1, hx'.2⟩, ⟨by decide, Int.le_refl 0, hy'.1, hy'.2⟩⟩
  have h0x : 0 ≤ (PosTy.pos xmax ymax).X.MAX := hx'.1
  have h0y : 0 ≤ (PosTy.pos xmax ymax).Y.MAX := hy'.1
  have ex : (PosTy.pos xmax ymax).X.MIN = 0 := rfl
  have ey : (PosTy.pos xmax ymax).Y.MIN = 0 := rfl
  have hnu : ∀ {x y p}, Pos.newUnwrap xmax ymax x y = .ok p → InGrid (PosTy.pos xmax ymax) p := fun h =>
    Pos.new_inGrid (((C05_pos_new_unwrap_exact _ _ _ _).1 _).1 h)
  induction hp with
  | new h => exact Pos.new_inGrid h
  | newUnwrap h => exact hnu h
  | newStatic h => exact Pos.new_inGrid (((C72_new_static _ _ _ _).1 _).1 h)
  | ofU16 h => exact Pos.new_inGrid h
  | ofI32 h => exact Pos.new_inGrid h
  | ofUsize h =>
    rw [Pos.ofUsize, PosTy.tryFromUsize, PosTy.pos_width hx', Out.ok_bind, IntTy.rem, IntTy.div, if_neg (by omega), if_neg (by omega), Out.ok_bind, Out.ok_bind,
      PosTy.new_eq hw] at h
    injection h with h
    split at h
    · rename_i hv
      injection h with h
      subst h
      exact hv
    · cases h
  | @tryFromPos q p h =>
    rw [PosTy.tryFromPos, PosTy.new_eq hw] at h
    split at h
    · rename_i hv
      injection h with h
      subst h
      exact hv
    · cases h
  | default => exact ⟨⟨by rw [ex]; exact Int.le_refl 0, h0x⟩, ⟨by rw [ey]; exact Int.le_refl 0, h0y⟩⟩
  | FIRST h => exact hnu h
  | LAST h => exact hnu h
  | CENTER h => exact hnu h
  | TOP_RIGHT h => exact hnu h
  | BOTTOM_LEFT h => exact hnu h
  | first => exact (C73_vertical_sorted _ hw).2.2.1
  | last => exact (C73_vertical_sorted _ hw).2.2.2
  | next _ h ih => exact ((C08_next _ hw _ ih).2 _ h).1
  | prev _ h ih => exact ((C08_prev _ hw _ ih).2 _ h).1
  | nextY _ h ih => exact ((C08_next_y _ hw _ ih).2 _ h).1
  | prevY _ h ih => exact ((C08_prev_y _ hw _ ih).2 _ h).1
  | @addDir p q d _ h ih =>
    obtain ⟨a, b⟩ := C20_add_dir_exact _ hw p ih d
    by_cases hc : InGrid (PosTy.pos xmax ymax) (neighbour p d)
    · rw [a hc] at h
      injection h with h
      subst h
      exact hc
    · rw [b hc] at h; cases h
  | @flipH p q _ h ih =>
    rw [(C77_flip_exact _ hw p).1] at h
    split at h
    · rename_i hc
      injection h with h
      subst h
      exact ⟨hc, ih.2⟩
    · cases h
  | @flipV p q _ h ih =>
    rw [(C77_flip_exact _ hw p).2] at h
    split at h
    · rename_i hc
      injection h with h
      subst h
      exact ⟨ih.1, hc⟩
    · cases h
  | rotateCw _ h _ => exact (PosTy.rotate_valid hw).1 h
  | rotateCc _ h _ => exact (PosTy.rotate_valid hw).2 h
  | tlOf _ h ih => exact (C14_tlbr_in_grid _ _ ih _ _ h).1
  | brOf _ h ih => exact (C14_tlbr_in_grid _ _ ih _ _ h).2
  | iter h hm =>
    rw [PosTy.toList_eq hw] at h
    injection h with h
    subst h
    exact PosTy.mem_allPositions.1 hm
  | iterRange _ _ h hm ih _ => exact PosIterRange.items_valid hw ih h _ hm
  | iterInX _ h hm ih => exact PosIterInX.items_valid hw ⟨ih.1, ⟨by rw [ey], h0y⟩⟩ h _ hm
  | iterInY _ h hm ih => exact PosIterInY.items_valid hw ⟨⟨by rw [ex], h0x⟩, ih.2⟩ h _ hm

theorem Pos.toUsize_raw [Target] {xmax ymax : Int} (hx : 0 ≤ xmax ∧ xmax ≤ 65535) {p : Int × Int} (h1 : 0 ≤ p.1 ∧ p.1 ≤ 65535)
    (h2 : 0 ≤ p.2 ∧ p.2 ≤ 65535) : (PosTy.pos xmax ymax).toUsize p = .ok (p.2 * (xmax + 1) + p.1) := by
  have hl := limit_pos
  have hb : p.2 * (xmax + 1) ≤ 65535 * 65536 := Int.mul_le_mul (by omega) (by omega) (by omega) (by omega)
  have hb0 : 0 ≤ p.2 * (xmax + 1) := Int.mul_nonneg (by omega) (by omega)
  simp only [PosTy.toUsize]
  rw [PosTy.intoUsize_eq ⟨by omega, by omega⟩, PosTy.intoUsize_eq ⟨by omega, by omega⟩, PosTy.pos_width hx]
  simp only [Out.ok_bind]
  rw [IntTy.usize_mul ⟨hb0, by omega⟩, Out.ok_bind, IntTy.usize_add ⟨by omega, by omega⟩]

/-- C79. Hence reading or writing a grid of the right SIZE at such a position never leaves the array and never panics. -/
theorem C79_made_access_partial [Target] (xmax ymax : Int) (hx : IntTy.u16.Has xmax) (hy : IntTy.u16.Has ymax) (p : Int × Int)
    (hp : Pos.Made xmax ymax p) (g : List α) (hg : (g.length : Int) = (xmax + 1) * (ymax + 1)) (v : α) :
    (∃ a, Grid.get (PosTy.pos xmax ymax) g p = .ok a) ∧ ∃ g', Grid.set (PosTy.pos xmax ymax) g p v = .ok g' := by
  obtain ⟨⟨h1, h2⟩, h3, h4⟩ := C79_made_partial xmax ymax hx hy p hp
  have e : (PosTy.pos xmax ymax).X.MIN = 0 ∧ (PosTy.pos xmax ymax).X.MAX = xmax ∧ (PosTy.pos xmax ymax).Y.MIN = 0 ∧ (PosTy.pos xmax ymax).Y.MAX = ymax :=
    ⟨rfl, rfl, rfl, rfl⟩
  rw [e.1] at h1
  rw [e.2.1] at h2
  rw [e.2.2.1] at h3
  rw [e.2.2.2] at h4
  simp only [IntTy.Has, IntTy.u16] at hx hy
  have ht := Pos.toUsize_raw (ymax := ymax) hx (p := p) ⟨h1, by omega⟩ ⟨h3, by omega⟩
  have hb0 : 0 ≤ p.2 * (xmax + 1) := Int.mul_nonneg h3 (by omega)
  have hlt : p.2 * (xmax + 1) + p.1 < (xmax + 1) * (ymax + 1) := by nlinarith
  have hlt' : (p.2 * (xmax + 1) + p.1).toNat < g.length := by omega
  exact ⟨⟨g[(p.2 * (xmax + 1) + p.1).toNat], by rw [Grid.get, ht, Out.ok_bind, Grid.getUnchecked, List.getElem?_eq_getElem hlt']⟩,
    ⟨g.set (p.2 * (xmax + 1) + p.1).toNat v, by rw [Grid.set, ht, Out.ok_bind, Grid.setUnchecked, if_pos hlt']⟩⟩

example : Pos.Made 2 1 (2, 0) ∧ (([1, 2, 3, 4, 5, 6] : List Int).length : Int) = (2 + 1) * (1 + 1) ∧
    Grid.get (PosTy.pos 2 1) [1, 2, 3, 4, 5, 6] (2, 0) = .ok 3 :=
  ⟨(.addDir (p := (1, 1)) (d := .NE) (.new (x := 1) (y := 1) (by decide)) (by decide)), by decide, by decide⟩

/-- What C79 claims: whatever values of the coordinate types `BoundedU16<0, XMAX>` and `BoundedU16<0, YMAX>` a position is made of, as long as these
come from safe code (`new`, `default`, `From<bool>`), reading a grid of the right SIZE at it does not leave the array. -/
def C79_claim [Target] : Prop :=
  ∀ (xmax ymax : Int), IntTy.u16.Has xmax → IntTy.u16.Has ymax → ∀ (bx bY : Bool) (g : List Int),
    (g.length : Int) = (xmax + 1) * (ymax + 1) →
    Grid.get (PosTy.pos xmax ymax) g (Pos.ofBounded ((PosTy.pos xmax ymax).X.ofBool bx, (PosTy.pos xmax ymax).Y.ofBool bY)) ≠ .ub

/-- C79 does not hold: on `Pos<0, 0>`, `grid[Pos::from((BoundedU16::from(true), BoundedU16::from(false)))]` reads outside of the array, in a
program without `unsafe`. -/
theorem C79_refuted [Target] : ¬ C79_claim := fun h => h 0 0 (by decide_target) (by decide_target) true false [7] (by decide_target) (by decide_target)

/-- C79, exact, for the public fields: a position made of any two `u16` values reads the cell whose index is y * (XMAX + 1) + x, which is a cell of
another line if x > XMAX, and reads outside of the array exactly when that index is not below the length of the array. -/
theorem C79_raw_fields_exact [Target] (xmax ymax : Int) (hx : IntTy.u16.Has xmax) (p : Int × Int)
    (h1 : IntTy.u16.Has p.1) (h2 : IntTy.u16.Has p.2) (g : List α) :
    Grid.get (PosTy.pos xmax ymax) g (Pos.ofBounded p) =
      match g[(p.2 * (xmax + 1) + p.1).toNat]? with
      | some v => .ok v
      | none => .ub := by
  simp only [IntTy.Has, IntTy.u16] at hx h1 h2
  have ht := Pos.toUsize_raw (ymax := ymax) hx (p := p) h1 h2
  rw [Pos.ofBounded, Grid.get, ht, Out.ok_bind, Grid.getUnchecked]
  cases g[(p.2 * (xmax + 1) + p.1).toNat]? <;> rfl

example : Grid.get (PosTy.pos 2 1) [1, 2, 3, 4, 5, 6] (Pos.ofBounded (4, 0)) = .ok 5 ∧
    Grid.get (PosTy.pos 2 1) [1, 2, 3, 4, 5, 6] (Pos.ofBounded (0, 2)) = .ub := by decide

end Sqrid
