import Verif.Proofs.Display
import Verif.Props.Gridbool
/-!
# Properties of the texts of grids, boolean grids and positions: C68 – C70
-/

namespace Sqrid

-- Statements that do not mention a target are about a debug build for a 64-bit machine.
attribute [local instance] debug64

open Spec

namespace Display

theorem allPositions_eq [Target] {T : PosTy} (hT : T.IsGrid) :
    allPositions T true = (List.range T.ny).flatMap fun y : Nat => (List.range T.nx).map fun x : Nat => ((x : Int), (y : Int)) := by
  simp only [allPositions, if_true, rectRows, intsFromTo, hT.x0, hT.y0, Int.zero_add, List.map_map, List.flatMap_map, Int.sub_zero]
  simp only [PosTy.nx, PosTy.ny, hT.x0, hT.y0, Int.sub_zero]
  rfl

theorem helper_positions [Target] {T : PosTy} (hT : T.IsGrid) (f : Fmt) (cell : P2 → List Char) :
    helper f (T.X.MAX + 1) (T.Y.MAX + 1) ((allPositions T true).map cell) =
      .ok (unlines (picture f (cols T).toNat (rows T).toNat cell)) := by
  rw [← hT.nx_eq, ← hT.ny_eq, allPositions_eq hT, List.map_flatMap]
  simp only [List.map_map]
  refine helper_eq f T.nx T.ny hT.wf.nx_pos hT.wf.ny_pos ?_ ?_ cell
  · rw [hT.nx_eq]; exact hT.x_fits
  · rw [hT.ny_eq]; exact hT.y_fits

theorem iter_eq [Target] {T : PosTy} (hT : T.IsGrid) {g : List α} {c : P2 → α} (h : Grid.Rep T g c) :
    Grid.iter g = (allPositions T true).map c := by
  rw [Grid.iter]
  apply List.ext_getElem?
  intro i
  rw [← PosTy.seg_enumAt, seg]
  by_cases hi : i < T.nx * T.ny
  · simp only [List.getElem?_map, List.getElem?_range hi, Option.map_some, Nat.zero_add]
    have := h.2 _ (PosTy.rowAt_valid hT.wf hi)
    rw [hT.idx_rowAt hi] at this
    exact this
  · rw [List.getElem?_eq_none (by rw [h.1]; omega), List.getElem?_eq_none (by simp; omega)]

/-- Texts of the same lengths that are equal line by line. -/
theorem flatMap_inj {f g : β → List γ} (l : List β) (hlen : ∀ x ∈ l, (f x).length = (g x).length) (h : l.flatMap f = l.flatMap g) :
    ∀ x ∈ l, f x = g x := by
  induction l with
  | nil => simp
  | cons a l ih =>
    rw [List.flatMap_cons, List.flatMap_cons] at h
    obtain ⟨h1, h2⟩ := List.append_inj h (hlen a (by simp))
    intro x hx
    rcases List.mem_cons.1 hx with rfl | hx
    · exact h1
    · exact ih (fun x hx => hlen x (by simp [hx])) h2 x hx

theorem flatMap_length_congr {f g : β → List γ} (l : List β) (hlen : ∀ x ∈ l, (f x).length = (g x).length) :
    (l.flatMap f).length = (l.flatMap g).length := by
  induction l with
  | nil => rfl
  | cons a l ih => simp only [List.flatMap_cons, List.length_append, hlen a (by simp), ih (fun x hx => hlen x (by simp [hx]))]

/-- Two pictures with cells of the same lengths are the same text only if all cells are. -/
theorem picture_inj (f : Fmt) (w h : Nat) (c c' : P2 → List Char) (hlen : ∀ p, (f.pad (c p)).length = (f.pad (c' p)).length)
    (e : unlines (picture f w h c) = unlines (picture f w h c')) (x y : Nat) (hx : x < w) (hy : y < h) :
    f.pad (c ((x : Int), (y : Int))) = f.pad (c' ((x : Int), (y : Int))) := by
  simp only [picture, unlines_append] at e
  have e1 := List.append_cancel_left (List.append_cancel_right e)
  simp only [unlines, List.flatMap_map] at e1
  have hl : ∀ y, (gridLine f w h c y).length = (gridLine f w h c' y).length := by
    intro y
    simp only [gridLine, List.length_append]
    rw [flatMap_length_congr _ (fun x _ => hlen _)]
  have e2 := flatMap_inj _ (fun y _ => by simp only [List.length_append, hl y]) e1 y (List.mem_range.2 hy)
  have e3 := List.append_cancel_right e2
  simp only [gridLine] at e3
  exact flatMap_inj _ (fun x _ => hlen _) (List.append_cancel_left e3) x (List.mem_range.2 hx)

theorem pad_length (f : Fmt) {s s' : List Char} (h : s.length = s'.length) : (f.pad s).length = (f.pad s').length := by
  have : ∀ s : List Char, (f.pad s).length =
      max (match f.precision with | none => s.length | some n => min n s.length) (f.width.getD 0) := by
    intro s
    rcases f with ⟨fill, align, width, prec⟩
    rcases prec with - | n <;> rcases width with - | m <;> rcases align with - | (- | - | -) <;> simp [Fmt.pad] <;> omega
  rw [this, this, h]

theorem pad_inj (f : Fmt) (hf : f.precision ≠ some 0) {a b : Char} (h : f.pad [a] = f.pad [b]) : a = b := by
  rcases f with ⟨fill, align, width, prec⟩
  have e : ∀ c : Char, Fmt.pad ⟨fill, align, width, prec⟩ [c] = Fmt.pad ⟨fill, align, width, none⟩ [c] := by
    intro c
    rcases prec with - | (- | n)
    · rfl
    · exact absurd rfl hf
    · simp [Fmt.pad]
  rw [e, e] at h
  rcases width with - | m <;> rcases align with - | (- | - | -) <;> simpa [Fmt.pad] using h

theorem pad_plain (s : List Char) : Fmt.plain.pad s = s := rfl

theorem newline_number (n : Nat) : '\n' ∉ number n := fun h =>
  absurd (Nat.isDigit_of_mem_toDigits (b := 10) (by decide) (by decide) h) (by decide)

theorem newline_toRight (w : Nat) {s : List Char} (hs : '\n' ∉ s) : '\n' ∉ toRight w s := by
  intro h
  rcases List.mem_append.1 h with h | h
  · exact absurd (List.eq_of_mem_replicate h) (by decide)
  · exact hs h

theorem decimal_inj {m n : Nat} (h : decimal m = decimal n) : m = n := by
  have := congrArg (Nat.ofDigitChars 10 · 0) h
  simpa [decimal, Nat.ofDigitChars_ten_toDigits] using this

theorem split_inj {c : γ} (a b a' b' : List γ) (ha : c ∉ a) (ha' : c ∉ a') (h : a ++ c :: b = a' ++ c :: b') : a = a' ∧ b = b' := by
  induction a generalizing a' with
  | nil =>
    cases a' with
    | nil => exact ⟨rfl, (List.cons.inj h).2⟩
    | cons x a' => exact absurd (List.cons.inj h).1 (fun e => ha' (by simp [e]))
  | cons x a ih =>
    cases a' with
    | nil => exact absurd (List.cons.inj h).1 (fun e => ha (by simp [e]))
    | cons x' a' =>
      obtain ⟨e1, e2⟩ := List.cons.inj h
      obtain ⟨i1, i2⟩ := ih a' (fun hc => ha (by simp [hc])) (fun hc => ha' (by simp [hc])) e2
      exact ⟨by rw [e1, i1], i2⟩

end Display

/-! ## C68 -/

/-- C68. Printing a grid, whatever the options of the format string, never panics, and the text is the picture of the grid: the text of the item
that reading at `(x, y)` gives is the `x`-th of the line `y`. -/
theorem C68_grid_text [Target] (T : PosTy) (hT : T.IsGrid) (g : List α) (hg : (g.length : Int) = cols T * rows T) (f : Fmt) (shw : α → List Char) :
    ∃ cell : Int × Int → α, (∀ p, InGrid T p → Grid.get T g p = .ok (cell p)) ∧
      Grid.display T f shw g = .ok (unlines (picture f (cols T).toNat (rows T).toNat fun p => shw (cell p))) := by
  obtain ⟨c, hc⟩ := Grid.exists_rep hT g ((Grid.length_iff hT g).1 hg)
  refine ⟨c, fun p hp => hc.get hT hp, ?_⟩
  rw [Grid.display, hT.width_eq, Out.ok_bind, hT.height_eq, Out.ok_bind, Display.iter_eq hT hc, List.map_map]
  exact Display.helper_positions hT f (fun p => shw (c p))

/-- C68. The labels of the columns: read from top to bottom, the characters above the column `x` (and, in the last lines, those below) are the
number `x`, aligned to the right, when each cell takes one character. -/
theorem C68_column_labels (w h : Nat) (cell : Int × Int → List Char) (x : Nat) (hx : x < w) :
    (List.range (labelWidth w)).map (fun k => ((picture Fmt.plain w h cell)[k]?).bind fun l => l[labelWidth h + 1 + x]?) =
      (toRight (labelWidth w) (number x)).map some ∧
    (List.range (labelWidth w)).map (fun k => ((picture Fmt.plain w h cell)[labelWidth w + h + k]?).bind fun l => l[labelWidth h + 1 + x]?) =
      (toRight (labelWidth w) (number x)).map some := by
  have hl : ∀ k, k < labelWidth w → (columnLabels Fmt.plain w h k)[labelWidth h + 1 + x]? = (toRight (labelWidth w) (number x))[k]? := by
    intro k hk
    have e1 : (toRight (labelWidth h) [] ++ [' ']).length = labelWidth h + 1 := by simp [toRight]
    rw [columnLabels, List.getElem?_append_right (by rw [e1]; omega), e1, show labelWidth h + 1 + x - (labelWidth h + 1) = x by omega]
    have hc : ∀ i ∈ List.range w, Fmt.plain.pad ((toRight (labelWidth w) (number i))[k]?.toList) =
        [((toRight (labelWidth w) (number i))[k]?).getD ' '] := by
      intro i hi
      have hk' : k < (toRight (labelWidth w) (number i)).length := by
        rw [Display.toRight_length (Display.number_length_le (List.mem_range.1 hi))]; exact hk
      rw [List.getElem?_eq_getElem hk']
      rfl
    rw [List.flatMap_congr hc, ← List.map_eq_flatMap, List.getElem?_map, List.getElem?_range hx, Option.map_some]
    have hk' : k < (toRight (labelWidth w) (number x)).length := by
      rw [Display.toRight_length (Display.number_length_le hx)]; exact hk
    rw [List.getElem?_eq_getElem hk']
    rfl
  have hr : (List.range (labelWidth w)).map (fun k => (toRight (labelWidth w) (number x))[k]?) = (toRight (labelWidth w) (number x)).map some := by
    apply List.ext_getElem?
    intro k
    have hlen := Display.toRight_length (Display.number_length_le hx)
    by_cases hk : k < labelWidth w
    · simp only [List.getElem?_map, List.getElem?_range hk, Option.map_some]
      rw [List.getElem?_eq_getElem (by rw [hlen]; exact hk)]
      rfl
    · rw [List.getElem?_eq_none (by simp; omega), List.getElem?_eq_none (by simp [hlen]; omega)]
  constructor
  · rw [← hr]
    apply List.map_congr_left
    intro k hk
    have hk := List.mem_range.1 hk
    rw [picture, List.append_assoc, List.getElem?_append_left (by simpa using hk), List.getElem?_map, List.getElem?_range hk, Option.map_some,
      Option.bind_some, hl k hk]
  · rw [← hr]
    apply List.map_congr_left
    intro k hk
    have hk := List.mem_range.1 hk
    rw [picture, List.getElem?_append_right (by simp), List.getElem?_map]
    simp only [List.length_append, List.length_map, List.length_range, Nat.add_sub_cancel_left]
    rw [List.getElem?_range hk, Option.map_some, Option.bind_some, hl k hk]

example : Grid.display (PosTy.pos 10 1) ⟨'_', some .right, some 2, none⟩ (fun n : Nat => decimal n) (List.range 22) = .ok (unlines [
    "  _ _ _ _ _ _ _ _ _ _ _1".toList,
    "  _0_1_2_3_4_5_6_7_8_9_0".toList,
    "0 _0_1_2_3_4_5_6_7_8_910".toList,
    "1 1112131415161718192021".toList,
    "  _ _ _ _ _ _ _ _ _ _ _1".toList,
    "  _0_1_2_3_4_5_6_7_8_9_0".toList]) := by decide +kernel

/-! ## C69 -/

/-- C69. Printing a boolean grid never panics, whatever the options of the format string, and the text is the picture of the grid, with `#` where `get`
is true and `.` where it is false. -/
theorem C69_gridbool_text [Target] (T : PosTy) (hT : T.IsGrid) (gb : List (BitVec 32)) (hW : cols T * rows T ≤ 32 * (gb.length : Int)) (f : Fmt) :
    ∃ b : Int × Int → Bool, (∀ p, InGrid T p → Gridbool.get T gb p = .ok (b p)) ∧
      Gridbool.display T f gb =
        .ok (unlines (picture f (cols T).toNat (rows T).toNat fun p => if b p = true then ['#'] else ['.'])) := by
  have hW' := (Gridbool.words_iff hT _).1 hW
  have h := Gridbool.exists_rep T gb
  obtain ⟨m1, -, -, -⟩ := Gridbool.mapM_get hT hW' h (allPositions T true) (fun p hp => PosTy.mem_allPositions.1 hp)
  refine ⟨_, fun p hp => h.get hT hW' hp, ?_⟩
  rw [Gridbool.display, hT.width_eq, Out.ok_bind, hT.height_eq, Out.ok_bind, Gridbool.iter, PosTy.toList_eq hT.wf, Out.ok_bind, m1, Out.ok_bind,
    List.map_map]
  exact Display.helper_positions hT f (fun p => if Gridbool.bit gb (T.idx p) = true then ['#'] else ['.'])

/-- C69. Two boolean grids print the same text exactly when they hold the same values, with any format string that does not cut the texts to
0 characters. -/
theorem C69_text_faithful [Target] (T : PosTy) (hT : T.IsGrid) (gb gb' : List (BitVec 32)) (hW : cols T * rows T ≤ 32 * (gb.length : Int))
    (hW' : cols T * rows T ≤ 32 * (gb'.length : Int)) (f : Fmt) (hf : f.precision ≠ some 0) :
    Gridbool.display T f gb = Gridbool.display T f gb' ↔ ∀ p, InGrid T p → Gridbool.get T gb p = Gridbool.get T gb' p := by
  obtain ⟨b, h1, h2⟩ := C69_gridbool_text T hT gb hW f
  obtain ⟨b', h1', h2'⟩ := C69_gridbool_text T hT gb' hW' f
  have hw : (cols T).toNat = T.nx := rfl
  have hh : (rows T).toNat = T.ny := rfl
  constructor
  · intro e p hp
    rw [h2, h2'] at e
    injection e with e
    have hp' := hT.valid_iff'.1 hp
    have e1 := hT.nx_eq
    have e2 := hT.ny_eq
    have := Display.picture_inj f _ _ _ _ (fun p => Display.pad_length f (by split <;> split <;> rfl)) e p.1.toNat p.2.toNat (by omega) (by omega)
    rw [Int.toNat_of_nonneg (by omega), Int.toNat_of_nonneg (by omega)] at this
    rw [h1 p hp, h1' p hp]
    cases hb : b p <;> cases hb' : b' p <;> simp only [Prod.mk.eta, hb, hb', if_true, if_false, Bool.false_eq_true] at this ⊢
    · exact absurd (Display.pad_inj f hf this) (by decide)
    · exact absurd (Display.pad_inj f hf this) (by decide)
  · intro e
    rw [h2, h2']
    congr 2
    have : ∀ y ∈ List.range (rows T).toNat, gridLine f (cols T).toNat (rows T).toNat (fun p => if b p = true then ['#'] else ['.']) y =
        gridLine f (cols T).toNat (rows T).toNat (fun p => if b' p = true then ['#'] else ['.']) y := by
      intro y hy
      have hy := List.mem_range.1 hy
      rw [gridLine, gridLine]
      congr 1
      apply List.flatMap_congr
      intro x hx
      have hx := List.mem_range.1 hx
      have e1 := hT.nx_eq
      have e2 := hT.ny_eq
      have hp : InGrid T ((x : Int), (y : Int)) := hT.valid_iff'.2 (by simp only; omega)
      have := e _ hp
      rw [h1 _ hp, h1' _ hp] at this
      injection this with this
      simp only [this]
    rw [picture, picture, List.map_congr_left this]

/-- C69. In the text printed with `{}`, the character of the position `(x, y)` is in the line `y` after the labels of the columns, and in
the column `x` after the label of the line. -/
theorem C69_char_at [Target] (T : PosTy) (hT : T.IsGrid) (gb : List (BitVec 32)) (hW : cols T * rows T ≤ 32 * (gb.length : Int)) :
    ∃ ls, Gridbool.display T Fmt.plain gb = .ok (unlines ls) ∧ (∀ l ∈ ls, '\n' ∉ l) ∧
      ∀ p, InGrid T p → ∃ b, Gridbool.get T gb p = .ok b ∧
        (ls[labelWidth (cols T).toNat + p.2.toNat]?).bind (fun l => l[labelWidth (rows T).toNat + 1 + p.1.toNat]?) =
          some (if b = true then '#' else '.') := by
  obtain ⟨b, h1, h2⟩ := C69_gridbool_text T hT gb hW Fmt.plain
  refine ⟨_, h2, ?_, fun p hp => ⟨_, h1 p hp, ?_⟩⟩
  · have hl : ∀ k, '\n' ∉ columnLabels Fmt.plain (cols T).toNat (rows T).toNat k := by
      intro k hk
      simp only [columnLabels, List.mem_append, List.mem_flatMap, Display.pad_plain, Option.mem_toList, List.mem_singleton] at hk
      rcases hk with (hk | hk) | ⟨x, -, hk⟩
      · exact Display.newline_toRight _ (by simp) hk
      · exact absurd hk (by decide)
      · exact Display.newline_toRight _ (Display.newline_number x) (List.mem_of_getElem? hk)
    intro l hl'
    simp only [picture, List.mem_append, List.mem_map] at hl'
    rcases hl' with (⟨k, -, rfl⟩ | ⟨y, -, rfl⟩) | ⟨k, -, rfl⟩
    · exact hl k
    · intro hy
      simp only [gridLine, List.mem_append, List.mem_flatMap, Display.pad_plain, List.mem_singleton] at hy
      rcases hy with (hy | hy) | ⟨x, -, hy⟩
      · exact Display.newline_toRight _ (Display.newline_number y) hy
      · exact absurd hy (by decide)
      · split at hy <;> exact absurd hy (by decide)
    · exact hl k
  · have hp' := hT.valid_iff'.1 hp
    have e1 := hT.nx_eq
    have e2 := hT.ny_eq
    have hx : p.1.toNat < (cols T).toNat := by show _ < T.nx; omega
    have hy : p.2.toNat < (rows T).toNat := by show _ < T.ny; omega
    rw [picture, List.getElem?_append_left (by simp; omega), List.getElem?_append_right (by simp), List.getElem?_map]
    simp only [List.length_map, List.length_range, Nat.add_sub_cancel_left]
    rw [List.getElem?_range hy, Option.map_some, Option.bind_some, gridLine]
    have e3 : (toRight (labelWidth (rows T).toNat) (number p.2.toNat) ++ [' ']).length = labelWidth (rows T).toNat + 1 := by
      rw [List.length_append, Display.toRight_length (Display.number_length_le hy)]; rfl
    rw [List.getElem?_append_right (by rw [e3]; omega), e3, Nat.add_sub_cancel_left]
    have hc : ∀ i ∈ List.range (cols T).toNat, Fmt.plain.pad (if b ((i : Int), (p.2.toNat : Int)) = true then ['#'] else ['.']) =
        [if b ((i : Int), (p.2.toNat : Int)) = true then '#' else '.'] := by
      intro i _
      rw [Display.pad_plain]; split <;> rfl
    rw [List.flatMap_congr hc, ← List.map_eq_flatMap, List.getElem?_map, List.getElem?_range hx, Option.map_some,
      Int.toNat_of_nonneg (by omega), Int.toNat_of_nonneg (by omega)]

example : Gridbool.display (PosTy.pos 2 1) Fmt.plain [0x14000000#32] = .ok (unlines [
    "  012".toList, "0 ...".toList, "1 #.#".toList, "  012".toList]) := by decide +kernel

/-- The condition on the precision in `C69_text_faithful` is needed: `{:.0}` prints no cell at all. -/
example : Gridbool.display (PosTy.pos 2 1) ⟨' ', none, none, some 0⟩ [0x14000000#32] =
    Gridbool.display (PosTy.pos 2 1) ⟨' ', none, none, some 0⟩ [0#32] ∧
    Gridbool.get (PosTy.pos 2 1) [0x14000000#32] (0, 1) ≠ Gridbool.get (PosTy.pos 2 1) [0#32] (0, 1) := by decide +kernel

/-! ## C70 -/

/-- C70. The text of a position is its two coordinates in decimal, and different positions have different texts. -/
theorem C70_pos_text (xmax ymax : Int) (p q : Int × Int)
    (hp : InGrid (PosTy.pos xmax ymax) p) (hq : InGrid (PosTy.pos xmax ymax) q) :
    Pos.display p = "(".toList ++ number p.1.toNat ++ ",".toList ++ number p.2.toNat ++ ")".toList ∧
    (Pos.display p = Pos.display q ↔ p = q) := by
  have lo : ∀ r, InGrid (PosTy.pos xmax ymax) r → 0 ≤ r.1 ∧ 0 ≤ r.2 := fun r hr => ⟨hr.1.1, hr.2.1⟩
  have hp := lo p hp
  have hq := lo q hq
  refine ⟨rfl, fun h => ?_, fun h => by rw [h]⟩
  have hc : ∀ n, ',' ∉ decimal n := fun n hn =>
    absurd (Nat.isDigit_of_mem_toDigits (b := 10) (by decide) (by decide) hn) (by decide)
  simp only [Pos.display, List.append_assoc, List.cons_append, List.nil_append, List.cons.injEq, true_and] at h
  obtain ⟨h1, h2⟩ := Display.split_inj _ _ _ _ (hc _) (hc _) h
  have h2 := List.append_cancel_right h2
  have := Display.decimal_inj h1
  have := Display.decimal_inj h2
  ext <;> omega

example : InGrid (PosTy.pos 100 20) (12, 3) ∧ InGrid (PosTy.pos 100 20) (1, 12) ∧ Pos.display (12, 3) = "(12,3)".toList ∧ Pos.display (1, 12) = "(1,12)".toList := by
  refine ⟨by unfold InGrid; decide, by unfold InGrid; decide, by decide +kernel, by decide +kernel⟩

/-! ## C113 -/

theorem integer_inj {v w : Int} (h : integer v = integer w) : v = w := by
  have hm : ∀ n, '-' ∉ number n := fun n hn =>
    absurd (Nat.isDigit_of_mem_toDigits (b := 10) (by decide) (by decide) hn) (by decide)
  unfold integer at h
  by_cases hv : v < 0 <;> by_cases hw : w < 0
  · rw [if_pos hv, if_pos hw] at h
    have := Display.decimal_inj (List.append_cancel_left h)
    omega
  · rw [if_pos hv, if_neg hw] at h
    exact absurd (show '-' ∈ number w.natAbs by rw [← List.nil_append (number w.natAbs), ← h]; simp) (hm _)
  · rw [if_neg hv, if_pos hw] at h
    exact absurd (show '-' ∈ number v.natAbs by rw [← List.nil_append (number v.natAbs), h]; simp) (hm _)
  · rw [if_neg hv, if_neg hw] at h
    have := Display.decimal_inj (List.append_cancel_left h)
    omega

/-- C113. With all format options the text of a bounded integer, also the one for debugging, is the integer in decimal, neither padded nor cut; so
different values have different texts. -/
theorem C113_bounded_text (f g : Fmt) (v w : Int) :
    BTy.boundedDisplay f v = integer v ∧ BTy.boundedDebug f v = integer v ∧
    (BTy.boundedDisplay f v = BTy.boundedDisplay g w ↔ v = w) ∧ (BTy.boundedDebug f v = BTy.boundedDebug g w ↔ v = w) := by
  have e : ∀ v, decimalInt v = integer v := by
    intro v
    unfold decimalInt integer
    by_cases hv : v < 0
    · rw [if_pos hv, if_pos hv]; rfl
    · rw [if_neg hv, if_neg hv]; rfl
  simp only [BTy.boundedDisplay, BTy.boundedDebug, e, true_and]
  exact ⟨⟨integer_inj, fun h => by rw [h]⟩, ⟨integer_inj, fun h => by rw [h]⟩⟩

example : BTy.boundedDisplay ⟨'*', some .right, some 8, some 1⟩ (-128) = "-128".toList ∧ BTy.boundedDebug Fmt.plain 65535 = "65535".toList := by
  decide +kernel

/-- C113. The text for debugging of a position is `Pos((x, y))`, and different positions have different texts. That of a direction is its name, and different
directions have different texts. -/
theorem C113_debug_text (p q : Int × Int) (d e : Dir) :
    Pos.debug p = "Pos((".toList ++ integer p.1 ++ ", ".toList ++ integer p.2 ++ "))".toList ∧ (Pos.debug p = Pos.debug q ↔ p = q) ∧
    d.nameCardinal = .ok d.debug ∧ (d.debug = e.debug ↔ d = e) := by
  have t : ∀ p, Pos.debug p = "Pos((".toList ++ integer p.1 ++ ", ".toList ++ integer p.2 ++ "))".toList := fun p => by
    have e : ∀ v, BTy.boundedDebug Fmt.plain v = integer v := fun v => (C113_bounded_text Fmt.plain Fmt.plain v v).2.1
    unfold Pos.debug
    rw [e, e]
  refine ⟨t p, ⟨fun h => ?_, fun h => by rw [h]⟩, by cases d <;> rfl, by cases d <;> cases e <;> decide⟩
  rw [t p, t q] at h
  have hc : ∀ v, ',' ∉ integer v := by
    intro v hv
    rcases List.mem_append.1 hv with hv | hv
    · by_cases h : v < 0
      · rw [if_pos h] at hv; simp at hv
      · rw [if_neg h] at hv; simp at hv
    · exact absurd (Nat.isDigit_of_mem_toDigits (b := 10) (by decide) (by decide) hv) (by decide)
  have h := List.append_cancel_right h
  rw [show ", ".toList = [',', ' '] by decide] at h
  simp only [List.append_assoc] at h
  have h := List.append_cancel_left h
  simp only [List.cons_append, List.nil_append] at h
  obtain ⟨h1, h2⟩ := Display.split_inj (c := ',') _ (' ' :: integer p.2) _ (' ' :: integer q.2) (hc p.1) (hc q.1) h
  have h2 := (List.cons.inj h2).2
  exact Prod.ext (integer_inj h1) (integer_inj h2)

example : Pos.debug (12, 3) = "Pos((12, 3))".toList ∧ Dir.debug .SW = "SW".toList := by decide +kernel

end Sqrid
