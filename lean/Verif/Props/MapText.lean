import Verif.Spec.MapText
import Verif.Props.Adapters
import Verif.Props.Display
/-!
# Property C157: maps as texts
-/

namespace Sqrid

open Spec

theorem fromBools_positions [Target] {T : PosTy} (hT : T.IsGrid) {WORDS : Nat} (hW : cols T * rows T ≤ 32 * (WORDS : Int)) (cell : Int × Int → Bool) :
    ∃ gb, Gridbool.fromBools T WORDS ((allPositions T true).map cell) = .ok gb ∧ gb.length = WORDS ∧ ∀ p, InGrid T p → Gridbool.get T gb p = .ok (cell p) := by
  have hlen : (((allPositions T true).map cell).length : Int) = cols T * rows T := by
    rw [List.length_map, PosTy.allPositions_length]
    exact hT.cells_eq
  obtain ⟨gb, h1, h2, h3⟩ := (C39_collect_bools T hT WORDS hW _).1 hlen
  refine ⟨gb, h1, h2, fun p hp => ?_⟩
  obtain ⟨l, h4, h5, _⟩ := C38_iter T hT gb (by rw [h2]; exact hW)
  rw [h3] at h4
  injection h4 with h4
  subst h4
  rw [List.map_map] at h5
  exact (List.map_inj_left.1 h5 p (PosTy.mem_allPositions.2 hp)).symm

/-- C157. A text with as many marks as there are positions gives a `Gridbool` that is true where the mark is `#`, mark after mark in reading order. With any other number of
marks, `collect` panics. -/
theorem C157_read [Target] (T : PosTy) (hT : T.IsGrid) (WORDS : Nat) (hW : cols T * rows T ≤ 32 * (WORDS : Int)) (text : List Char) :
    (((marks text).length : Int) = cols T * rows T → ∃ gb, readMap T WORDS text = .ok gb ∧ gb.length = WORDS ∧
      ∀ p, InGrid T p → ∃ c, (marks text)[(p.2 * cols T + p.1).toNat]? = some c ∧ Gridbool.get T gb p = .ok (decide (c = '#'))) ∧
    (((marks text).length : Int) ≠ cols T * rows T → readMap T WORDS text = .panic) := by
  constructor
  · intro hl
    obtain ⟨gb, h1, h2, h3⟩ := (C39_collect_bools T hT WORDS hW ((marks text).map fun c => decide (c = '#'))).1 (by rw [List.length_map]; exact hl)
    refine ⟨gb, h1, h2, fun p hp => ?_⟩
    obtain ⟨l, h4, h5, _⟩ := C38_iter T hT gb (by rw [h2]; exact hW)
    rw [h3] at h4
    injection h4 with h4
    subst h4
    have hi : T.toUsize p = .ok (T.idx p : Int) := hT.toUsize_idx hp
    have hidx : (p.2 * cols T + p.1).toNat = T.idx p := by
      have := hT.idx_cast hp
      have hc : cols T = T.X.MAX + 1 := by unfold cols; rw [hT.x0]; omega
      rw [hc, ← this, Int.toNat_natCast]
    rw [hidx]
    have h6 := congrArg (fun l => l[T.idx p]?) h5
    simp only [List.getElem?_map] at h6
    rw [(allPositions_index hT _ p).2 ⟨hp, hi⟩] at h6
    cases hc : (marks text)[T.idx p]? with
    | none => rw [hc] at h6; simp at h6
    | some c =>
      rw [hc] at h6
      simp only [Option.map_some, Option.some.injEq] at h6
      exact ⟨c, rfl, h6.symm⟩
  · intro hl
    exact (C39_collect_bools T hT WORDS hW _).2 (by rw [List.length_map]; exact hl)

theorem marks_append (a b : List Char) : marks (a ++ b) = marks a ++ marks b := List.filter_append ..

theorem marks_of_none {a : List Char} (h : ∀ c ∈ a, c ≠ '#' ∧ c ≠ '.') : marks a = [] := by
  rw [marks, List.filter_eq_nil_iff]
  intro c hc
  simp [h c hc]

theorem marks_flatMap (l : List α) (f : α → List Char) : marks (l.flatMap f) = l.flatMap fun a => marks (f a) := by
  induction l with
  | nil => rfl
  | cons a l ih => rw [List.flatMap_cons, marks_append, ih, List.flatMap_cons]

theorem marks_unlines (ls : List (List Char)) : marks (unlines ls) = ls.flatMap marks := by
  rw [unlines, marks_flatMap]
  congr 1
  funext l
  rw [marks_append]
  show marks l ++ [] = _
  rw [List.append_nil]

/-- C157. The lines of a map: in a text of as many lines as the grid has, with as many marks in each line as the grid has columns, the mark `x` of the line `y` is that of the
position `(x, y)`. Other characters, such as spaces, do not matter. -/
theorem C157_lines [Target] (T : PosTy) (hT : T.IsGrid) (WORDS : Nat) (hW : cols T * rows T ≤ 32 * (WORDS : Int)) (ls : List (List Char))
    (hr : (ls.length : Int) = rows T) (hc : ∀ l ∈ ls, ((marks l).length : Int) = cols T) :
    ∃ gb, readMap T WORDS (unlines ls) = .ok gb ∧ gb.length = WORDS ∧
      ∀ p, InGrid T p → ∃ l c, ls[p.2.toNat]? = some l ∧ (marks l)[p.1.toNat]? = some c ∧ Gridbool.get T gb p = .ok (decide (c = '#')) := by
  have hw : cols T = (T.nx : Int) := by unfold cols; rw [hT.x0, hT.nx_eq]; omega
  have hh : rows T = (T.ny : Int) := by unfold rows; rw [hT.y0, hT.ny_eq]; omega
  have hr' : ls.length = T.ny := by omega
  have hc' : ∀ l ∈ ls, (marks l).length = T.nx := fun l hl => by have := hc l hl; omega
  let cell : Int × Int → Bool := fun p => decide ((ls[p.2.toNat]?.bind fun l => (marks l)[p.1.toNat]?) = some '#')
  have key : (marks (unlines ls)).map (fun c => decide (c = '#')) = (allPositions T true).map cell := by
    rw [marks_unlines, Display.allPositions_eq hT, List.map_flatMap, List.map_flatMap]
    have e : ls = (List.range T.ny).map fun y => (ls[y]?).getD [] := by
      apply List.ext_getElem (by simp [hr'])
      intro i h1 h2
      simp [h1]
    have step : (List.range T.ny).flatMap (fun y : Nat => ((List.range T.nx).map fun x : Nat => ((x : Int), (y : Int))).map cell) =
        ((List.range T.ny).map fun y => (ls[y]?).getD []).flatMap fun l => (marks l).map fun c => decide (c = '#') := by
      rw [List.flatMap_map]
      apply List.flatMap_congr
      intro y hy
      have hy' : y < ls.length := by have := List.mem_range.1 hy; omega
      rw [List.getElem?_eq_getElem hy', Option.getD_some]
      have hlen := hc' _ (List.getElem_mem hy')
      apply List.ext_getElem (by simp [hlen])
      intro x h1 h2
      have hx : x < (marks ls[y]).length := by simpa using h2
      simp [cell, hy', hx]
    rw [step, ← e]
  obtain ⟨gb, h1, h2, h3⟩ := fromBools_positions hT hW cell
  refine ⟨gb, by rw [readMap, key, h1], h2, fun p hp => ?_⟩
  have hp' : (T.X.MIN ≤ p.1 ∧ p.1 ≤ T.X.MAX) ∧ (T.Y.MIN ≤ p.2 ∧ p.2 ≤ T.Y.MAX) := hp
  rw [hT.x0, hT.y0] at hp'
  have e1 := hT.nx_eq
  have e2 := hT.ny_eq
  have hy : p.2.toNat < ls.length := by omega
  have hx : p.1.toNat < (marks ls[p.2.toNat]).length := by rw [hc' _ (List.getElem_mem hy)]; omega
  refine ⟨ls[p.2.toNat], (marks ls[p.2.toNat])[p.1.toNat], List.getElem?_eq_getElem hy, List.getElem?_eq_getElem hx, ?_⟩
  rw [h3 p hp]
  simp only [cell, List.getElem?_eq_getElem hy, Option.bind_some, List.getElem?_eq_getElem hx, Option.some.injEq]

theorem mem_pad {f : Fmt} {s : List Char} {c : Char} (h : c ∈ f.pad s) : c ∈ s ∨ c = f.fill := by
  obtain ⟨fill, align, width, precision⟩ := f
  have ht : ∀ n, c ∈ s.take n → c ∈ s := fun n h => List.mem_of_mem_take h
  cases precision <;> cases width <;> rcases align with _ | (_ | _ | _) <;>
    simp only [Fmt.pad, Option.getD_none, Option.getD_some, List.mem_append, List.mem_replicate] at h <;>
    first
      | exact .inl h
      | exact .inl (ht _ h)
      | (rcases h with h | h <;> first | exact .inl h | exact .inl (ht _ h) | exact .inr h.2)
      | (rcases h with (h | h) | h <;> first | exact .inl h | exact .inl (ht _ h) | exact .inr h.2)

theorem marks_pad {f : Fmt} (hf : f.precision ≠ some 0) (hfill : f.fill ≠ '#' ∧ f.fill ≠ '.') (c : Char) (hc : c = '#' ∨ c = '.') : marks (f.pad [c]) = [c] := by
  have h2 : marks [c] = [c] := by rcases hc with rfl | rfl <;> rfl
  have h3 : ∀ n, marks (List.replicate n f.fill) = [] := fun n => marks_of_none fun x hx => by rw [(List.mem_replicate.1 hx).2]; exact hfill
  have ht : ∀ n, [c].take (n + 1) = [c] := fun n => by simp
  obtain ⟨fill, align, width, precision⟩ := f
  dsimp only at hf h3
  rcases precision with _ | _ | n
  · cases width <;> rcases align with _ | (_ | _ | _) <;> simp only [Fmt.pad, Option.getD_none, Option.getD_some, marks_append, h2, h3] <;> rfl
  · exact absurd rfl hf
  · cases width <;> rcases align with _ | (_ | _ | _) <;> simp only [Fmt.pad, ht, Option.getD_none, Option.getD_some, marks_append, h2, h3] <;> rfl

theorem marks_toRight_number (w n : Nat) : ∀ c ∈ toRight w (number n), c ≠ '#' ∧ c ≠ '.' := by
  intro c hc
  rw [toRight, List.mem_append] at hc
  rcases hc with hc | hc
  · rw [(List.mem_replicate.1 hc).2]; decide
  · have := Nat.isDigit_of_mem_toDigits (b := 10) (by decide) (by decide) hc
    constructor <;> rintro rfl <;> exact absurd this (by decide)

theorem marks_columnLabels {f : Fmt} (hfill : f.fill ≠ '#' ∧ f.fill ≠ '.') (w h k : Nat) : marks (columnLabels f w h k) = [] := by
  apply marks_of_none
  intro c hc
  rw [columnLabels, List.mem_append, List.mem_append] at hc
  rcases hc with (hc | hc) | hc
  · rw [toRight, List.append_nil] at hc; rw [(List.mem_replicate.1 hc).2]; decide
  · rw [List.mem_singleton.1 hc]; decide
  · obtain ⟨x, _, hx⟩ := List.mem_flatMap.1 hc
    rcases mem_pad hx with hx | rfl
    · rw [Option.mem_toList] at hx
      exact marks_toRight_number _ _ c (List.mem_of_getElem? hx)
    · exact hfill

theorem marks_gridLine {f : Fmt} (hf : f.precision ≠ some 0) (hfill : f.fill ≠ '#' ∧ f.fill ≠ '.') (w h y : Nat) (b : Int × Int → Bool) :
    marks (gridLine f w h (fun p => if b p = true then ['#'] else ['.']) y) = (List.range w).map fun x : Nat => if b ((x : Int), (y : Int)) = true then '#' else '.' := by
  rw [gridLine, marks_append, marks_append, marks_of_none (marks_toRight_number _ _), marks_flatMap]
  show (List.range w).flatMap _ = _
  rw [← List.flatMap_singleton' (l := (List.range w).map _), List.flatMap_map]
  apply List.flatMap_congr
  intro x _
  split
  · exact marks_pad hf hfill '#' (.inl rfl)
  · exact marks_pad hf hfill '.' (.inr rfl)

/-- C157. The text of a `Gridbool`, with the labels of its lines and columns, reads as one with the same values, whatever the format options, as long as the precision is not
0 and the cells are not filled up with marks. -/
theorem C157_round_trip [Target] (T : PosTy) (hT : T.IsGrid) (gb : List (BitVec 32)) (hW : cols T * rows T ≤ 32 * (gb.length : Int)) (f : Fmt)
    (hf : f.precision ≠ some 0) (hfill : f.fill ≠ '#' ∧ f.fill ≠ '.') :
    ∃ text gb', Gridbool.display T f gb = .ok text ∧ readMap T gb.length text = .ok gb' ∧ ∀ p, InGrid T p → Gridbool.get T gb' p = Gridbool.get T gb p := by
  obtain ⟨b, h1, h2⟩ := C69_gridbool_text T hT gb hW f
  obtain ⟨gb', h3, _, h4⟩ := fromBools_positions hT hW b
  refine ⟨_, gb', h2, ?_, fun p hp => by rw [h4 p hp, h1 p hp]⟩
  rw [readMap, ← h3]
  congr 1
  have hlab : ((List.range (labelWidth (cols T).toNat)).map (columnLabels f (cols T).toNat (rows T).toNat)).flatMap marks = [] := by
    rw [List.flatMap_eq_nil_iff]
    intro l hl
    obtain ⟨k, _, rfl⟩ := List.mem_map.1 hl
    exact marks_columnLabels hfill _ _ _
  rw [marks_unlines, picture, List.flatMap_append, List.flatMap_append, hlab, List.nil_append, List.append_nil, Display.allPositions_eq hT, List.flatMap_map,
    List.map_flatMap, List.map_flatMap]
  apply List.flatMap_congr
  intro y _
  rw [marks_gridLine hf hfill, List.map_map, List.map_map]
  apply List.map_congr_left
  intro x _
  show decide ((if b ((x : Int), (y : Int)) = true then '#' else '.') = '#') = b ((x : Int), (y : Int))
  cases b ((x : Int), (y : Int)) <;> decide

attribute [local instance] debug64

example : PosTy.IsGrid (PosTy.pos 2 1) ∧ readMap (PosTy.pos 2 1) 1 "#.#\n..#\n".toList = .ok [0xA4000000#32] ∧ readMap (PosTy.pos 2 1) 1 "#.#\n..".toList = .panic ∧
    Gridbool.display (PosTy.pos 2 1) Fmt.plain [0xA4000000#32] = .ok "  012\n0 #.#\n1 ..#\n  012\n".toList := by
  refine ⟨PosTy.pos_isGrid (by decide) (by decide) (by fits_small), ?_, ?_, ?_⟩ <;> decide +kernel

/-- C157. The condition on the fill is needed: with `{:#<2}` the text has twice as many marks, and reading panics. -/
theorem C157_fill_panics : ∃ text, Gridbool.display (PosTy.pos 2 1) ⟨'#', none, some 2, none⟩ [0xA4000000#32] = .ok text ∧ readMap (PosTy.pos 2 1) 1 text = .panic :=
  ⟨"  0#1#2#\n0 ##.###\n1 .#.###\n  0#1#2#\n".toList, by decide +kernel, by decide +kernel⟩

end Sqrid
