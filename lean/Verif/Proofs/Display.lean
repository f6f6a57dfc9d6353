import Verif.Spec.Display
import Verif.Proofs.Gridbool
import Verif.Props.Grid
/-! The text of a grid. -/

namespace Sqrid

open Spec

namespace Display

theorem decimalWidth_eq (w i : Nat) : decimalWidth w i = toRight w (number i) := rfl

theorem labelWidth_pos (n : Nat) : 0 < labelWidth n := Nat.length_toDigits_pos

theorem number_length_le {n i : Nat} (h : i < n) : (number i).length ≤ labelWidth n := by
  refine (Nat.length_toDigits_le_iff (by decide) (labelWidth_pos n)).2 ?_
  have h1 := (Nat.length_toDigits_le_iff (n := n - 1) (b := 10) (k := labelWidth n) (by decide) (labelWidth_pos n)).1 (Nat.le_refl _)
  omega

theorem toRight_length {w : Nat} {s : List Char} (h : s.length ≤ w) : (toRight w s).length = w := by
  simp only [toRight, List.length_append, List.length_replicate]; omega

theorem headerCells_eq (f : Fmt) (k : Nat) (cells : List (List Char)) (h : ∀ c ∈ cells, k < c.length) :
    headerCells f k cells = .ok (cells.flatMap fun c => f.pad c[k]?.toList) := by
  induction cells with
  | nil => rfl
  | cons c cs ih =>
    have hk := h c (by simp)
    simp only [headerCells]
    rw [ih (fun c hc => h c (by simp [hc])), List.getElem?_eq_getElem hk]
    simp [List.flatMap_cons, List.getElem?_eq_getElem hk]

theorem headerLines_eq (f : Fmt) (w h : Nat) (ks : List Nat) (hk : ∀ k ∈ ks, k < labelWidth w) :
    headerLines f (labelWidth h) ((List.range w).map fun i => decimalWidth (labelWidth w) i) ks =
      .ok (unlines (ks.map (columnLabels f w h))) := by
  induction ks with
  | nil => rfl
  | cons k ks ih =>
    simp only [headerLines]
    rw [ih (fun k h => hk k (by simp [h])), headerCells_eq]
    · simp [unlines, columnLabels, Fmt.pad, Fmt.withWidth, toRight, List.flatMap_map, decimalWidth_eq]
    · intro c hc
      obtain ⟨i, hi, rfl⟩ := List.mem_map.1 hc
      rw [decimalWidth_eq, toRight_length (number_length_le (List.mem_range.1 hi))]
      exact hk k (by simp)

theorem cellStep_same (f : Fmt) (n y : Nat) (c : List Char) (it : List (List Char)) (text : List Char) :
    cellStep f n { text, last_y := y, it := c :: it } y = .ok { text := text ++ f.pad c, last_y := y, it } := by
  simp [cellStep]

theorem cellStep_new (f : Fmt) (n y last : Nat) (hy : y ≠ last) (c : List Char) (it : List (List Char)) (text : List Char) :
    cellStep f n { text, last_y := last, it := c :: it } y =
      .ok { text := text ++ (if y > 0 then ['\n'] else []) ++ (toRight n (number y) ++ [' ']) ++ f.pad c, last_y := y, it } := by
  simp [cellStep, hy, decimalWidth_eq]

/-- The cells of a line whose number has already been written. -/
theorem cells_same_line (f : Fmt) (n y : Nat) (l : List β) : ∀ (cs rest : List (List Char)) (text : List Char), cs.length = l.length →
    l.foldlM (fun s (_ : β) => cellStep f n s y) { text, last_y := y, it := cs ++ rest : Cells } =
      .ok { text := text ++ cs.flatMap f.pad, last_y := y, it := rest } := by
  induction l with
  | nil =>
    intro cs rest text h
    have : cs = [] := List.length_eq_zero_iff.1 h
    subst this
    simp
  | cons a l ih =>
    intro cs rest text h
    cases cs with
    | nil => cases h
    | cons c cs =>
      rw [List.foldlM_cons, List.cons_append, cellStep_same, Out.ok_bind, ih cs rest _ (by simpa using h)]
      simp [List.flatMap_cons]

/-- A line. -/
theorem cells_line (f : Fmt) (n y last : Nat) (hy : y ≠ last) (l : List β) (hl : l ≠ []) (cs rest : List (List Char)) (text : List Char)
    (h : cs.length = l.length) :
    l.foldlM (fun s (_ : β) => cellStep f n s y) { text, last_y := last, it := cs ++ rest : Cells } =
      .ok { text := text ++ (if y > 0 then ['\n'] else []) ++ (toRight n (number y) ++ [' ']) ++ cs.flatMap f.pad, last_y := y, it := rest } := by
  cases l with
  | nil => exact absurd rfl hl
  | cons a l =>
    cases cs with
    | nil => cases h
    | cons c cs =>
      rw [List.foldlM_cons, List.cons_append, cellStep_new f n y last hy, Out.ok_bind, cells_same_line f n y l cs rest _ (by simpa using h)]
      simp [List.flatMap_cons]

theorem unlines_append (a b : List (List Char)) : unlines (a ++ b) = unlines a ++ unlines b := List.flatMap_append

theorem cells_lines (f : Fmt) (w h : Nat) (hw : 0 < w) (cell : Int × Int → List Char) (n : Nat) (hn : n ≤ h) (rest : List (List Char)) :
    ∃ text last, (List.range n).foldlM (fun s y => (List.range w).foldlM (fun s _ => cellStep f (labelWidth h) s y) s)
        { text := [], last_y := h,
          it := ((List.range n).flatMap fun y : Nat => (List.range w).map fun x : Nat => cell ((x : Int), (y : Int))) ++ rest : Cells } =
        .ok { text, last_y := last, it := rest } ∧ (∀ y, n ≤ y → y < h → y ≠ last) ∧
      text ++ (if n > 0 then ['\n'] else []) = unlines ((List.range n).map (gridLine f w h cell)) := by
  induction n generalizing rest with
  | zero => exact ⟨[], h, rfl, fun y _ h => by omega, rfl⟩
  | succ n ih =>
    obtain ⟨text, last, h1, h2, h3⟩ := ih (by omega) (((List.range w).map fun x : Nat => cell ((x : Int), (n : Int))) ++ rest)
    refine ⟨text ++ (if n > 0 then ['\n'] else []) ++ (toRight (labelWidth h) (number n) ++ [' ']) ++
      ((List.range w).map fun x : Nat => cell ((x : Int), (n : Int))).flatMap f.pad, n, ?_, fun y h _ => by omega, ?_⟩
    · rw [List.range_succ, List.foldlM_append, List.flatMap_append, List.append_assoc]
      simp only [List.flatMap_cons, List.flatMap_nil, List.append_nil]
      rw [h1]
      simp only [Out.ok_bind, List.foldlM_cons, List.foldlM_nil]
      rw [cells_line f _ n last (h2 n (Nat.le_refl _) (by omega)) _ (by simp; omega) _ _ _ (by simp)]
      rfl
    · rw [List.range_succ, List.map_append, unlines, List.flatMap_append, ← unlines, ← h3]
      simp [gridLine, List.flatMap_map]

theorem helper_eq [Target] (f : Fmt) (w h : Nat) (hw : 0 < w) (hh : 0 < h) (hw' : (w : Int) ≤ limit) (hh' : (h : Int) ≤ limit)
    (cell : Int × Int → List Char) :
    helper f w h ((List.range h).flatMap fun y : Nat => (List.range w).map fun x : Nat => cell ((x : Int), (y : Int))) = .ok (unlines (picture f w h cell)) := by
  obtain ⟨text, last, h1, -, h3⟩ := cells_lines f w h hw cell h (Nat.le_refl _) []
  rw [List.append_nil] at h1
  have e1 : ((w : Int) - 1).toNat = w - 1 := by omega
  have e2 : ((h : Int) - 1).toNat = h - 1 := by omega
  simp only [helper]
  rw [IntTy.usize_sub (by omega), Out.ok_bind, IntTy.usize_sub (by omega), Out.ok_bind]
  simp only [e1, e2, Int.toNat_natCast, headerfooter]
  rw [show (decimal (w - 1)).length = labelWidth w from rfl, show (decimal (h - 1)).length = labelWidth h from rfl,
    headerLines_eq f w h _ (fun k hk => List.mem_range.1 hk)]
  simp only [Out.ok_bind]
  rw [h1]
  simp only [Out.ok_bind]
  rw [if_pos hh] at h3
  rw [picture, unlines_append, unlines_append, ← h3]
  simp [unlines]

end Display

end Sqrid
