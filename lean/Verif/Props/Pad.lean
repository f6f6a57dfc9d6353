import Verif.Props.Display
/-!
# What the options of a format string do to the text of a cell: C68

The pictures of C68 and C69 use `Fmt.pad` of the model; here is what it does.
-/

namespace Sqrid

-- Statements that do not mention a target are about a debug build for a 64-bit machine.
attribute [local instance] debug64

open Spec

/-- C68. The text of a cell is cut to the precision, if there is one, and then filled up to the width, if there is one, with the fill character: after the text without an
alignment or with `<`, before it with `>`, and on both sides with `^`, with at most one more after it. -/
theorem C68_pad (f : Fmt) (s : List Char) :
    ∃ before after text, f.pad s = List.replicate before f.fill ++ text ++ List.replicate after f.fill ∧
      (f.precision = none → text = s) ∧ (∀ n, f.precision = some n → text = s.take n) ∧
      (f.width = none → before = 0 ∧ after = 0) ∧ (∀ n, f.width = some n → before + after = n - text.length) ∧
      (f.align = none ∨ f.align = some .left → before = 0) ∧ (f.align = some .right → after = 0) ∧
      (f.align = some .center → before ≤ after ∧ after ≤ before + 1) := by
  obtain ⟨fill, align, width, precision⟩ := f
  have key : ∀ t : List Char, ∃ a b, (match width with
      | none => t
      | some n => match align.getD .left with
        | .left => t ++ List.replicate (n - t.length) fill
        | .right => List.replicate (n - t.length) fill ++ t
        | .center => List.replicate ((n - t.length) / 2) fill ++ t ++ List.replicate ((n - t.length + 1) / 2) fill) =
        List.replicate a fill ++ t ++ List.replicate b fill ∧ (width = none → a = 0 ∧ b = 0) ∧ (∀ n, width = some n → a + b = n - t.length) ∧
      (align = none ∨ align = some .left → a = 0) ∧ (align = some .right → b = 0) ∧ (align = some .center → a ≤ b ∧ b ≤ a + 1) := by
    intro t
    cases width with
    | none => exact ⟨0, 0, by simp, by simp, by simp, by simp, by simp, by simp⟩
    | some n =>
      rcases align with _ | _ | _ | _
      · exact ⟨0, n - t.length, by simp, by simp, by simp, by simp, by simp, by simp⟩
      · exact ⟨0, n - t.length, by simp, by simp, by simp, by simp, by simp, by simp⟩
      · exact ⟨n - t.length, 0, by simp, by simp, by simp, by simp, by simp, by simp⟩
      · refine ⟨(n - t.length) / 2, (n - t.length + 1) / 2, by simp, by simp, ?_, by simp, by simp, fun _ => by omega⟩
        rintro m h
        injection h with h
        omega
  cases precision with
  | none =>
    obtain ⟨a, b, h1, h2, h3, h4, h5, h6⟩ := key s
    exact ⟨a, b, s, h1, by simp, by simp, h2, h3, h4, h5, h6⟩
  | some n =>
    obtain ⟨a, b, h1, h2, h3, h4, h5, h6⟩ := key (s.take n)
    exact ⟨a, b, s.take n, h1, by simp, by simp, h2, h3, h4, h5, h6⟩

example : (Fmt.mk '*' (some .center) (some 6) (some 3)).pad ['a', 'b', 'c', 'd'] = ['*', 'a', 'b', 'c', '*', '*'] := by decide

end Sqrid
