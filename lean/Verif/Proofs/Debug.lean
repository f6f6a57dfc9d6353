import Verif.Spec.Debug
import Verif.Props.Display
/-!
# Reading back the texts for debugging
-/

namespace Sqrid

open Spec

namespace Debug

theorem ends_comma (s : List Char) : Ends (',' :: s) := ⟨_, _, rfl, .inl rfl⟩
theorem ends_blank (s : List Char) : Ends (' ' :: s) := ⟨_, _, rfl, .inr (.inl rfl)⟩
theorem ends_paren (s : List Char) : Ends (')' :: s) := ⟨_, _, rfl, .inr (.inr (.inl rfl))⟩
theorem ends_bracket (s : List Char) : Ends (']' :: s) := ⟨_, _, rfl, .inr (.inr (.inr rfl))⟩

theorem Readable.inj {text : α → List Char} (h : Readable text) {a b : α} (hab : text a = text b) : a = b :=
  (h a b [','] [','] (ends_comma _) (ends_comma _) (by rw [hab])).1

/-- Texts without the characters that end them. -/
theorem readable_of_chars {text : α → List Char} (hinj : ∀ a b, text a = text b → a = b)
    (hc : ∀ a c, c ∈ text a → ¬ (c = ',' ∨ c = ' ' ∨ c = ')' ∨ c = ']')) : Readable text := by
  have key : ∀ (x y s t : List Char), (∀ c ∈ x, ¬ (c = ',' ∨ c = ' ' ∨ c = ')' ∨ c = ']')) → (∀ c ∈ y, ¬ (c = ',' ∨ c = ' ' ∨ c = ')' ∨ c = ']')) →
      Ends s → Ends t → x ++ s = y ++ t → x = y ∧ s = t := by
    intro x
    induction x with
    | nil =>
      intro y s t _ hy hs ht h
      cases y with
      | nil => exact ⟨rfl, h⟩
      | cons d y =>
        obtain ⟨c, rest, rfl, hc⟩ := hs
        simp only [List.nil_append, List.cons_append] at h
        exact absurd ((List.cons.inj h).1 ▸ hc) (hy d (.head _))
    | cons c x ih =>
      intro y s t hx hy hs ht h
      cases y with
      | nil =>
        obtain ⟨d, rest, rfl, hd⟩ := ht
        simp only [List.nil_append, List.cons_append] at h
        exact absurd ((List.cons.inj h).1 ▸ hd) (hx c (.head _))
      | cons d y =>
        simp only [List.cons_append] at h
        obtain ⟨h1, h2⟩ := List.cons.inj h
        obtain ⟨h3, h4⟩ := ih y s t (fun c hc => hx c (.tail _ hc)) (fun c hc => hy c (.tail _ hc)) hs ht h2
        exact ⟨by rw [h1, h3], h4⟩
  intro a b s t hs ht h
  obtain ⟨h1, h2⟩ := key _ _ s t (hc a) (hc b) hs ht h
  exact ⟨hinj a b h1, h2⟩

theorem decimalInt_eq (v : Int) : decimalInt v = integer v := (C113_bounded_text Fmt.plain Fmt.plain v v).1

theorem number_char {n : Nat} {c : Char} (h : c ∈ number n) : c.isDigit = true := Nat.isDigit_of_mem_toDigits (b := 10) (by decide) (by decide) h

theorem digit_not_end {c : Char} (h : c.isDigit = true) : ¬ (c = ',' ∨ c = ' ' ∨ c = ')' ∨ c = ']') := by
  rintro (rfl | rfl | rfl | rfl) <;> revert h <;> decide

theorem readable_integer : Readable integer := by
  refine readable_of_chars (fun a b => integer_inj) fun v c hc => ?_
  rcases List.mem_append.1 hc with h | h
  · by_cases hv : v < 0
    · rw [if_pos hv] at h
      simp only [List.mem_singleton] at h
      subst h; decide
    · rw [if_neg hv] at h; cases h
  · exact digit_not_end (number_char h)

theorem readable_decimalInt : Readable decimalInt := by
  rw [show decimalInt = integer from funext decimalInt_eq]
  exact readable_integer

theorem readable_decimal : Readable decimal :=
  readable_of_chars (fun _ _ h => Display.decimal_inj h) fun _ _ hc => digit_not_end (number_char hc)

theorem readable_dir : Readable Dir.debug := by
  refine readable_of_chars (fun a b h => ((C113_debug_text (0, 0) (0, 0) a b).2.2.2).1 h) fun d c hc => ?_
  cases d <;> simp only [Dir.debug, List.mem_cons, List.not_mem_nil, or_false] at hc <;> rcases hc with rfl | rfl <;> decide

theorem readable_error : Readable error := by
  refine readable_of_chars (fun a b h => by cases a <;> cases b <;> first | rfl | (revert h; decide)) fun e => ?_
  have : ∀ e : Error, (error e).all (fun c => !(c == ',' || c == ' ' || c == ')' || c == ']')) = true := by intro e; cases e <;> decide
  intro c hc
  have := List.all_eq_true.1 (this e) c hc
  simpa [and_assoc] using this

/-! ## Lines -/

/-- Ends with the end of a line. -/
def EndsLine (x : List Char) : Prop := ∃ y, x = y ++ ['\n']

theorem EndsLine.tail {c : Char} {x : List Char} (h : EndsLine (c :: x)) : (c = '\n' ∧ x = []) ∨ EndsLine x := by
  obtain ⟨y, hy⟩ := h
  cases y with
  | nil => simp only [List.nil_append] at hy; exact .inl (List.cons.inj hy)
  | cons d y => exact .inr ⟨y, (List.cons.inj hy).2⟩

theorem indent_read : ∀ (x y s t : List Char) (start : Bool), (EndsLine x ∨ (x = [] ∧ start = true)) → (EndsLine y ∨ (y = [] ∧ start = true)) →
    s.head? ≠ some ' ' → t.head? ≠ some ' ' → s ≠ [] → t ≠ [] → indent start x ++ s = indent start y ++ t → x = y ∧ s = t := by
  intro x
  induction x with
  | nil =>
    intro y s t start hx hy hs ht hs0 ht0 h
    cases y with
    | nil => exact ⟨rfl, h⟩
    | cons d y =>
      rcases hx with ⟨z, hz⟩ | ⟨-, rfl⟩
      · simp at hz
      · simp only [indent, List.nil_append] at h
        rw [h] at hs
        simp at hs
  | cons c x ih =>
    intro y s t start hx hy hs ht hs0 ht0 h
    cases y with
    | nil =>
      rcases hy with ⟨z, hz⟩ | ⟨-, rfl⟩
      · simp at hz
      · simp only [indent, List.nil_append] at h
        rw [← h] at ht
        simp at ht
    | cons d y =>
      simp only [indent, List.append_assoc, List.cons_append] at h
      have h := List.append_cancel_left h
      obtain ⟨h1, h2⟩ := List.cons.inj h
      subst h1
      have up : ∀ z : List Char, EndsLine (c :: z) ∨ (c :: z = [] ∧ start = true) → EndsLine z ∨ (z = [] ∧ (c == '\n') = true) := by
        rintro z (hz | ⟨hz, -⟩)
        · rcases hz.tail with ⟨rfl, rfl⟩ | hz
          · exact .inr ⟨rfl, by decide⟩
          · exact .inl hz
        · cases hz
      obtain ⟨h3, h4⟩ := ih y s t _ (up x hx) (up y hy) hs ht hs0 ht0 h2
      exact ⟨by rw [h3], h4⟩

theorem indent_append (x y : List Char) (start : Bool) (hx : EndsLine x) : indent start (x ++ y) = indent start x ++ indent true y := by
  induction x generalizing start with
  | nil => obtain ⟨z, hz⟩ := hx; simp at hz
  | cons c x ih =>
    rcases hx.tail with ⟨rfl, rfl⟩ | hx
    · simp [indent]
    · simp only [List.cons_append, indent, List.append_assoc]
      rw [ih _ hx]

/-- The lines before they are indented. -/
def block (xs : List (List Char)) : List Char := xs.flatMap fun x => x ++ [',', '\n']

theorem block_cons (x : List Char) (xs : List (List Char)) : block (x :: xs) = x ++ ',' :: '\n' :: block xs := by simp [block]

theorem lines_eq (xs : List (List Char)) : lines xs = indent true (block xs) := by
  induction xs with
  | nil => rfl
  | cons x xs ih =>
    rw [show lines (x :: xs) = indent true (x ++ [',', '\n']) ++ lines xs from rfl, ih, ← indent_append _ _ _ ⟨x ++ [','], by simp⟩]
    rfl

theorem block_ends (xs : List (List Char)) : EndsLine (block xs) ∨ (block xs = [] ∧ true = true) := by
  rcases List.eq_nil_or_concat xs with rfl | ⟨ys, y, rfl⟩
  · exact .inr ⟨rfl, rfl⟩
  · exact .inl ⟨block ys ++ y ++ [','], by simp [block]⟩

theorem lines_read {xs ys : List (List Char)} {c : Char} {s t : List Char} (hc : c ≠ ' ') (h : lines xs ++ c :: s = lines ys ++ c :: t) :
    block xs = block ys ∧ s = t := by
  rw [lines_eq, lines_eq] at h
  obtain ⟨h1, h2⟩ := indent_read _ _ (c :: s) (c :: t) true (block_ends xs) (block_ends ys) (by simpa using hc) (by simpa using hc) (by simp) (by simp) h
  exact ⟨h1, (List.cons.inj h2).2⟩

/-! ## Fields of different types -/

/-- Texts of the fields of a value which can be read back one after the other, with commas between them and on lines of their own. -/
def Fields (fs : α → List (List Char)) : Prop :=
  (∀ a, fs a ≠ []) ∧ (∀ a b s t, Ends s → Ends t → commas (fs a) ++ s = commas (fs b) ++ t → a = b ∧ s = t) ∧
  (∀ a b s t, block (fs a) ++ s = block (fs b) ++ t → a = b ∧ s = t)

theorem Fields.one {d : α → List Char} (h : Readable d) : Fields fun a => [d a] := by
  refine ⟨fun a => by simp, fun a b s t hs ht e => h a b s t hs ht e, fun a b s t e => ?_⟩
  rw [block_cons, block_cons] at e
  simp only [block, List.flatMap_nil, List.append_assoc, List.cons_append, List.nil_append] at e
  obtain ⟨h1, h2⟩ := h _ _ _ _ (ends_comma _) (ends_comma _) e
  exact ⟨h1, (List.cons.inj (List.cons.inj h2).2).2⟩

theorem commas_cons {x : List Char} {xs : List (List Char)} (h : xs ≠ []) : commas (x :: xs) = x ++ ',' :: ' ' :: commas xs := by
  cases xs with
  | nil => exact absurd rfl h
  | cons y ys => simp [commas]

theorem Fields.cons {d : α → List Char} {fs : β → List (List Char)} (h : Readable d) (hf : Fields fs) : Fields fun ab : α × β => d ab.1 :: fs ab.2 := by
  refine ⟨fun a => by simp, fun a b s t hs ht e => ?_, fun a b s t e => ?_⟩
  · rw [commas_cons (hf.1 _), commas_cons (hf.1 _)] at e
    simp only [List.append_assoc, List.cons_append] at e
    obtain ⟨h1, h2⟩ := h _ _ _ _ (ends_comma _) (ends_comma _) e
    obtain ⟨h3, h4⟩ := hf.2.1 _ _ s t hs ht (List.cons.inj (List.cons.inj h2).2).2
    exact ⟨Prod.ext h1 h3, h4⟩
  · rw [block_cons, block_cons] at e
    simp only [List.append_assoc, List.cons_append] at e
    obtain ⟨h1, h2⟩ := h _ _ _ _ (ends_comma _) (ends_comma _) e
    obtain ⟨h3, h4⟩ := hf.2.2 _ _ s t (List.cons.inj (List.cons.inj h2).2).2
    exact ⟨Prod.ext h1 h3, h4⟩

theorem Readable.comp {d : α → List Char} (h : Readable d) {f : β → α} (hf : ∀ a b, f a = f b → a = b) : Readable fun b => d (f b) :=
  fun a b s t hs ht e => let ⟨h1, h2⟩ := h _ _ s t hs ht e; ⟨hf a b h1, h2⟩

theorem Readable.const (t : List Char) : Readable fun _ : Unit => t := fun _ _ _ _ _ _ e => ⟨rfl, List.append_cancel_left e⟩

theorem Readable.named {d : α → List Char} (h : Readable d) (name : String) : Readable fun a => name.toList ++ [':', ' '] ++ d a := fun a b s t hs ht e => by
  simp only [List.append_assoc] at e
  exact h a b s t hs ht (List.append_cancel_left (List.append_cancel_left e))

theorem Fields.tuple {fs : α → List (List Char)} (h : Fields fs) (alt : Bool) (name : String) : Readable fun a => tuple alt name (fs a) := by
  have hne : ∀ a, (fs a).isEmpty = false := fun a => by have := h.1 a; simpa using this
  intro a b s t hs ht e
  simp only [Debug.tuple, hne, Bool.false_eq_true, if_false] at e
  cases alt
  · simp only [Bool.false_eq_true, if_false, List.append_assoc, List.cons_append, List.nil_append] at e
    have e := (List.cons.inj (List.append_cancel_left e)).2
    obtain ⟨h1, h2⟩ := h.2.1 a b _ _ (ends_paren _) (ends_paren _) e
    exact ⟨h1, (List.cons.inj h2).2⟩
  · simp only [if_true, List.append_assoc, List.cons_append, List.nil_append] at e
    have e := (List.cons.inj (List.cons.inj (List.append_cancel_left e)).2).2
    obtain ⟨h1, h2⟩ := lines_read (by decide) e
    exact ⟨(h.2.2 a b [] [] (by rw [h1])).1, h2⟩

theorem Fields.struct {fs : α → List (String × List Char)} (h : Fields fun a => (fs a).map fun f => f.1.toList ++ [':', ' '] ++ f.2) (alt : Bool) (name : String) :
    Readable fun a => struct alt name (fs a) := by
  have hne : ∀ a, (fs a).isEmpty = false := fun a => by have := h.1 a; simpa using this
  intro a b s t hs ht e
  simp only [Debug.struct, hne, Bool.false_eq_true, if_false] at e
  cases alt
  · simp only [Bool.false_eq_true, if_false] at e
    rw [List.append_assoc, List.append_assoc, List.append_assoc, List.append_assoc, List.append_assoc, List.append_assoc] at e
    have e := List.append_cancel_left (List.append_cancel_left e)
    obtain ⟨h1, h2⟩ := h.2.1 a b _ _ (ends_blank _) (ends_blank _) e
    exact ⟨h1, List.append_cancel_left (as := [' ', '}']) h2⟩
  · simp only [if_true] at e
    rw [List.append_assoc, List.append_assoc, List.append_assoc, List.append_assoc, List.append_assoc, List.append_assoc] at e
    have e := List.append_cancel_left (List.append_cancel_left e)
    obtain ⟨h1, h2⟩ := lines_read (c := '}') (by decide) e
    exact ⟨(h.2.2 a b [] [] (by rw [h1])).1, h2⟩

/-! ## Lists and options -/

theorem commas_read {d : α → List Char} (h : Readable d) : ∀ (l l' : List α) (s t : List Char), l ≠ [] → l' ≠ [] →
    commas (l.map d) ++ ']' :: s = commas (l'.map d) ++ ']' :: t → l = l' ∧ s = t := by
  intro l
  induction l with
  | nil => intro l' s t hl; exact absurd rfl hl
  | cons a l ih =>
    intro l' s t _ hl' e
    cases l' with
    | nil => exact absurd rfl hl'
    | cons b l' =>
      cases l with
      | nil =>
        cases l' with
        | nil =>
          obtain ⟨h1, h2⟩ := h a b _ _ (ends_bracket _) (ends_bracket _) e
          exact ⟨by rw [h1], (List.cons.inj h2).2⟩
        | cons b' l' =>
          rw [List.map_cons, List.map_cons, commas_cons (x := d b) (by simp)] at e
          simp only [List.append_assoc, List.cons_append] at e
          obtain ⟨-, h2⟩ := h a b _ _ (ends_bracket _) (ends_comma _) e
          exact absurd (List.cons.inj h2).1 (by decide)
      | cons a' l =>
        cases l' with
        | nil =>
          rw [List.map_cons, List.map_cons, commas_cons (x := d a) (by simp)] at e
          simp only [List.append_assoc, List.cons_append] at e
          obtain ⟨-, h2⟩ := h a b _ _ (ends_comma _) (ends_bracket _) e
          exact absurd (List.cons.inj h2).1 (by decide)
        | cons b' l' =>
          rw [List.map_cons, List.map_cons (l := b' :: l'), commas_cons (x := d a) (by simp), commas_cons (x := d b) (by simp)] at e
          simp only [List.append_assoc, List.cons_append] at e
          obtain ⟨h1, h2⟩ := h a b _ _ (ends_comma _) (ends_comma _) e
          obtain ⟨h3, h4⟩ := ih (b' :: l') s t (by simp) (by simp) (List.cons.inj (List.cons.inj h2).2).2
          exact ⟨by rw [h1, h3], h4⟩

theorem block_read {d : α → List Char} (h : Readable d) : ∀ (l l' : List α), block (l.map d) = block (l'.map d) → l = l' := by
  intro l
  induction l with
  | nil =>
    intro l' e
    cases l' with
    | nil => rfl
    | cons b l' => rw [List.map_cons, block_cons] at e; simp [block] at e
  | cons a l ih =>
    intro l' e
    cases l' with
    | nil => rw [List.map_cons, block_cons] at e; simp [block] at e
    | cons b l' =>
      rw [List.map_cons, List.map_cons, block_cons, block_cons] at e
      obtain ⟨h1, h2⟩ := h a b _ _ (ends_comma _) (ends_comma _) e
      rw [h1, ih l' (List.cons.inj (List.cons.inj h2).2).2]

theorem list_read {d : α → List Char} (h : Readable d) (alt : Bool) (l l' : List α) (s t : List Char)
    (hv : l.length = l'.length ∨ ∀ a, ∃ c rest, d a = c :: rest ∧ c ≠ ']') (e : list alt (l.map d) ++ s = list alt (l'.map d) ++ t) : l = l' ∧ s = t := by
  have nil : ∀ (l : List α) (s t : List Char), (0 = l.length ∨ ∀ a, ∃ c rest, d a = c :: rest ∧ c ≠ ']') → list alt [] ++ s = list alt (l.map d) ++ t → [] = l ∧ s = t := by
    intro l s t hv e
    cases l with
    | nil => exact ⟨rfl, List.append_cancel_left e⟩
    | cons a l =>
      rcases hv with hv | hv
      · simp at hv
      · obtain ⟨c, rest, hc, hne⟩ := hv a
        exfalso
        cases alt
        · cases l with
          | nil =>
            simp [list, commas, hc] at e
            exact hne e.1.symm
          | cons b l =>
            simp [list, commas, hc] at e
            exact hne e.1.symm
        · simp [list, commas] at e
  cases l with
  | nil => exact nil l' s t hv e
  | cons a l =>
    cases l' with
    | nil =>
      obtain ⟨h1, h2⟩ := nil (a :: l) t s (by simpa [eq_comm] using hv) e.symm
      exact ⟨h1.symm, h2.symm⟩
    | cons b l' =>
      cases alt
      · simp only [list, Bool.false_and, Bool.false_eq_true, if_false, List.append_assoc, List.cons_append, List.nil_append] at e
        exact commas_read h _ _ s t (by simp) (by simp) (List.cons.inj e).2
      · simp only [list, List.map_cons, List.isEmpty_cons, Bool.not_false, Bool.and_self, if_true, List.append_assoc, List.cons_append, List.nil_append] at e
        obtain ⟨h1, h2⟩ := lines_read (by decide) (List.cons.inj (List.cons.inj e).2).2
        exact ⟨block_read h (a :: l) (b :: l') h1, h2⟩

theorem Readable.list {d : α → List Char} (h : Readable d) (hv : ∀ a, ∃ c rest, d a = c :: rest ∧ c ≠ ']') (alt : Bool) :
    Readable fun l : List α => list alt (l.map d) := fun a b s t _ _ e => list_read h alt a b s t (.inr hv) e

theorem Readable.array {d : α → List Char} (h : Readable d) (n : Nat) (alt : Bool) :
    Readable fun l : { l : List α // l.length = n } => Debug.list alt (l.1.map d) := fun a b s t _ _ e =>
  let ⟨h1, h2⟩ := list_read h alt a.1 b.1 s t (.inl (a.2.trans b.2.symm)) e
  ⟨Subtype.ext h1, h2⟩

theorem Readable.option {d : α → List Char} (h : Readable d) (alt : Bool) : Readable fun o : Option α => option alt (o.map d) := by
  have hs := (Fields.one h).tuple alt "Some"
  have hne : ∀ a s t, "None".toList ++ s ≠ Debug.tuple alt "Some" [d a] ++ t := by
    intro a s t e
    cases alt <;> simp [Debug.tuple] at e
  intro a b s t h1 h2 e
  cases a with
  | none =>
    cases b with
    | none => exact ⟨rfl, List.append_cancel_left e⟩
    | some b => exact absurd e (hne b s t)
  | some a =>
    cases b with
    | none => exact absurd e.symm (hne a t s)
    | some b =>
      obtain ⟨h3, h4⟩ := hs a b s t h1 h2 e
      exact ⟨by rw [h3], h4⟩

end Debug

end Sqrid
