import Verif.Proofs.DebugInt
/-!
# Properties C119 and C134: the texts for debugging

See the statements in properties.jsonl. `DFmt.std false` are the options of `{:?}` and `DFmt.std true` those of `{:#?}`; `o` stands for any options.
-/

namespace Sqrid

open Spec

theorem Debug.commas_eq (xs : List (List Char)) : Debug.commas xs = between [',', ' '] xs := by
  induction xs with
  | nil => rfl
  | cons x xs ih =>
    cases xs with
    | nil => simp [Debug.commas, between]
    | cons y ys =>
      rw [Debug.commas, ih]
      simp [between]

theorem Debug.indent_line {x : List Char} (h : '\n' ∉ x) (start : Bool) (hx : x ≠ [] ∨ start = false) (y : List Char) :
    Debug.indent start (x ++ '\n' :: y) = (if start then "    ".toList else []) ++ x ++ '\n' :: Debug.indent true y := by
  induction x generalizing start with
  | nil =>
    rcases hx with hx | rfl
    · exact absurd rfl hx
    · simp [Debug.indent]
  | cons c x ih =>
    have hc : (c == '\n') = false := by
      simp only [List.mem_cons, not_or] at h
      simpa using fun e => h.1 e.symm
    rw [List.cons_append, Debug.indent, hc, ih (fun hm => h (.tail _ hm)) false (.inr rfl)]
    cases start <;> simp

theorem integer_ne (v : Int) : integer v ≠ [] ∧ '\n' ∉ integer v := by
  have hd : ∀ n, number n ≠ [] := fun n => Nat.toDigits_ne_nil
  constructor
  · intro h
    exact hd _ (List.append_eq_nil_iff.1 h).2
  · intro h
    rcases List.mem_append.1 h with h | h
    · by_cases hv : v < 0
      · rw [if_pos hv] at h; simp at h
      · rw [if_neg hv] at h; cases h
    · exact absurd (Debug.number_char h) (by decide)

/-- C119. The texts of a position: `Pos((x, y))`, and on six lines with `{:#?}`; the other options make no difference. -/
theorem C119_pos_text (o : DFmt) (p : Int × Int) :
    (o.alt = false → Debug.pos o p = "Pos((".toList ++ integer p.1 ++ ", ".toList ++ integer p.2 ++ "))".toList) ∧
    (o.alt = true → Debug.pos o p = "Pos(\n    (\n        ".toList ++ integer p.1 ++ ",\n        ".toList ++ integer p.2 ++ ",\n    ),\n)".toList) := by
  have e : ∀ v, BTy.boundedDebug o.toFmt v = integer v := fun v => (C113_bounded_text o.toFmt o.toFmt v v).2.1
  constructor <;> intro ha
  · simp [Debug.pos, Debug.tuple, Debug.commas, e, ha]
  · have l : ∀ (v : Int) (y : List Char), Debug.indent true (integer v ++ ',' :: '\n' :: y) = ' ' :: ' ' :: ' ' :: ' ' :: integer v ++ ',' :: '\n' :: Debug.indent true y := by
      intro v y
      have := Debug.indent_line (x := integer v ++ [',']) (by simpa using (integer_ne v).2) true (.inl (by simp)) y
      simpa using this
    have l' : ∀ (v : Int) (y : List Char), Debug.indent false (integer v ++ ',' :: '\n' :: y) = integer v ++ ',' :: '\n' :: Debug.indent true y := by
      intro v y
      have := Debug.indent_line (x := integer v ++ [',']) (by simpa using (integer_ne v).2) false (.inl (by simp)) y
      simpa using this
    simp [Debug.pos, Debug.tuple, Debug.lines, e, Debug.indent, l, l', ha]

example : Debug.pos ⟨⟨'*', some .left, some 9, some 1⟩, true, true, true, some true⟩ (12, 3) = "Pos(\n    (\n        12,\n        3,\n    ),\n)".toList := by decide +kernel

/-- C119. The texts of a gridbool: its words in decimal, and the name of the type of the positions. -/
theorem C119_gridbool_text (name : String) (g : List (BitVec 32)) :
    Debug.gridbool (.std false) name g = "Gridbool([".toList ++ between ", ".toList (g.map fun w => number w.toNat) ++ "], PhantomData<".toList ++ name.toList ++ ">)".toList ∧
    (g ≠ [] → '\n' ∉ name.toList →
      Debug.gridbool (.std true) name g = "Gridbool(\n    [\n".toList ++ g.flatMap (fun w => "        ".toList ++ number w.toNat ++ ",\n".toList) ++
        "    ],\n    PhantomData<".toList ++ name.toList ++ ">,\n)".toList) := by
  have hc : ∀ w : BitVec 32, '\n' ∉ number w.toNat := fun w h => absurd (Debug.number_char h) (by decide)
  have hi : ∀ alt, (fun w : BitVec 32 => (DFmt.std alt).int .u32 w.toNat) = fun w => decimal w.toNat := fun alt => by
    funext w
    rw [Debug.std_int]
    rfl
  have ha : ∀ alt, (DFmt.std alt).alt = alt := fun _ => rfl
  constructor
  · simp [Debug.gridbool, Debug.tuple, Debug.list, Debug.commas, Debug.commas_eq, Debug.phantom, hi, ha]
    rfl
  · intro hg hn
    have one : ∀ (w : BitVec 32), Debug.indent true (decimal w.toNat ++ [',', '\n']) = "    ".toList ++ number w.toNat ++ [',', '\n'] := by
      intro w
      have := Debug.indent_line (x := number w.toNat ++ [',']) (by simpa using hc w) true (.inl (by simp)) []
      simpa [Debug.indent, decimal, number] using this
    have two : ∀ g : List (BitVec 32), Debug.indent true (Debug.lines (g.map fun w => decimal w.toNat) ++ [']', ',', '\n']) =
        g.flatMap (fun w => "        ".toList ++ number w.toNat ++ ",\n".toList) ++ "    ],\n".toList := by
      intro g
      induction g with
      | nil => decide
      | cons w g ih =>
        have h := Debug.indent_line (x := "    ".toList ++ number w.toNat ++ [',']) (by simpa using hc w) true (.inl (by simp)) (Debug.lines (g.map fun w => decimal w.toNat) ++ [']', ',', '\n'])
        rw [ih] at h
        rw [List.map_cons, show Debug.lines (decimal w.toNat :: g.map fun w => decimal w.toNat) = Debug.indent true (decimal w.toNat ++ [',', '\n']) ++ Debug.lines (g.map fun w => decimal w.toNat) from rfl, one]
        simpa using h
    have ph : Debug.indent true (Debug.phantom name ++ [',', '\n']) = "    PhantomData<".toList ++ name.toList ++ ">,\n".toList := by
      have := Debug.indent_line (x := Debug.phantom name ++ [',']) (by simpa [Debug.phantom] using hn) true (.inl (by simp)) []
      simpa [Debug.phantom, Debug.indent] using this
    have hl : Debug.list true (g.map fun w => decimal w.toNat) = '[' :: '\n' :: (Debug.lines (g.map fun w => decimal w.toNat) ++ [']']) := by
      cases g with
      | nil => exact absurd rfl hg
      | cons w g => simp [Debug.list]
    have h3 : Debug.indent true (Debug.list true (g.map fun w => decimal w.toNat) ++ [',', '\n']) =
        "    [\n".toList ++ (g.flatMap (fun w => "        ".toList ++ number w.toNat ++ ",\n".toList) ++ "    ],\n".toList) := by
      rw [hl, ← two g]
      simp [Debug.indent]
    simp only [Debug.gridbool, hi, ha, Debug.tuple, List.isEmpty_cons, Bool.false_eq_true, if_false, if_true, Debug.lines, List.flatMap_cons, List.flatMap_nil, h3, ph]
    simp

example : Debug.gridbool (.std false) "P" [7, 4294967295] = "Gridbool([7, 4294967295], PhantomData<P>)".toList ∧
    Debug.gridbool (.std true) "P" [7, 4294967295] = "Gridbool(\n    [\n        7,\n        4294967295,\n    ],\n    PhantomData<P>,\n)".toList := by decide +kernel

/-- C119. The text of a grid: the texts of its elements in order, and the name of the type of the positions. The one of a `Sqrid` says nothing about it. -/
theorem C119_grid_text (o : DFmt) (ho : o.alt = false) (name : String) (item : α → List Char) (g : List α) :
    Debug.grid o name item g = "Grid([".toList ++ between ", ".toList (g.map item) ++ "], PhantomData<".toList ++ name.toList ++ ">)".toList ∧
    ∀ o, Debug.sqrid o = "Sqrid".toList := by
  refine ⟨?_, fun _ => rfl⟩
  simp [Debug.grid, ho, Debug.tuple, Debug.list, Debug.commas, Debug.commas_eq, Debug.phantom]

theorem readable_pos (o : DFmt) : Readable (Debug.pos o) := by
  have hp : Readable fun p : Int × Int => Debug.tuple o.alt "" [decimalInt p.1, decimalInt p.2] :=
    ((Debug.Fields.cons Debug.readable_decimalInt (.one Debug.readable_decimalInt)).tuple o.alt "")
  exact (Debug.Fields.one hp).tuple o.alt "Pos"

theorem readable_pair {o : DFmt} (ho : Clear o) (hh : o.hex = none) (t u : IntTy) : Readable (Debug.pair o t u) :=
  (Debug.Fields.cons (Debug.readable_int ho hh t) (.one (Debug.readable_int ho hh u))).tuple o.alt ""

/-- C119. The texts of integers, positions, directions and errors can be read back, also inside other texts, and so can those of options, pairs and lists of
values of which this is true; different values have different texts. -/
theorem C119_readable (o : DFmt) (ho : o = .std o.alt) (t u : IntTy) :
    Readable (o.int t) ∧ Readable (Debug.pos o) ∧ Readable (Debug.pair o t u) ∧ Readable Dir.debug ∧ Readable Debug.error ∧
    ∀ (α : Type) (text : α → List Char), Readable text → Readable (fun x : Option α => Debug.option o.alt (x.map text)) ∧ (∀ a b, text a = text b ↔ a = b) := by
  have hc : Clear o := .inl (by rw [ho]; rfl)
  have hh : o.hex = none := by rw [ho]; rfl
  exact ⟨Debug.readable_int hc hh t, readable_pos o, readable_pair hc hh t u, Debug.readable_dir, Debug.readable_error,
    fun α text h => ⟨Debug.Readable.option h o.alt, fun a b => ⟨Debug.Readable.inj h, fun e => by rw [e]⟩⟩⟩

theorem debug_entry_visible (alt : Bool) (x : List Char) (xs : List (List Char)) : ∃ c rest, Debug.tuple alt "" (x :: xs) = c :: rest ∧ c ≠ ']' := by
  cases alt <;> exact ⟨'(', _, rfl, by decide⟩

theorem debug_word_visible {o : DFmt} (ho : Clear o) (w : BitVec 32) : ∃ c rest, o.int .u32 w.toNat = c :: rest ∧ c ≠ ']' := by
  have key : ∀ nonneg pre digits, digits ≠ [] → (∀ c ∈ digits, c ≠ ']') → ']' ∉ pre → ∃ c rest, o.padIntegral nonneg pre digits = c :: rest ∧ c ≠ ']' := by
    intro nonneg pre digits h1 h2 h3
    obtain ⟨i, j, e, h0⟩ := Debug.padIntegral_core o nonneg pre digits
    have hne : Debug.core o nonneg pre digits ≠ [] := by
      unfold Debug.core
      intro h
      exact h1 (List.append_eq_nil_iff.1 h).2
    have hc : ∀ c ∈ Debug.core o nonneg pre digits, c ≠ ']' := by
      intro c hc
      unfold Debug.core at hc
      rw [List.mem_append, List.mem_append, List.mem_append] at hc
      rcases hc with ((hc | hc) | hc) | hc
      · have : c = '+' ∨ c = '-' := by
          revert hc
          cases nonneg <;> cases o.plus <;> simp +contextual
        rcases this with rfl | rfl <;> decide
      · split at hc
        · rintro rfl; exact h3 hc
        · cases hc
      · rw [List.eq_of_mem_replicate hc]; decide
      · exact h2 c hc
    rw [e]
    cases i with
    | zero =>
      obtain ⟨c, rest, hcr⟩ := List.exists_cons_of_ne_nil hne
      exact ⟨c, rest ++ List.replicate j o.fill, by simp [hcr], hc c (by rw [hcr]; exact .head _)⟩
    | succ i =>
      refine ⟨o.fill, _, by rw [List.replicate_succ]; rfl, ?_⟩
      rcases ho with h | h | h
      · cases (h0 (.inl h)).1
      · cases (h0 (.inr h)).1
      · rintro hf
        rw [hf] at h
        exact h (by decide)
  have hd : ∀ (b : Nat), 1 < b → b ≤ 16 → ∀ upper n, ∀ c ∈ (Nat.toDigits b n).map (Debug.casing upper), c ≠ ']' := by
    intro b h1 h2 upper n c hc
    have := (Debug.digits_chars h1 h2 upper n c hc).1
    rintro rfl
    revert this
    decide
  unfold DFmt.int
  cases o.hex with
  | none =>
    refine key _ _ _ Nat.toDigits_ne_nil ?_ (by simp)
    have := hd 10 (by decide) (by decide) false (w.toNat : Int).natAbs
    rwa [Debug.map_casing_false] at this
  | some upper =>
    cases upper
    · refine key _ _ _ Nat.toDigits_ne_nil ?_ (by decide)
      have := hd 16 (by decide) (by decide) false ((w.toNat : Int) % (IntTy.u32.hi - IntTy.u32.lo + 1)).toNat
      rwa [Debug.map_casing_false] at this
    · exact key _ _ _ (by simp [Nat.toDigits_ne_nil]) (hd 16 (by decide) (by decide) true _) (by decide)

theorem readable_gridbool {o : DFmt} (ho : Clear o) (name : String) : Readable (Debug.gridbool o name) := by
  have := (Debug.Fields.cons (Debug.Readable.list (Debug.readable_word ho) (debug_word_visible ho) o.alt)
    (Debug.Fields.one (Debug.Readable.const (Debug.phantom name)))).tuple o.alt "Gridbool"
  exact Debug.Readable.comp this (f := fun g : List (BitVec 32) => (g, ())) fun _ _ h => (Prod.ext_iff.1 h).1

/-- C119. Two gridbools with the same text have the same words: the text shows exactly what `==` compares. -/
theorem C119_gridbool_read (alt : Bool) (name : String) (g h : List (BitVec 32)) :
    (Debug.gridbool (.std alt) name g = Debug.gridbool (.std alt) name h ↔ g = h) ∧ Readable (Debug.gridbool (.std alt) name) :=
  ⟨⟨Debug.Readable.inj (readable_gridbool (.inl rfl) name), fun e => by rw [e]⟩, readable_gridbool (.inl rfl) name⟩

/-- C119. Two grids of the same SIZE whose elements have texts that can be read back have the same text only if they are equal. -/
theorem C119_grid_read (o : DFmt) (name : String) (item : α → List Char) (hitem : Readable item) (g h : List α) (hl : g.length = h.length) :
    Debug.grid o name item g = Debug.grid o name item h ↔ g = h := by
  refine ⟨fun e => ?_, fun e => by rw [e]⟩
  have := (Debug.Fields.cons (Debug.Readable.array hitem h.length o.alt) (Debug.Fields.one (Debug.Readable.const (Debug.phantom name)))).tuple o.alt "Grid"
  have := (Prod.ext_iff.1 (Debug.Readable.inj this (a := ((⟨g, hl⟩ : { l : List α // l.length = h.length }), ())) (b := ((⟨h, rfl⟩ : { l : List α // l.length = h.length }), ())) e)).1
  exact congrArg Subtype.val this

example : Debug.grid (.std false) "P" (Debug.pos (.std false)) [(0, 1), (2, 3)] = "Grid([Pos((0, 1)), Pos((2, 3))], PhantomData<P>)".toList ∧ Readable (Debug.pos (.std true)) :=
  ⟨by decide +kernel, readable_pos _⟩

/-- C119. The text of an iterator of integers, directions or positions determines what it still has to yield. -/
theorem C119_iterators (o : DFmt) (name : String) (p : Int × Int → List Char) (hp : Readable p) (item : Int → List Char) (hitem : Readable item) :
    (∀ a b, Debug.boundedIter o item a = Debug.boundedIter o item b ↔ a = b) ∧
    (∀ a b, Debug.dirIter o a = Debug.dirIter o b ↔ a = b) ∧
    (∀ a b, Debug.posIter o name p a = Debug.posIter o name p b ↔ a = b) ∧
    (∀ a b, Debug.posIterRange o p a = Debug.posIterRange o p b ↔ a = b) ∧
    (∀ a b, Debug.posIterInX o p a = Debug.posIterInX o p b ↔ a = b) ∧
    (∀ a b, Debug.posIterInY o p a = Debug.posIterInY o p b ↔ a = b) := by
  have ho := Debug.Readable.option hp o.alt
  have hi := Debug.Readable.option hitem o.alt
  refine ⟨fun a b => ⟨fun e => ?_, fun e => by rw [e]⟩, fun a b => ⟨fun e => ?_, fun e => by rw [e]⟩, fun a b => ⟨fun e => ?_, fun e => by rw [e]⟩,
    fun a b => ⟨fun e => ?_, fun e => by rw [e]⟩, fun a b => ⟨fun e => ?_, fun e => by rw [e]⟩, fun a b => ⟨fun e => ?_, fun e => by rw [e]⟩⟩
  · have := Debug.Fields.struct (α := Option Int × Option Int) (fs := fun x => [("start", Debug.option o.alt (x.1.map item)), ("end", Debug.option o.alt (x.2.map item))])
      (Debug.Fields.cons (Debug.Readable.named hi "start") (.one (Debug.Readable.named hi "end"))) o.alt "BoundedIntIterator"
    have := Debug.Readable.inj this (a := (a.start, a.stop)) (b := (b.start, b.stop)) e
    cases a; cases b; cases this; rfl
  · exact Debug.Readable.inj ((Debug.Fields.one (Debug.Readable.option Debug.readable_dir o.alt)).tuple o.alt "DirIter") e
  · have := Debug.Fields.struct (α := Option (Int × Int) × Option (Int × Int) × Unit)
      (fs := fun x => [("cur", Debug.option o.alt (x.1.map p)), ("end", Debug.option o.alt (x.2.1.map p)), ("p", Debug.phantom name)])
      (Debug.Fields.cons (Debug.Readable.named ho "cur") (.cons (Debug.Readable.named ho "end") (.one (Debug.Readable.named (Debug.Readable.const (Debug.phantom name)) "p")))) o.alt "PosTIter"
    have := Debug.Readable.inj this (a := (a.cur, a.stop, ())) (b := (b.cur, b.stop, ())) e
    cases a; cases b; cases this; rfl
  · have := Debug.Fields.struct (α := (Int × Int) × (Int × Int) × Option (Int × Int))
      (fs := fun x => [("topleft", p x.1), ("botright", p x.2.1), ("value", Debug.option o.alt (x.2.2.map p))])
      (Debug.Fields.cons (Debug.Readable.named hp "topleft") (.cons (Debug.Readable.named hp "botright") (.one (Debug.Readable.named ho "value")))) o.alt "PosTIterRange"
    have := Debug.Readable.inj this (a := (a.topleft, a.botright, a.value)) (b := (b.topleft, b.botright, b.value)) e
    cases a; cases b; cases this; rfl
  · exact Debug.Readable.inj ((Debug.Fields.one ho).tuple o.alt "PosTIterInX") e
  · exact Debug.Readable.inj ((Debug.Fields.one ho).tuple o.alt "PosTIterInY") e

example : Debug.posIterRange (.std false) (Debug.pair (.std false) .i8 .i8) ⟨(1, 0), (3, 2), some (2, 1)⟩ = "PosTIterRange { topleft: (1, 0), botright: (3, 2), value: Some((2, 1)) }".toList ∧
    Debug.dirIter (.std true) (some .SE) = "DirIter(\n    Some(\n        SE,\n    ),\n)".toList ∧ Readable (Debug.pair (.std false) .i8 .i8) :=
  ⟨by decide +kernel, by decide +kernel, readable_pair (.inl rfl) rfl _ _⟩

theorem Debug.option_eq (text : α → List Char) (o : Option α) : Debug.option false (o.map text) = maybe text o := by
  cases o <;> simp [Debug.option, maybe, Debug.tuple, Debug.commas]

/-- C119. The texts of the iterators with `{:?}`; `p` and `item` are the texts of positions and integers, and `name` the name of
the type of the positions. -/
theorem C119_iterators_text (o : DFmt) (ho : o.alt = false) (name : String) (p : Int × Int → List Char) (item : Int → List Char) :
    (∀ a b, Debug.boundedIter o item ⟨a, b⟩ = "BoundedIntIterator { start: ".toList ++ maybe item a ++ ", end: ".toList ++ maybe item b ++ " }".toList) ∧
    (∀ a, Debug.dirIter o a = "DirIter(".toList ++ maybe Dir.debug a ++ ")".toList) ∧
    (∀ a b, Debug.posIter o name p ⟨a, b⟩ =
      "PosTIter { cur: ".toList ++ maybe p a ++ ", end: ".toList ++ maybe p b ++ ", p: PhantomData<".toList ++ name.toList ++ "> }".toList) ∧
    (∀ tl br a, Debug.posIterRange o p ⟨tl, br, a⟩ =
      "PosTIterRange { topleft: ".toList ++ p tl ++ ", botright: ".toList ++ p br ++ ", value: ".toList ++ maybe p a ++ " }".toList) ∧
    (∀ a, Debug.posIterInX o p a = "PosTIterInX(".toList ++ maybe p a ++ ")".toList) ∧
    (∀ a, Debug.posIterInY o p a = "PosTIterInY(".toList ++ maybe p a ++ ")".toList) := by
  refine ⟨fun a b => ?_, fun a => ?_, fun a b => ?_, fun tl br a => ?_, fun a => ?_, fun a => ?_⟩
  · simp [Debug.boundedIter, ho, Debug.struct, Debug.commas, Debug.option_eq]
  · simp [Debug.dirIter, ho, Debug.tuple, Debug.commas, Debug.option_eq]
  · simp [Debug.posIter, ho, Debug.struct, Debug.commas, Debug.option_eq, Debug.phantom]
  · simp [Debug.posIterRange, ho, Debug.struct, Debug.commas, Debug.option_eq]
  · simp [Debug.posIterInX, ho, Debug.tuple, Debug.commas, Debug.option_eq]
  · simp [Debug.posIterInY, ho, Debug.tuple, Debug.commas, Debug.option_eq]

/-- C119. The texts of the search iterators with `{:?}`: `p`, `set`, `map` and `go` are the texts of the positions, of the collection and of the closure. -/
theorem C119_search_iterators_text [Target] (o : DFmt) (ho : o.alt = false) (p : Int × Int → List Char) (go : List Char) :
    (∀ (S : SetImpl) (set : S.σ → List Char) (v : S.σ) (front : List ((Int × Int) × Dir)), Debug.bfIter o p S set go ⟨v, front⟩ =
      "BfIterator { visited: ".toList ++ set v ++ ", nextfront: [".toList ++
        between ", ".toList (front.map fun m => "(".toList ++ p m.1 ++ ", ".toList ++ m.2.debug ++ ")".toList) ++ "], go: ".toList ++ go ++ " }".toList) ∧
    (∀ (C : MapImpl Int) (map : C.σ → List Char) (dest : Int × Int) (c : C.σ) (front : List Entry), Debug.astarIter o p C map go dest ⟨c, front⟩ =
      "AstarIterator { cost: ".toList ++ map c ++ ", frontier: [".toList ++
        between ", ".toList (front.map fun e => "(Reverse(".toList ++ o.int .usize e.1 ++ "), (".toList ++ p e.2.1 ++ ", ".toList ++ e.2.2.debug ++ "))".toList) ++
        "], go: ".toList ++ go ++ ", dest: ".toList ++ p dest ++ " }".toList) ∧
    (∀ (C : MapImpl Int) (map : C.σ → List Char) (c : C.σ) (front : List Entry), Debug.ucsIter o p C map go ⟨c, front⟩ =
      "UcsIterator { cost: ".toList ++ map c ++ ", frontier: [".toList ++
        between ", ".toList (front.map fun e => "(Reverse(".toList ++ o.int .usize e.1 ++ "), (".toList ++ p e.2.1 ++ ", ".toList ++ e.2.2.debug ++ "))".toList) ++
        "], go: ".toList ++ go ++ " }".toList) := by
  have hm : Debug.mov o p = fun m => "(".toList ++ p m.1 ++ ", ".toList ++ m.2.debug ++ ")".toList := by
    funext m; simp [Debug.mov, ho, Debug.tuple, Debug.commas]
  have he : Debug.entry o p = fun e => "(Reverse(".toList ++ o.int .usize e.1 ++ "), (".toList ++ p e.2.1 ++ ", ".toList ++ e.2.2.debug ++ "))".toList := by
    funext e; simp [Debug.entry, ho, Debug.mov, Debug.tuple, Debug.commas]
  have hl : ∀ xs, Debug.list false xs = "[".toList ++ between ", ".toList xs ++ "]".toList := fun xs => by
    rw [show between ", ".toList xs = Debug.commas xs from (Debug.commas_eq xs).symm]; rfl
  refine ⟨fun S set v front => ?_, fun C map dest c front => ?_, fun C map c front => ?_⟩
  · simp [Debug.bfIter, ho, Debug.struct, Debug.commas, hm, hl]
  · simp [Debug.astarIter, ho, Debug.struct, Debug.commas, he, hl]
  · simp [Debug.ucsIter, ho, Debug.struct, Debug.commas, he, hl]

/-- C119. The text of a search iterator determines what it has visited, or the costs, and its frontier with the order of the entries, if the texts of the sets and
maps and of the positions can be read back. -/
theorem C119_search_iterators [Target] (o : DFmt) (ho : Clear o) (hh : o.hex = none) (p : Int × Int → List Char) (hp : Readable p) (go : List Char) :
    (∀ (S : SetImpl) (set : S.σ → List Char) (_ : Readable set) (a b : BfIter S), Debug.bfIter o p S set go a = Debug.bfIter o p S set go b ↔ a = b) ∧
    (∀ (C : MapImpl Int) (map : C.σ → List Char) (_ : Readable map) (dest dest' : Int × Int) (a b : AstarIterQ .binaryHeap C),
      Debug.astarIter o p C map go dest a = Debug.astarIter o p C map go dest' b ↔ a = b ∧ dest = dest') ∧
    (∀ (C : MapImpl Int) (map : C.σ → List Char) (_ : Readable map) (a b : UcsIterQ .binaryHeap C),
      Debug.ucsIter o p C map go a = Debug.ucsIter o p C map go b ↔ a = b) := by
  have hm : Readable (Debug.mov o p) := (Debug.Fields.cons hp (.one Debug.readable_dir)).tuple o.alt ""
  have he : Readable (Debug.entry o p) := (Debug.Fields.cons ((Debug.Fields.one (Debug.readable_int ho hh .usize)).tuple o.alt "Reverse") (.one hm)).tuple o.alt ""
  have hml := Debug.Readable.list hm (fun _ => debug_entry_visible o.alt _ _) o.alt
  have hel := Debug.Readable.list he (fun _ => debug_entry_visible o.alt _ _) o.alt
  have hgo := Debug.Readable.named (Debug.Readable.const go) "go"
  refine ⟨fun S set hs a b => ⟨fun e => ?_, fun e => by rw [e]⟩, fun C map hs dest dest' a b => ⟨fun e => ?_, fun e => by rw [e.1, e.2]⟩,
    fun C map hs a b => ⟨fun e => ?_, fun e => by rw [e]⟩⟩
  · have := Debug.Fields.struct (α := S.σ × List ((Int × Int) × Dir) × Unit)
      (fs := fun x => [("visited", set x.1), ("nextfront", Debug.list o.alt (x.2.1.map (Debug.mov o p))), ("go", go)])
      (Debug.Fields.cons (Debug.Readable.named hs "visited") (.cons (Debug.Readable.named hml "nextfront") (.one hgo))) o.alt "BfIterator"
    have := Debug.Readable.inj this (a := (a.visited, a.nextfront, ())) (b := (b.visited, b.nextfront, ())) e
    cases a; cases b; cases this; rfl
  · have := Debug.Fields.struct (α := C.σ × List Entry × Unit × (Int × Int))
      (fs := fun x => [("cost", map x.1), ("frontier", Debug.list o.alt (x.2.1.map (Debug.entry o p))), ("go", go), ("dest", p x.2.2.2)])
      (Debug.Fields.cons (Debug.Readable.named hs "cost") (.cons (Debug.Readable.named hel "frontier") (.cons hgo (.one (Debug.Readable.named hp "dest"))))) o.alt "AstarIterator"
    have := Debug.Readable.inj this (a := (a.cost, a.frontier, (), dest)) (b := (b.cost, b.frontier, (), dest')) e
    cases a; cases b; cases this; exact ⟨rfl, rfl⟩
  · have := Debug.Fields.struct (α := C.σ × List Entry × Unit)
      (fs := fun x => [("cost", map x.1), ("frontier", Debug.list o.alt (x.2.1.map (Debug.entry o p))), ("go", go)])
      (Debug.Fields.cons (Debug.Readable.named hs "cost") (.cons (Debug.Readable.named hel "frontier") (.one hgo))) o.alt "UcsIterator"
    have := Debug.Readable.inj this (a := (a.cost, a.frontier, ())) (b := (b.cost, b.frontier, ())) e
    cases a; cases b; cases this; rfl

attribute [local instance] debug64 in
example : Debug.bfIter (.std false) (Debug.pos (.std false)) (SetImpl.gridbool (PosTy.pos 1 1) 1) (Debug.gridbool (.std false) "P") "go".toList ⟨[5], [((1, 0), .E)]⟩ =
      "BfIterator { visited: Gridbool([5], PhantomData<P>), nextfront: [(Pos((1, 0)), E)], go: go }".toList ∧
    Readable (Debug.gridbool (.std false) "P") ∧ Readable (Debug.pos (.std false)) :=
  ⟨by decide +kernel, (C119_gridbool_read false "P" [] []).2, readable_pos _⟩

/-- C119. Integers are written in decimal. -/
theorem C119_int_text (alt : Bool) (t : IntTy) (v : Int) : (DFmt.std alt).int t v = integer v := by rw [Debug.std_int, Debug.decimalInt_eq]

/-! ## C134 -/

/-- C134. The options other than `#` make no difference to positions, directions and errors, nor to a `Sqrid`. -/
theorem C134_no_options (o : DFmt) (p : Int × Int) (d : Option Dir) :
    Debug.pos o p = Debug.pos (.std o.alt) p ∧ Debug.dirIter o d = Debug.dirIter (.std o.alt) d ∧ Debug.sqrid o = Debug.sqrid (.std o.alt) := ⟨rfl, rfl, rfl⟩

/-- C134. An integer in decimal is its sign and its digits, filled up to the width: with zeros after the sign if `0` is given, otherwise with the fill character on
the side or the sides that the alignment says, on the left if there is none. It is never cut. -/
theorem C134_int_text (o : DFmt) (hh : o.hex = none) (t : IntTy) (v : Int) :
    (o.width.getD 0 ≤ (signed o.plus v).length → o.int t v = signed o.plus v) ∧
    (o.zero = false → ∃ i j, o.int t v = List.replicate i o.fill ++ signed o.plus v ++ List.replicate j o.fill ∧ i + j = o.width.getD 0 - (signed o.plus v).length ∧
      (o.align = none → j = 0) ∧ (o.align = some .right → j = 0) ∧ (o.align = some .left → i = 0) ∧ (o.align = some .center → i ≤ j ∧ j ≤ i + 1)) ∧
    (o.zero = true → ∃ k, o.int t v = (signed o.plus v).take ((signed o.plus v).length - (number v.natAbs).length) ++ List.replicate k '0' ++ number v.natAbs ∧
      k = o.width.getD 0 - (signed o.plus v).length) := by
  have hs : signed o.plus v = ((if decide (0 ≤ v) = true then (if o.plus then ['+'] else []) else ['-']) ++ if o.alt then [] else []) ++ decimal v.natAbs := by
    unfold signed
    by_cases hv : v < 0
    · have : ¬ 0 ≤ v := by omega
      cases o.alt <;> simp [hv, this, decimal, number]
    · have : 0 ≤ v := by omega
      cases o.alt <;> simp [hv, this, decimal, number]
  have e : o.int t v = o.padIntegral (decide (0 ≤ v)) [] (decimal v.natAbs) := by unfold DFmt.int; rw [hh]
  rw [e]
  unfold DFmt.padIntegral
  simp only
  generalize hst : ((if decide (0 ≤ v) = true then (if o.plus then ['+'] else []) else ['-']) ++ if o.alt then [] else []) = start at *
  rw [← hs]
  refine ⟨fun hw => ?_, fun hz => ?_, fun hz => ?_⟩
  · rw [Nat.sub_eq_zero_of_le hw]
    simp only [List.replicate_zero, List.append_nil, ← hs, List.nil_append, Nat.zero_div]
    split
    · rfl
    · split <;> simp
  · rw [if_neg (by simp [hz])]
    generalize o.width.getD 0 - _ = k
    cases ha : o.align with
    | none => exact ⟨k, 0, by simp, by simp⟩
    | some a =>
      cases a with
      | left => exact ⟨0, k, by simp, by simp⟩
      | right => exact ⟨k, 0, by simp, by simp⟩
      | center => exact ⟨k / 2, (k + 1) / 2, by simp, by omega, by simp, by simp, by simp, fun _ => by omega⟩
  · rw [if_pos hz]
    refine ⟨_, ?_, rfl⟩
    have : (signed o.plus v).take ((signed o.plus v).length - (number v.natAbs).length) = start := by
      rw [hs]
      simp [decimal, number]
    rw [this]
    rfl

-- `{:+06?}`, `{:*^7?}` and `{:3?}`
example : DFmt.int { DFmt.std false with plus := true, zero := true, width := some 6 } .i16 42 = "+00042".toList ∧
    DFmt.int { DFmt.std false with fill := '*', align := some .center, width := some 7 } .i16 (-42) = "**-42**".toList ∧
    DFmt.int { DFmt.std false with width := some 3 } .i16 7 = "  7".toList ∧ DFmt.int { DFmt.std false with width := some 3 } .i16 12345 = "12345".toList := by
  decide +kernel

/-- C134. With `x` or `X` an integer is written in hexadecimal, the negative ones in two's complement, and with `0x` in front if `#` is given. -/
theorem C134_hex_text (o : DFmt) (upper : Bool) (hh : o.hex = some upper) (hw : o.width = none) (hp : o.plus = false) (t : IntTy) (v : Int) (hv : t.Has v) (ht : t.lo = 0 ∨ t.lo = -t.hi - 1) :
    o.int t v = (if o.alt then "0x".toList else []) ++ hexadecimal upper (if v < 0 then v + (t.hi - t.lo + 1) else v).toNat := by
  have hm : v % (t.hi - t.lo + 1) = if v < 0 then v + (t.hi - t.lo + 1) else v := by
    unfold IntTy.Has at hv
    split
    · rw [← Int.add_emod_right, Int.emod_eq_of_lt (by omega) (by omega)]
    · rw [Int.emod_eq_of_lt (by omega) (by omega)]
  unfold DFmt.int DFmt.padIntegral
  rw [hh]
  simp only [hm, hw, hp]
  have hd : ∀ n, hexadecimal upper n = if upper = true then (Nat.toDigits 16 n).map Char.toUpper else Nat.toDigits 16 n := by
    intro n
    cases upper
    · simp [hexadecimal]
    · simp [hexadecimal]
  rw [← hd]
  split
  · simp
  · split <;> simp

example : IntTy.i8.Has (-1) ∧ IntTy.i8.lo = -IntTy.i8.hi - 1 ∧ IntTy.u32.lo = 0 := by decide
-- `{:x?}`, `{:#X?}` and `{:#06x?}`
example : DFmt.int { DFmt.std false with hex := some false } .i8 (-1) = "ff".toList ∧ DFmt.int { DFmt.std true with hex := some true } .u32 48879 = "0xBEEF".toList ∧
    DFmt.int { DFmt.std true with hex := some false, zero := true, width := some 6 } .u32 10 = "0x000a".toList := by decide +kernel

/-- C134. The text of a gridbool with any options: its words as these options write them, and the name of the type of the positions. -/
theorem C134_gridbool_text (o : DFmt) (ho : o.alt = false) (name : String) (g : List (BitVec 32)) :
    Debug.gridbool o name g = "Gridbool([".toList ++ between ", ".toList (g.map fun w => o.int .u32 w.toNat) ++ "], PhantomData<".toList ++ name.toList ++ ">)".toList := by
  simp [Debug.gridbool, ho, Debug.tuple, Debug.list, Debug.commas, Debug.commas_eq, Debug.phantom]

example : Debug.gridbool { DFmt.std false with hex := some false, zero := true, width := some 8 } "P" [0xdeadbeef, 7] =
    "Gridbool([deadbeef, 00000007], PhantomData<P>)".toList := by decide +kernel

/-- C134. Two gridbools with the same text, whatever the options as long as they leave no doubt where an integer begins and ends, have the same words. -/
theorem C134_gridbool_read (o : DFmt) (ho : Clear o) (name : String) (g h : List (BitVec 32)) :
    (Debug.gridbool o name g = Debug.gridbool o name h ↔ g = h) ∧ Readable (Debug.gridbool o name) :=
  ⟨⟨Debug.Readable.inj (readable_gridbool ho name), fun e => by rw [e]⟩, readable_gridbool ho name⟩

/-- C134. The texts of positions can be read back whatever the options, and those of integers and pairs of integers in decimal with options that leave no doubt where
an integer begins and ends. -/
theorem C134_readable (o : DFmt) :
    Readable (Debug.pos o) ∧ (Clear o → o.hex = none → ∀ t u, Readable (o.int t) ∧ Readable (Debug.pair o t u)) :=
  ⟨readable_pos o, fun ho hh t u => ⟨Debug.readable_int ho hh t, readable_pair ho hh t u⟩⟩

example : Clear { DFmt.std true with fill := '*', align := some .center, width := some 7 } ∧ Clear { DFmt.std true with fill := '1', zero := true, width := some 7 } :=
  ⟨.inr (.inr (by decide)), .inr (.inl rfl)⟩

/-- C134. With other options two gridbools can have the same text: `{:1>3?}` fills up with ones. -/
theorem C134_unclear : Debug.gridbool { DFmt.std false with fill := '1', align := some .right, width := some 3 } "P" [11] =
    Debug.gridbool { DFmt.std false with fill := '1', align := some .right, width := some 3 } "P" [111] := by decide +kernel

end Sqrid
