import Verif.Spec.PathText
import Verif.Props.Around
/-!
# Property C156: paths as texts
-/

namespace Sqrid

open Spec

/-- C156. A text reads as a path exactly if its characters are spellings of the directions of the path, one for each. -/
theorem C156_read (s : List Char) (path : List Dir) : readPath s = .ok path ↔ List.Forall₂ (fun c d => c ∈ spellings d) s path := by
  induction s generalizing path with
  | nil =>
    rw [readPath]
    cases path <;> simp
  | cons c cs ih =>
    rw [readPath]
    cases hc : Dir.ofChar c with
    | error e =>
      constructor
      · intro h; cases h
      · intro h
        cases h with
        | cons h1 _ => rw [(C24_try_from_char _ _).2 h1] at hc; cases hc
    | ok d =>
      have hd := (C24_try_from_char _ _).1 hc
      cases path with
      | nil =>
        constructor
        · intro h
          cases hr : readPath cs with
          | error e => rw [hr] at h; cases h
          | ok ds => rw [hr] at h; cases h
        · intro h; cases h
      | cons e es =>
        rw [List.forall₂_cons, ← ih]
        constructor
        · intro h
          cases hr : readPath cs with
          | error e => rw [hr] at h; cases h
          | ok ds => rw [hr] at h; cases h; exact ⟨hd, rfl⟩
        · rintro ⟨h1, h2⟩
          rw [h2]
          have := (C24_try_from_char _ _).2 h1
          rw [hc] at this
          cases this
          rfl

/-- C156. If there is a character that is no spelling of a direction, then reading fails with the parse error. -/
theorem C156_read_error (s : List Char) : (∃ path, readPath s = .ok path) ∧ (∀ c ∈ s, ∃ d, c ∈ spellings d) ∨
    readPath s = .error .dirParseError ∧ ∃ c ∈ s, ∀ d, c ∉ spellings d := by
  induction s with
  | nil => exact .inl ⟨⟨[], rfl⟩, by simp⟩
  | cons c cs ih =>
    rw [readPath]
    by_cases hc : ∃ d, c ∈ spellings d
    · obtain ⟨d, hd⟩ := hc
      rw [(C24_try_from_char _ _).2 hd]
      rcases ih with ⟨⟨path, h⟩, h'⟩ | ⟨h, x, hx, hx'⟩
      · refine .inl ⟨⟨d :: path, by rw [h]⟩, ?_⟩
        intro x hx
        rcases List.mem_cons.1 hx with rfl | hx
        exacts [⟨d, hd⟩, h' x hx]
      · exact .inr ⟨by rw [h], x, List.mem_cons_of_mem _ hx, hx'⟩
    · have h : Dir.fromStr [c] = .error .dirParseError := (C24_parse [c]).2 (by
        rintro ⟨d, c', h1, h2⟩
        cases h1
        exact hc ⟨d, h2⟩)
      have h' : Dir.ofChar c = .error .dirParseError := h
      rw [h']
      exact .inr ⟨rfl, c, List.mem_cons_self, fun d hd => hc ⟨d, hd⟩⟩

example : readPath "N→v`".toList = .ok [.N, .E, .S, .NW] ∧ readPath "N x".toList = .error .dirParseError := by decide

/-- C156. The texts of `name_utf8` and of `name_ascii` have one character for each step and read as the same path. -/
theorem C156_round_trip (path : List Dir) :
    (∃ s, writePath Dir.nameUtf8 path = .ok s ∧ s.length = path.length ∧ readPath s = .ok path) ∧
    (∃ s, writePath Dir.nameAscii path = .ok s ∧ s.length = path.length ∧ readPath s = .ok path) := by
  induction path with
  | nil => exact ⟨⟨[], rfl, rfl, rfl⟩, ⟨[], rfl, rfl, rfl⟩⟩
  | cons d ds ih =>
    obtain ⟨⟨s1, a1, b1, c1⟩, ⟨s2, a2, b2, c2⟩⟩ := ih
    constructor
    · have : ∃ c, d.nameUtf8 = .ok [c] ∧ Dir.ofChar c = .ok d := by cases d <;> exact ⟨_, rfl, rfl⟩
      obtain ⟨c, e1, e2⟩ := this
      refine ⟨c :: s1, by rw [writePath, e1, Out.ok_bind, a1]; rfl, by simp [b1], by rw [readPath, e2, c1]⟩
    · have : ∃ c, d.nameAscii = .ok [c] ∧ Dir.ofChar c = .ok d := by cases d <;> exact ⟨_, rfl, rfl⟩
      obtain ⟨c, e1, e2⟩ := this
      refine ⟨c :: s2, by rw [writePath, e1, Out.ok_bind, a2]; rfl, by simp [b2], by rw [readPath, e2, c2]⟩

example : writePath Dir.nameUtf8 [.N, .NE, .W] = .ok "↑↗←".toList ∧ writePath Dir.nameAscii [.N, .NE, .W] = .ok "^7<".toList := by decide

theorem writePath_display (path : List Dir) : ∃ s, writePath Dir.display path = .ok s ∧ readPath s = .ok (path.flatMap alongAxes) := by
  induction path with
  | nil => exact ⟨[], rfl, rfl⟩
  | cons d ds ih =>
    obtain ⟨s, h1, h2⟩ := ih
    have : ∃ w, d.display = .ok w ∧ readPath (w ++ s) = .ok (alongAxes d ++ ds.flatMap alongAxes) := by
      cases d <;> refine ⟨_, rfl, ?_⟩ <;> simp only [List.cons_append, List.nil_append, readPath, h2, alongAxes] <;> rfl
    obtain ⟨w, h3, h4⟩ := this
    exact ⟨w ++ s, by rw [writePath, h3, Out.ok_bind, h1]; rfl, by rw [List.flatMap_cons]; exact h4⟩

theorem flatMap_alongAxes (path : List Dir) : path.flatMap alongAxes = path ↔ ∀ d ∈ path, Allowed false d := by
  constructor
  · intro h d hd
    rw [← h] at hd
    obtain ⟨e, _, he⟩ := List.mem_flatMap.1 hd
    cases e <;> simp only [alongAxes, List.mem_cons, List.not_mem_nil, or_false] at he <;> (try rcases he with rfl | rfl) <;> simp [Allowed, unit]
  · intro h
    induction path with
    | nil => rfl
    | cons d ds ih =>
      rw [List.flatMap_cons, ih fun e he => h e (List.mem_cons_of_mem _ he)]
      have := h d List.mem_cons_self
      cases d <;> simp [Allowed, unit, alongAxes] at this ⊢

/-- C156. The text of the letters (`to_string`) reads as the same path exactly if there are no diagonals. A diagonal is read as two steps along the axes. -/
theorem C156_letters (path : List Dir) : ∃ s, writePath Dir.display path = .ok s ∧ readPath s = .ok (path.flatMap alongAxes) ∧
    (readPath s = .ok path ↔ ∀ d ∈ path, Allowed false d) := by
  obtain ⟨s, h1, h2⟩ := writePath_display path
  refine ⟨s, h1, h2, ?_⟩
  rw [h2, ← flatMap_alongAxes]
  exact ⟨fun h => by injection h, fun h => by rw [h]⟩

/-- C156. The path that is read leads to the same position and stays in the grid, although a diagonal is read as two steps. -/
theorem C156_letters_lead (T : PosTy) (hT : T.WF) (path : List Dir) (p q : Int × Int) (hp : InGrid T p) (h : IsPath T.addDirOk true p path q) :
    ∃ s path', writePath Dir.display path = .ok s ∧ readPath s = .ok path' ∧ IsPath T.addDirOk false p path' q := by
  obtain ⟨s, h1, h2⟩ := writePath_display path
  refine ⟨s, _, h1, h2, ?_, ?_⟩
  · intro d hd
    obtain ⟨e, _, he⟩ := List.mem_flatMap.1 hd
    cases e <;> simp only [alongAxes, List.mem_cons, List.not_mem_nil, or_false] at he <;> (try rcases he with rfl | rfl) <;> simp [Allowed, unit]
  · have hf := h.2
    clear h h1 h2
    induction path generalizing p with
    | nil => exact hf
    | cons d ds ih =>
      rw [follow] at hf
      cases hd : T.addDirOk p d with
      | none => rw [hd] at hf; cases hf
      | some r =>
        rw [hd] at hf
        obtain ⟨hr, e⟩ := (addDirOk_iff hT hp d r).1 hd
        have := ih r hr hf
        have hsome : ∀ (a : Int × Int) (d' : Dir) (b : Int × Int), InGrid T a → InGrid T b → b = neighbour a d' → T.addDirOk a d' = some b :=
          fun a d' b h1 h2 h3 => (addDirOk_iff hT h1 d' b).2 ⟨h2, h3⟩
        have two : ∀ d1 d2 : Dir, InGrid T (neighbour p d1) → r = neighbour (neighbour p d1) d2 →
            follow T.addDirOk p ([d1, d2] ++ ds.flatMap alongAxes) = some q := by
          intro d1 d2 g1 g2
          simp only [List.cons_append, List.nil_append, follow]
          rw [hsome p d1 _ hp g1 rfl]
          simp only
          rw [hsome _ d2 r g1 hr g2]
          exact this
        have one : d.isDiagonal = false → follow T.addDirOk p ([d] ++ ds.flatMap alongAxes) = some q := by
          intro _
          simp only [List.cons_append, List.nil_append, follow]
          rw [hd]
          exact this
        obtain ⟨px, py⟩ := p
        subst e
        rw [List.flatMap_cons]
        unfold InGrid at hp hr
        cases d <;> simp only [neighbour, unit] at hr hp <;> first
          | exact one rfl
          | exact two .N .E (by unfold InGrid; simp only [neighbour, unit]; omega) (by simp [neighbour, unit])
          | exact two .N .W (by unfold InGrid; simp only [neighbour, unit]; omega) (by simp [neighbour, unit])
          | exact two .S .E (by unfold InGrid; simp only [neighbour, unit]; omega) (by simp [neighbour, unit])
          | exact two .S .W (by unfold InGrid; simp only [neighbour, unit]; omega) (by simp [neighbour, unit])

example : PosTy.WF (PosTy.pos 2 2) ∧ InGrid (PosTy.pos 2 2) (0, 2) ∧ IsPath (PosTy.pos 2 2).addDirOk true (0, 2) [.NE, .E, .NW] (1, 0) ∧
    writePath Dir.display [.NE, .E, .NW] = .ok "NEENW".toList ∧ readPath "NEENW".toList = .ok [.N, .E, .E, .N, .W] := by
  refine ⟨by decide, by unfold InGrid; decide, ⟨fun _ _ => .inl rfl, by decide⟩, by decide, by decide⟩

/-- C156. Two paths can have the same text of letters; in the other two notations they cannot. -/
theorem C156_letters_ambiguous : writePath Dir.display [.N, .E] = writePath Dir.display [.NE] ∧
    ∀ a b : List Dir, writePath Dir.nameUtf8 a = writePath Dir.nameUtf8 b ∨ writePath Dir.nameAscii a = writePath Dir.nameAscii b → a = b := by
  refine ⟨by decide, fun a b h => ?_⟩
  obtain ⟨⟨s1, a1, _, a2⟩, ⟨s2, a3, _, a4⟩⟩ := C156_round_trip a
  obtain ⟨⟨t1, b1, _, b2⟩, ⟨t2, b3, _, b4⟩⟩ := C156_round_trip b
  rcases h with h | h
  · rw [a1, b1] at h
    cases h
    rw [a2] at b2
    injection b2
  · rw [a3, b3] at h
    cases h
    rw [a4] at b4
    injection b4

/-- C156. Read word by word, the names of the directions of a path give the path if it has no diagonals, and the parse error otherwise; arrows and symbols always give
the path. -/
theorem C156_words (path : List Dir) :
    (∃ ws, path.mapM Dir.display = .ok ws ∧ readWords ws = if path.all fun d => !d.isDiagonal then .ok path else .error .dirParseError) ∧
    (∃ ws, path.mapM Dir.nameUtf8 = .ok ws ∧ readWords ws = .ok path) ∧ (∃ ws, path.mapM Dir.nameAscii = .ok ws ∧ readWords ws = .ok path) := by
  induction path with
  | nil => exact ⟨⟨[], rfl, rfl⟩, ⟨[], rfl, rfl⟩, ⟨[], rfl, rfl⟩⟩
  | cons d ds ih =>
    obtain ⟨⟨w1, a1, b1⟩, ⟨w2, a2, b2⟩, ⟨w3, a3, b3⟩⟩ := ih
    simp only [List.mapM_cons]
    refine ⟨?_, ?_, ?_⟩
    · have : ∃ w, d.display = .ok w ∧ Dir.fromStr w = if d.isDiagonal then .error .dirParseError else .ok d := by cases d <;> exact ⟨_, rfl, rfl⟩
      obtain ⟨w, e1, e2⟩ := this
      refine ⟨w :: w1, by rw [e1, Out.ok_bind, a1]; rfl, ?_⟩
      rw [readWords, e2, b1]
      cases hd : d.isDiagonal <;> cases hs : ds.all fun d => !d.isDiagonal <;> simp [hd, hs]
    · have : ∃ w, d.nameUtf8 = .ok w ∧ Dir.fromStr w = .ok d := by cases d <;> exact ⟨_, rfl, rfl⟩
      obtain ⟨w, e1, e2⟩ := this
      exact ⟨w :: w2, by rw [e1, Out.ok_bind, a2]; rfl, by rw [readWords, e2, b2]⟩
    · have : ∃ w, d.nameAscii = .ok w ∧ Dir.fromStr w = .ok d := by cases d <;> exact ⟨_, rfl, rfl⟩
      obtain ⟨w, e1, e2⟩ := this
      exact ⟨w :: w3, by rw [e1, Out.ok_bind, a3]; rfl, by rw [readWords, e2, b3]⟩

example : readWords ["N".toList, "e".toList, "↓".toList] = .ok [.N, .E, .S] ∧ readWords ["N".toList, "NE".toList] = .error .dirParseError := by decide

end Sqrid
