import Verif.Proofs.ClosureBest
/-! Runs with logs and runs without them. -/

namespace Sqrid

open Spec

variable {W α : Type}

theorem logged_same (go : Int × Int → Dir → Eff W α) (p : Int × Int) (d : Dir) :
    Eff.Same (fun w (s : W × List ((Int × Int) × Dir × α)) => s.1 = w) (go p d) (logged go p d) := by
  intro w s h
  subst h
  unfold logged
  cases go p d s.1 with
  | ok a => exact ⟨rfl, rfl⟩
  | panic => exact True.intro
  | ub => exact True.intro
  | timeout => exact True.intro

theorem logged_panic {T : PosTy} {go : Int × Int → Dir → Eff W (Option (Int × Int))} (h : Returns T go) :
    Logs T (¬ NoPanic T go) (logged go) Prod.snd (fun _ => ()) := by
  intro p d s hp
  rcases h p d s.1 hp with h1 | ⟨a, w', h1, h2⟩
  · exact .inl ⟨by simp only [logged, h1], fun hn => hn p d s.1 hp h1⟩
  · exact .inr ⟨a, (w', s.2 ++ [(p, d, a)]), by simp only [logged, h1], h2, rfl, rfl⟩

theorem loggedCost_panic {T : PosTy} {B : Int} {go : Int × Int → Dir → Eff W (Option ((Int × Int) × Int))} (h : ReturnsCost T B go) (small Q : Prop) :
    LogsCost T (¬ (NoPanic T go ∧ Q)) (logged go) (fun s => withoutCosts s.2) small B := by
  intro p d s hp
  rcases h p d s.1 hp with h1 | ⟨a, w', h1, h2⟩
  · exact .inl ⟨by simp only [logged, h1], fun hn => hn.1 p d s.1 hp h1⟩
  · exact .inr ⟨a, (w', s.2 ++ [(p, d, a)]), by simp only [logged, h1], fun q x hq => ⟨(h2 q x hq).1, (h2 q x hq).2.1, fun _ => (h2 q x hq).2.2⟩, by simp [withoutCosts]⟩

/-- A run, from the run with the log. -/
theorem Eff.Post.unlog {L : Type} {P : Prop} {m : Eff W α} {m' : Eff (W × L) α} (hs : Eff.Same (fun w (s : W × L) => s.1 = w) m m') {w : W} {l : L}
    {Q : α → W × L → Prop} (h : Eff.Post P m' (w, l) Q) :
    (m w = .panic ∧ P) ∨ ∃ a w' l', m w = .ok (a, w') ∧ m' (w, l) = .ok (a, (w', l')) ∧ Q a (w', l') := by
  have := hs w (w, l) rfl
  rcases h with ⟨h, hP⟩ | ⟨a, ⟨w', l'⟩, h, hQ⟩
  · rw [h] at this
    refine .inl ⟨?_, hP⟩
    revert this
    cases m w <;> intro h <;> first | rfl | exact h.elim
  · rw [h] at this
    right
    revert this
    cases hm : m w with
    | ok b =>
      intro ⟨h1, h2⟩
      obtain ⟨b1, b2⟩ := b
      simp only at h1 h2
      subst h1 h2
      exact ⟨_, _, l', rfl, h, hQ⟩
    | panic => intro h; exact h.elim
    | ub => intro h; exact h.elim
    | timeout => intro h; exact h.elim

/-! ### What holds of all the entries of a log -/

theorem logged_same_all (I : P2 → Dir → α → Prop) {go : P2 → Dir → Eff W α} (hI : ∀ p d w a w', go p d w = .ok (a, w') → I p d a) (p : P2) (d : Dir) :
    Eff.Same (fun w (s : W × List (P2 × Dir × α)) => s.1 = w ∧ ∀ e ∈ s.2, I e.1 e.2.1 e.2.2) (go p d) (logged go p d) := by
  rintro w s ⟨rfl, h⟩
  unfold logged
  cases hg : go p d s.1 with
  | ok a =>
    refine ⟨rfl, rfl, fun e he => ?_⟩
    rcases List.mem_append.1 he with he | he
    · exact h e he
    · rw [List.mem_singleton.1 he]; exact hI p d s.1 a.1 a.2 hg
  | panic => exact True.intro
  | ub => exact True.intro
  | timeout => exact True.intro

theorem bothGo_same_all (I : P2 → Dir → Option P2 → Prop) {go : P2 → Dir → Eff W (Option P2)} (hI : ∀ p d w a w', go p d w = .ok (a, w') → I p d a) (p : P2) (d : Dir) :
    Eff.Same (fun w (s : (W × GoLog) × List (P2 × Bool)) => s.1.1 = w ∧ ∀ e ∈ s.1.2, I e.1 e.2.1 e.2.2) (go p d) (bothGo go p d) := by
  rintro w s ⟨rfl, h⟩
  unfold bothGo unlogged logged
  cases hg : go p d s.1.1 with
  | ok a =>
    refine ⟨rfl, rfl, fun e he => ?_⟩
    rcases List.mem_append.1 he with he | he
    · exact h e he
    · rw [List.mem_singleton.1 he]; exact hI p d s.1.1 a.1 a.2 hg
  | panic => exact True.intro
  | ub => exact True.intro
  | timeout => exact True.intro

theorem bothFound_same_all (I : P2 → Dir → Option P2 → Prop) (found : P2 → Eff W Bool) (p : P2) :
    Eff.Same (fun w (s : (W × GoLog) × List (P2 × Bool)) => s.1.1 = w ∧ ∀ e ∈ s.1.2, I e.1 e.2.1 e.2.2) (found p) (bothFound found p) := by
  rintro w s ⟨rfl, h⟩
  simp only [bothFound, unlogged, logged1]
  cases found p s.1.1 with
  | ok a => exact ⟨rfl, rfl, h⟩
  | panic => exact True.intro
  | ub => exact True.intro
  | timeout => exact True.intro

/-- What relates the worlds at the start relates them at the end. -/
theorem Eff.Same.finish {V : Type} {Rel : W → V → Prop} {m : Eff W α} {m' : Eff V α} (hs : Eff.Same Rel m m') {w : W} {v : V} (h : Rel w v) {a a' : α} {w' : W} {v' : V}
    (h1 : m w = .ok (a, w')) (h2 : m' v = .ok (a', v')) : Rel w' v' := by
  have := hs w v h
  rw [h1, h2] at this
  exact this.2

/-! ### Two closures -/

/-- The movement closure and the predicate, each with a log, in the same world. -/
theorem logged_both {T : PosTy} {go : Int × Int → Dir → Eff W (Option (Int × Int))} (h : Returns T go) {found : Int × Int → Eff W Bool} (hf : Tests T found) :
    Logs T (¬ (NoPanic T go ∧ NoPanic1 T found)) (bothGo go) (fun s => s.1.2) (fun s => s.2) ∧
    Logs1 T (¬ (NoPanic T go ∧ NoPanic1 T found)) (bothFound found) (fun s => s.2) (fun s => s.1.2) := by
  constructor
  · intro p d s hp
    rcases h p d s.1.1 hp with h1 | ⟨a, w', h1, h2⟩
    · exact .inl ⟨by simp only [bothGo, unlogged, logged, h1], fun hn => hn.1 p d s.1.1 hp h1⟩
    · exact .inr ⟨a, ((w', s.1.2 ++ [(p, d, a)]), s.2), by simp only [bothGo, unlogged, logged, h1], h2, rfl, rfl⟩
  · intro p s hp
    rcases hf p s.1.1 hp with h1 | ⟨a, w', h1⟩
    · exact .inl ⟨by simp only [bothFound, unlogged, logged1, h1], fun hn => hn.2 p s.1.1 hp h1⟩
    · exact .inr ⟨a, ((w', s.1.2), s.2 ++ [(p, a)]), by simp only [bothFound, unlogged, logged1, h1], rfl, rfl⟩

theorem bothGo_same (go : Int × Int → Dir → Eff W (Option (Int × Int))) (p : Int × Int) (d : Dir) :
    Eff.Same (fun w (s : (W × GoLog) × List (P2 × Bool)) => s.1.1 = w) (go p d) (bothGo go p d) := by
  intro w s h
  subst h
  unfold bothGo unlogged logged
  cases go p d s.1.1 with
  | ok a => exact ⟨rfl, rfl⟩
  | panic => exact True.intro
  | ub => exact True.intro
  | timeout => exact True.intro

theorem bothFound_same (found : Int × Int → Eff W Bool) (p : Int × Int) :
    Eff.Same (fun w (s : (W × GoLog) × List (P2 × Bool)) => s.1.1 = w) (found p) (bothFound found p) := by
  intro w s h
  subst h
  simp only [bothFound, unlogged, logged1]
  cases found p s.1.1 with
  | ok a => exact ⟨rfl, rfl⟩
  | panic => exact True.intro
  | ub => exact True.intro
  | timeout => exact True.intro

/-- A run, from the run with both logs. -/
theorem Eff.Post.unlog_both {m : Eff W α} {m' : Eff ((W × GoLog) × List (P2 × Bool)) α} {P : Prop}
    (hs : Eff.Same (fun w (s : (W × GoLog) × List (P2 × Bool)) => s.1.1 = w) m m') {w : W}
    {Q : α → (W × GoLog) × List (P2 × Bool) → Prop} (h : Eff.Post P m' ((w, []), []) Q) :
    (m w = .panic ∧ P) ∨ ∃ a w' log tests, m w = .ok (a, w') ∧ m' ((w, []), []) = .ok (a, ((w', log), tests)) ∧ Q a ((w', log), tests) := by
  have := hs w ((w, []), []) rfl
  rcases h with ⟨h, hP⟩ | ⟨a, ⟨⟨w', l'⟩, t'⟩, h, hQ⟩
  · rw [h] at this
    refine .inl ⟨?_, hP⟩
    revert this
    cases m w <;> intro h <;> first | rfl | exact h.elim
  · rw [h] at this
    right
    revert this
    cases hm : m w with
    | ok b =>
      intro ⟨h1, h2⟩
      obtain ⟨b1, b2⟩ := b
      simp only at h1 h2
      subst h1 h2
      exact ⟨_, _, l', t', rfl, h, hQ⟩
    | panic => intro h; exact h.elim
    | ub => intro h; exact h.elim
    | timeout => intro h; exact h.elim

end Sqrid
