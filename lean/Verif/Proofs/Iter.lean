import Verif.Spec.Iter
/-! Generic lemmas about iterator drivers. -/

namespace Sqrid

open Spec

/-- Simulation of a double-ended state machine by an ideal deque. -/
theorem runSchedule_eq_dequeRun {σ α : Type _} (next nextBack : σ → Option α × σ)
    (R : σ → List α → Prop)
    (hf : ∀ s l, R s l → (next s).1 = l.head? ∧ R (next s).2 l.tail)
    (hb : ∀ s l, R s l → (nextBack s).1 = l.getLast? ∧ R (nextBack s).2 l.dropLast)
    (es : List End) (s : σ) (l : List α) (h : R s l) :
    (runSchedule next nextBack es s).1 = dequeRun es l := by
  induction es generalizing s l with
  | nil => rfl
  | cons e es ih =>
    cases e with
    | front =>
      obtain ⟨h1, h2⟩ := hf s l h
      simp only [runSchedule, dequeRun, h1, ih _ _ h2]
    | back =>
      obtain ⟨h1, h2⟩ := hb s l h
      simp only [runSchedule, dequeRun, h1, ih _ _ h2]

/-- Collecting a state machine that simulates a list. -/
theorem collectWith_eq {σ α : Type _} (next : σ → Out (Option α × σ))
    (R : σ → List α → Prop)
    (hf : ∀ s l, R s l → ∃ s', next s = .ok (l.head?, s') ∧ R s' l.tail)
    (l : List α) (s : σ) (h : R s l) (fuel : Nat) (hfuel : l.length < fuel) :
    collectWith next fuel s = .ok l := by
  induction l generalizing s fuel with
  | nil =>
    obtain ⟨s', h1, _⟩ := hf s [] h
    cases fuel with
    | zero => simp at hfuel
    | succ n => simp [collectWith, h1]
  | cons a l ih =>
    obtain ⟨s', h1, h2⟩ := hf s (a :: l) h
    cases fuel with
    | zero => simp at hfuel
    | succ n =>
      have := ih s' (by simpa using h2) n (by simpa using hfuel)
      simp [collectWith, h1, this]

theorem collectWith_lift_eq {σ α : Type _} (next : σ → Option α × σ)
    (R : σ → List α → Prop)
    (hf : ∀ s l, R s l → (next s).1 = l.head? ∧ R (next s).2 l.tail)
    (l : List α) (s : σ) (h : R s l) (fuel : Nat) (hfuel : l.length < fuel) :
    collectWith (liftNext next) fuel s = .ok l := by
  refine collectWith_eq _ R ?_ l s h fuel hfuel
  intro s l h
  obtain ⟨h1, h2⟩ := hf s l h
  exact ⟨(next s).2, by simp [liftNext, ← h1], h2⟩

/-- After simulating a list of length `n`, further calls return `None` for ever. -/
theorem callN_eq {σ α : Type _} (next : σ → Option α × σ)
    (R : σ → List α → Prop)
    (hf : ∀ s l, R s l → (next s).1 = l.head? ∧ R (next s).2 l.tail)
    (n : Nat) (s : σ) (l : List α) (h : R s l) :
    (callN next n s).1 = (List.range n).map fun i => l[i]? := by
  induction n generalizing s l with
  | zero => rfl
  | succ n ih =>
    obtain ⟨h1, h2⟩ := hf s l h
    rw [List.range_succ_eq_map]
    simp only [callN, h1, ih _ _ h2, List.map_cons, List.map_map]
    congr 1
    · simp [List.head?_eq_getElem?]
    · apply List.map_congr_left; intro i _; simp

/-- A segment `P i, P (i+1), ..., P j` of an enumeration. -/
def seg (P : Nat → β) (i n : Nat) : List β := (List.range n).map fun k => P (i + k)

@[simp] theorem seg_zero (P : Nat → β) (i : Nat) : seg P i 0 = [] := rfl

theorem seg_succ (P : Nat → β) (i n : Nat) : seg P i (n + 1) = P i :: seg P (i + 1) n := by
  simp only [seg, List.range_succ_eq_map, List.map_cons, List.map_map, Nat.add_zero, List.cons.injEq, true_and]
  apply List.map_congr_left; intro k _; simp [Nat.add_assoc, Nat.add_comm 1 k]

theorem seg_succ_last (P : Nat → β) (i n : Nat) : seg P i (n + 1) = seg P i n ++ [P (i + n)] := by
  simp [seg, List.range_succ]

@[simp] theorem seg_length (P : Nat → β) (i n : Nat) : (seg P i n).length = n := by simp [seg]

/-- Hypotheses: a state machine with states `st a b`, where `a`, `b` are the optional front and back of
an enumeration `P 0, ..., P N`. -/
structure EnumMachine (σ β : Type _) where
  st : Option β → Option β → σ
  next : σ → Option β × σ
  nextBack : σ → Option β × σ
  P : Nat → β
  N : Nat
  next_eq : ∀ i j, i ≤ j → j ≤ N → next (st (some (P i)) (some (P j))) =
    (some (P i), if i = j then st none none else st (some (P (i + 1))) (some (P j)))
  nextBack_eq : ∀ i j, i ≤ j → j ≤ N → nextBack (st (some (P i)) (some (P j))) =
    (some (P j), if i = j then st none none else st (some (P i)) (some (P (j - 1))))
  next_none : next (st none none) = (none, st none none)
  nextBack_none : nextBack (st none none) = (none, st none none)

namespace EnumMachine

variable {σ β : Type _} (M : EnumMachine σ β)

/-- Simulation relation: the state stands for a segment of the enumeration. -/
def R (s : σ) (l : List β) : Prop :=
  (s = M.st none none ∧ l = []) ∨
  ∃ i n, i + n ≤ M.N ∧ s = M.st (some (M.P i)) (some (M.P (i + n))) ∧ l = seg M.P i (n + 1)

theorem R_next (s : σ) (l : List β) (h : M.R s l) :
    (M.next s).1 = l.head? ∧ M.R (M.next s).2 l.tail := by
  rcases h with ⟨rfl, rfl⟩ | ⟨i, n, hn, rfl, rfl⟩
  · rw [M.next_none]; exact ⟨rfl, Or.inl ⟨rfl, rfl⟩⟩
  · rw [M.next_eq _ _ (by omega) hn, seg_succ]
    refine ⟨rfl, ?_⟩
    cases n with
    | zero => left; simp
    | succ n =>
      right; refine ⟨i + 1, n, by omega, ?_, rfl⟩
      rw [if_neg (by omega)]
      simp only [Nat.add_assoc, Nat.add_comm 1 n]

theorem R_nextBack (s : σ) (l : List β) (h : M.R s l) :
    (M.nextBack s).1 = l.getLast? ∧ M.R (M.nextBack s).2 l.dropLast := by
  rcases h with ⟨rfl, rfl⟩ | ⟨i, n, hn, rfl, rfl⟩
  · rw [M.nextBack_none]; exact ⟨rfl, Or.inl ⟨rfl, rfl⟩⟩
  · rw [M.nextBack_eq _ _ (by omega) hn, seg_succ_last]
    refine ⟨by simp, ?_⟩
    cases n with
    | zero => left; simp
    | succ n =>
      right; refine ⟨i, n, by omega, ?_, by simp⟩
      rw [if_neg (by omega)]
      rfl

theorem R_init : M.R (M.st (some (M.P 0)) (some (M.P M.N))) (seg M.P 0 (M.N + 1)) :=
  Or.inr ⟨0, M.N, by omega, by simp, rfl⟩

theorem schedule (es : List End) :
    (runSchedule M.next M.nextBack es (M.st (some (M.P 0)) (some (M.P M.N)))).1
      = dequeRun es (seg M.P 0 (M.N + 1)) :=
  runSchedule_eq_dequeRun _ _ M.R M.R_next M.R_nextBack es _ _ M.R_init

theorem collect (fuel : Nat) (h : M.N + 1 < fuel) :
    collectWith (liftNext M.next) fuel (M.st (some (M.P 0)) (some (M.P M.N)))
      = .ok (seg M.P 0 (M.N + 1)) :=
  collectWith_lift_eq _ M.R M.R_next _ _ M.R_init fuel (by simpa using h)

theorem calls (n : Nat) :
    (callN M.next n (M.st (some (M.P 0)) (some (M.P M.N)))).1
      = (List.range n).map fun i => (seg M.P 0 (M.N + 1))[i]? :=
  callN_eq _ M.R M.R_next n _ _ M.R_init

end EnumMachine

end Sqrid
