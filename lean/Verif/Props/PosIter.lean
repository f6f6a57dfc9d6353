import Verif.Proofs.PosIter
/-!
# Properties C11-C13: size hints, range, line and column iterators
-/

namespace Sqrid

-- Statements that do not mention a target are about a debug build for a 64-bit machine.
attribute [local instance] debug64

open Spec

/-! ## C11 -/

/-- The `Iterator` contract for `size_hint`: `lower <= remaining` and, if given, `remaining <= upper`. -/
def HintOk (hint : Int × Option Int) (remaining : List α) : Prop :=
  hint.1 ≤ (remaining.length : Int) ∧ ∀ u, hint.2 = some u → (remaining.length : Int) ≤ u

/-- The state of an iterator after `n` calls to `next` (whatever they answered). -/
def afterN {σ α : Type} (next : σ → Out (Option α × σ)) : Nat → σ → Out σ
  | 0, s => .ok s
  | n + 1, s => do
    let (_, s') ← next s
    afterN next n s'

/-- The `size_hint` contract of an iterator, at every point reached by calling `next`: after `n` calls, for every `n`, the
hint brackets the number of items that collecting the rest gives. -/
def HintContract {σ α : Type} (next : σ → Out (Option α × σ)) (hint : σ → Out (Int × Option Int)) (start : σ) : Prop :=
  ∀ n, ∃ s h fuel rest, afterN next n start = .ok s ∧ hint s = .ok h ∧ collectWith next fuel s = .ok rest ∧ HintOk h rest

theorem collectWith_mono {σ α : Type} {next : σ → Out (Option α × σ)} {fuel fuel' : Nat} {s : σ} {l : List α}
    (h : collectWith next fuel s = .ok l) (hle : fuel ≤ fuel') : collectWith next fuel' s = .ok l := by
  induction fuel generalizing fuel' s l with
  | zero => simp [collectWith] at h
  | succ n ih =>
    obtain ⟨m, rfl⟩ : ∃ m, fuel' = m + 1 := ⟨fuel' - 1, by omega⟩
    simp only [collectWith] at h ⊢
    cases hn : next s with
    | ok r =>
      obtain ⟨v, s'⟩ := r
      rw [hn] at h
      cases v with
      | none => exact h
      | some a =>
        simp only [Out.ok_bind] at h ⊢
        cases hc : collectWith next n s' with
        | ok r =>
          rw [hc] at h
          rw [ih hc (by omega)]
          exact h
        | panic => rw [hc] at h; cases h
        | ub => rw [hc] at h; cases h
        | timeout => rw [hc] at h; cases h
    | panic => rw [hn] at h; cases h
    | ub => rw [hn] at h; cases h
    | timeout => rw [hn] at h; cases h

/-- After `n` calls, what is left of an iterator that stays exhausted is the original sequence without its first `n` items. -/
theorem afterN_collect {σ α : Type} {next : σ → Out (Option α × σ)}
    (hfused : ∀ s s', next s = .ok (none, s') → ∃ s'', next s' = .ok (none, s''))
    (n : Nat) {fuel : Nat} {s : σ} {l : List α} (h : collectWith next fuel s = .ok l) :
    ∃ s', afterN next n s = .ok s' ∧ ∀ fuel', fuel ≤ fuel' → collectWith next fuel' s' = .ok (l.drop n) := by
  induction n generalizing fuel s l with
  | zero => exact ⟨s, rfl, fun f hf => collectWith_mono h hf⟩
  | succ n ih =>
    cases fuel with
    | zero => simp [collectWith] at h
    | succ k =>
      simp only [collectWith] at h
      cases hn : next s with
      | ok r =>
        obtain ⟨v, s'⟩ := r
        rw [hn] at h
        simp only [afterN, hn, Out.ok_bind]
        cases v with
        | none =>
          simp only [Out.ok_bind] at h
          injection h with h
          subst h
          obtain ⟨s'', h''⟩ := hfused s s' hn
          have h1 : collectWith next 1 s' = .ok [] := by simp [collectWith, h'']
          obtain ⟨t, ht, hc⟩ := ih h1
          exact ⟨t, ht, fun f hf => by simpa using hc f (by omega)⟩
        | some a =>
          simp only [Out.ok_bind] at h
          cases hc : collectWith next k s' with
          | ok r =>
            rw [hc] at h
            injection h with h
            subst h
            obtain ⟨t, ht, hc'⟩ := ih hc
            exact ⟨t, ht, fun f hf => by simpa using hc' f (by omega)⟩
          | panic => rw [hc] at h; cases h
          | ub => rw [hc] at h; cases h
          | timeout => rw [hc] at h; cases h
      | panic => rw [hn] at h; cases h
      | ub => rw [hn] at h; cases h
      | timeout => rw [hn] at h; cases h

/-- C11, full statement (false of the code): at every point of the iteration the hint of each of the iterators brackets the
number of items that are still to come. For the double-ended `iter` the points are those reached by any sequence of
`next` / `next_back` calls, for the others those reached after any number of calls to `next`. -/
def C11_statement [Target] : Prop :=
  (∀ (T : PosTy) (XFIRST : Bool) (es : List End), T.IsGrid →
    ∃ hint fuel rest, PosIter.sizeHint T (runSchedule (PosIter.next T XFIRST) (PosIter.nextBack T XFIRST) es (PosIter.default T)).2 = .ok hint ∧
      collectWith (liftNext (PosIter.next T XFIRST)) fuel
        (runSchedule (PosIter.next T XFIRST) (PosIter.nextBack T XFIRST) es (PosIter.default T)).2 = .ok rest ∧
      HintOk hint rest) ∧
  (∀ (T : PosTy) (tl br : Int × Int), T.IsGrid → InGrid T tl → InGrid T br → tl.1 ≤ br.1 → tl.2 ≤ br.2 →
    HintContract (liftNext (PosIterRange.next T)) (PosIterRange.sizeHint T) (PosIterRange.new tl br)) ∧
  (∀ (T : PosTy) (x : Int), T.IsGrid → T.X.Valid x →
    HintContract (liftNext (PosIterInX.next T)) (PosIterInX.sizeHint T) (PosIterInX.new T x)) ∧
  (∀ (T : PosTy) (y : Int), T.IsGrid → T.Y.Valid y →
    HintContract (liftNext (PosIterInY.next T)) (PosIterInY.sizeHint T) (PosIterInY.new T y)) ∧
  (∀ D : Bool, HintContract (DirIter.next D) (fun s => .ok (DirIter.sizeHint D s)) DirIter.default)

/-- The exact picture for `iter()`: after `k` calls (in any front/back order) the hint is still the total number of positions, while
`total - k` items remain. -/
theorem C11_iter_hint_exact [Target] (T : PosTy) (hT : T.IsGrid) (XFIRST : Bool) (es : List End) :
    ∃ total : Nat, PosIter.sizeHint T (runSchedule (PosIter.next T XFIRST) (PosIter.nextBack T XFIRST) es (PosIter.default T)).2
        = .ok ((total : Int), some (total : Int)) ∧ (total : Int) = cols T * rows T ∧
      ∃ rest, rest.length = total - es.length ∧ ∀ fuel, total < fuel →
        collectWith (liftNext (PosIter.next T XFIRST)) fuel
          (runSchedule (PosIter.next T XFIRST) (PosIter.nextBack T XFIRST) es (PosIter.default T)).2 = .ok rest := by
  have hX := hT.xmax0
  have hY := hT.ymax0
  have hn : ((T.nx * T.ny : Nat) : Int) = (T.X.MAX + 1) * (T.Y.MAX + 1) := by
    have h1 : (T.nx : Int) = T.X.MAX + 1 := by have := hT.x0; simp only [PosTy.nx]; omega
    have h2 : (T.ny : Int) = T.Y.MAX + 1 := by have := hT.y0; simp only [PosTy.ny]; omega
    rw [Nat.cast_mul, h1, h2]
  have hR := runSchedule_rest _ _ (T.machine hT.wf XFIRST).R (T.machine hT.wf XFIRST).R_next
    (T.machine hT.wf XFIRST).R_nextBack es _ _ (T.machine hT.wf XFIRST).R_init
  rw [PosTy.machine_init hT.wf XFIRST, PosTy.machine_N hT.wf XFIRST] at hR
  have hlen : (dequeRest es (seg (T.machine hT.wf XFIRST).P 0 (T.nx * T.ny))).length = T.nx * T.ny - es.length := by
    rw [dequeRest_length]; simp
  refine ⟨T.nx * T.ny, ?_, ?_, _, hlen, ?_⟩
  · simp only [PosIter.sizeHint]; rw [hT.dimensions_eq, hn]; rfl
  · rw [hn]; simp only [cols, rows, hT.x0, hT.y0, Int.sub_zero]
  · intro fuel hf
    exact collectWith_lift_eq _ (T.machine hT.wf XFIRST).R (T.machine hT.wf XFIRST).R_next _ _ hR fuel (by omega)

/-- C11 is violated as soon as one item has been taken. -/
theorem C11_size_hint_refuted [Target] : ¬ C11_statement := by
  rintro ⟨h, -⟩
  obtain ⟨hint, fuel, rest, h1, h2, h3⟩ := h (PosTy.pos 1 1) true [.front] (PosTy.pos_isGrid (by decide_target) (by decide_target) (by fits_small))
  obtain ⟨total, e1, e2, rest', e3, e4⟩ := C11_iter_hint_exact (PosTy.pos 1 1)
    (PosTy.pos_isGrid (by decide_target) (by decide_target) (by fits_small)) true [.front]
  have ht : total = 4 := by
    have : cols (PosTy.pos 1 1) * rows (PosTy.pos 1 1) = 4 := by decide_target
    omega
  subst ht
  rw [e1] at h1
  cases h1
  have hlen : rest.length = 3 := by
    have hm : ∀ n, collectWith (liftNext (PosIter.next (PosTy.pos 1 1) true)) n
        (runSchedule (PosIter.next (PosTy.pos 1 1) true) (PosIter.nextBack (PosTy.pos 1 1) true) [.front]
          (PosIter.default (PosTy.pos 1 1))).2 = .ok rest → rest.length = 3 := by
      intro n hn
      rcases Nat.lt_or_ge 4 n with hlt | hge
      · have := e4 n hlt
        rw [hn] at this
        cases this
        simpa using e3
      · have : n = 0 ∨ n = 1 ∨ n = 2 ∨ n = 3 ∨ n = 4 := by omega
        rcases this with rfl | rfl | rfl | rfl | rfl
        · simp [collectWith] at hn
        · revert hn; simp [show collectWith (liftNext (PosIter.next (PosTy.pos 1 1) true)) 1 (runSchedule (PosIter.next (PosTy.pos 1 1) true) (PosIter.nextBack (PosTy.pos 1 1) true) [.front] (PosIter.default (PosTy.pos 1 1))).2 = .timeout by decide_target]
        · revert hn; simp [show collectWith (liftNext (PosIter.next (PosTy.pos 1 1) true)) 2 (runSchedule (PosIter.next (PosTy.pos 1 1) true) (PosIter.nextBack (PosTy.pos 1 1) true) [.front] (PosIter.default (PosTy.pos 1 1))).2 = .timeout by decide_target]
        · revert hn; simp [show collectWith (liftNext (PosIter.next (PosTy.pos 1 1) true)) 3 (runSchedule (PosIter.next (PosTy.pos 1 1) true) (PosIter.nextBack (PosTy.pos 1 1) true) [.front] (PosIter.default (PosTy.pos 1 1))).2 = .timeout by decide_target]
        · have hd : collectWith (liftNext (PosIter.next (PosTy.pos 1 1) true)) 4 (runSchedule (PosIter.next (PosTy.pos 1 1) true) (PosIter.nextBack (PosTy.pos 1 1) true) [.front] (PosIter.default (PosTy.pos 1 1))).2 = .ok [(1, 0), (0, 1), (1, 1)] := by decide_target
          rw [hd] at hn; cases hn; rfl
    exact hm fuel h2
  have := h3.1
  rw [hlen] at this
  omega

/-- C11, partial. Right after creation the hint of `iter()` is exact, and at every later point the upper bound is sound.
Missing: the lower bound after the first call (see `C11_iter_hint_exact`). -/
theorem C11_size_hint_partial [Target] (T : PosTy) (hT : T.IsGrid) (XFIRST : Bool) (es : List End) :
    ∃ hint rest fuel, PosIter.sizeHint T (runSchedule (PosIter.next T XFIRST) (PosIter.nextBack T XFIRST) es (PosIter.default T)).2 = .ok hint ∧
      collectWith (liftNext (PosIter.next T XFIRST)) fuel
        (runSchedule (PosIter.next T XFIRST) (PosIter.nextBack T XFIRST) es (PosIter.default T)).2 = .ok rest ∧
      (∀ u, hint.2 = some u → (rest.length : Int) ≤ u) ∧ (es = [] → HintOk hint rest) := by
  obtain ⟨total, e1, e2, rest, e3, e4⟩ := C11_iter_hint_exact T hT XFIRST es
  refine ⟨_, rest, total + 1, e1, e4 _ (by omega), ?_, ?_⟩
  · rintro u ⟨⟩; omega
  · rintro rfl
    rw [List.length_nil, Nat.sub_zero] at e3
    exact ⟨by simp only [e3]; omega, by rintro u ⟨⟩; omega⟩

/-- An iterator whose hint is the constant `(total, Some(total))` does not meet the contract if it yields fewer items, or after one
item has been taken. -/
theorem hint_const_refuted {σ α : Type} {next : σ → Out (Option α × σ)} {hint : σ → Out (Int × Option Int)} {start : σ}
    {total fuel : Nat} {l : List α} (hfused : ∀ s s', next s = .ok (none, s') → ∃ s'', next s' = .ok (none, s''))
    (h1 : ∀ s, hint s = .ok ((total : Int), some (total : Int))) (h2 : collectWith next fuel start = .ok l)
    (h3 : l.length ≤ total) (h4 : 0 < total) : ¬ HintContract next hint start := by
  intro h
  obtain ⟨s, hh, f, rest, e1, e2, e3, e4⟩ := h 1
  obtain ⟨s', e1', e3'⟩ := afterN_collect hfused 1 h2
  rw [e1] at e1'
  injection e1' with e1'
  subst e1'
  rw [h1] at e2
  injection e2 with e2
  subst e2
  have := collectWith_mono e3 (Nat.le_max_left f fuel)
  rw [e3' _ (Nat.le_max_right f fuel)] at this
  injection this with this
  subst this
  have h5 := e4.1
  rw [List.length_drop] at h5
  simp only at h5
  omega

theorem PosIterRange.fused (T : PosTy) (s s' : PosIterRange)
    (h : liftNext (PosIterRange.next T) s = .ok (none, s')) :
    ∃ s'', liftNext (PosIterRange.next T) s' = .ok (none, s'') := by
  have hv : s'.value = none := by
    simp only [liftNext, PosIterRange.next] at h
    injection h with h
    split at h
    · split at h
      · split at h
        · cases h
        · split at h
          · split at h
            · cases h; rfl
            · cases h
          · cases h
      · cases h
    · rename_i hn; cases h; exact hn
  exact ⟨s', by simp only [liftNext, PosIterRange.next, hv]⟩

theorem PosIterInX.fused (T : PosTy) (s s' : Option (Int × Int))
    (h : liftNext (PosIterInX.next T) s = .ok (none, s')) :
    ∃ s'', liftNext (PosIterInX.next T) s' = .ok (none, s'') := by
  cases s with
  | none => cases h; exact ⟨none, rfl⟩
  | some p => cases h

theorem PosIterInY.fused (T : PosTy) (s s' : Option (Int × Int))
    (h : liftNext (PosIterInY.next T) s = .ok (none, s')) :
    ∃ s'', liftNext (PosIterInY.next T) s' = .ok (none, s'') := by
  cases s with
  | none => cases h; exact ⟨none, rfl⟩
  | some p => cases h

theorem DirIter.fused (D : Bool) (s s' : DirIter) (h : DirIter.next D s = .ok (none, s')) :
    ∃ s'', DirIter.next D s' = .ok (none, s'') := by
  cases s with
  | none => cases h; exact ⟨none, rfl⟩
  | some d => cases D <;> cases d <;> cases h

/-- The exact picture for `iter_range`: after `n` calls the hint is still the number of positions of the whole grid, while what
remains is the rectangle without its first `n` positions (and without its bottom-right corner in the case of C12 in
which that is lost). The upper bound is sound; the lower bound is not, from the start unless the range is the whole
grid. -/
theorem C11_range_hint_exact [Target] (T : PosTy) (hT : T.IsGrid) (tl br : Int × Int) (h1 : InGrid T tl) (h2 : InGrid T br)
    (hx : tl.1 ≤ br.1) (hy : tl.2 ≤ br.2) (n : Nat) :
    ∃ s lost, afterN (liftNext (PosIterRange.next T)) n (PosIterRange.new tl br) = .ok s ∧
      PosIterRange.sizeHint T s = .ok (cols T * rows T, some (cols T * rows T)) ∧
      lost = (if br.2 = T.Y.MAX ∧ br.1 < T.X.MAX then 1 else 0) ∧
      ∀ fuel, (rectRows tl br).length < fuel → ∃ rest,
        collectWith (liftNext (PosIterRange.next T)) fuel s = .ok rest ∧
        rest.length = (rectRows tl br).length - lost - n ∧ (rest.length : Int) ≤ cols T * rows T := by
  have ok : PosIterRange.Ok T tl br := ⟨hT.wf, h1, h2, hx, hy⟩
  have hpos : 0 < PosIterRange.wd tl br * PosIterRange.ht tl br :=
    Nat.mul_pos (by simp only [PosIterRange.wd]; omega) (by simp only [PosIterRange.ht]; omega)
  obtain ⟨M, hM, hMl⟩ : ∃ M : Nat, ((M = PosIterRange.wd tl br * PosIterRange.ht tl br ∧ (br.2 < T.Y.MAX ∨ br.1 = T.X.MAX)) ∨
      (M + 1 = PosIterRange.wd tl br * PosIterRange.ht tl br ∧ (br.2 = T.Y.MAX ∧ br.1 < T.X.MAX))) ∧
      M = PosIterRange.wd tl br * PosIterRange.ht tl br - (if br.2 = T.Y.MAX ∧ br.1 < T.X.MAX then 1 else 0) := by
    have h2' : (T.X.MIN ≤ br.1 ∧ br.1 ≤ T.X.MAX) ∧ (T.Y.MIN ≤ br.2 ∧ br.2 ≤ T.Y.MAX) := h2
    by_cases hc : br.2 = T.Y.MAX ∧ br.1 < T.X.MAX
    · exact ⟨PosIterRange.wd tl br * PosIterRange.ht tl br - 1, Or.inr ⟨by omega, hc⟩, by rw [if_pos hc]⟩
    · exact ⟨_, Or.inl ⟨rfl, by omega⟩, by rw [if_neg hc, Nat.sub_zero]⟩
  have hc := PosIterRange.collect_range ok M hM (M + 1) (by omega)
  obtain ⟨s, e1, e2⟩ := afterN_collect (PosIterRange.fused T) n hc
  refine ⟨s, _, e1, ?_, rfl, ?_⟩
  · simp only [PosIterRange.sizeHint]
    have hX := hT.xmax0
    have hY := hT.ymax0
    rw [hT.width_eq, hT.height_eq, Out.ok_bind, Out.ok_bind, IntTy.usize_mul ⟨by positivity, hT.fits⟩, Out.ok_bind]
    simp only [cols, rows, hT.x0, hT.y0, Int.sub_zero]
  · intro fuel hf
    rw [PosIterRange.rect_length] at hf ⊢
    refine ⟨_, e2 fuel (by omega), by simp [hMl], ?_⟩
    rw [List.length_drop]
    have h1' : (T.X.MIN ≤ tl.1 ∧ tl.1 ≤ T.X.MAX) ∧ (T.Y.MIN ≤ tl.2 ∧ tl.2 ≤ T.Y.MAX) := h1
    have h2' : (T.X.MIN ≤ br.1 ∧ br.1 ≤ T.X.MAX) ∧ (T.Y.MIN ≤ br.2 ∧ br.2 ≤ T.Y.MAX) := h2
    have a1 : ((PosIterRange.wd tl br * PosIterRange.ht tl br : Nat) : Int) ≤ cols T * rows T := by
      rw [Nat.cast_mul]
      refine Int.mul_le_mul ?_ ?_ (by omega) ?_
      · simp only [PosIterRange.wd, cols]; omega
      · simp only [PosIterRange.ht, rows]; omega
      · simp only [cols]; omega
    have a2 : (seg (PosIterRange.at' tl (PosIterRange.wd tl br)) 0 M).length = M := by simp
    omega

/-- The exact picture for `iter_in_x`: the hint is always the number of lines; after `n` calls, that number minus `n` items
remain. So it is exact on creation, its upper bound is sound for ever, and its lower bound is wrong after the first call. -/
theorem C11_in_x_hint_exact [Target] (T : PosTy) (hT : T.IsGrid) (x : Int) (n : Nat) :
    ∃ s, afterN (liftNext (PosIterInX.next T)) n (PosIterInX.new T x) = .ok s ∧
      PosIterInX.sizeHint T s = .ok (rows T, some (rows T)) ∧
      ∀ fuel, (rows T).toNat < fuel → ∃ rest,
        collectWith (liftNext (PosIterInX.next T)) fuel s = .ok rest ∧ rest.length = (rows T).toNat - n := by
  have hY := hT.ymax0
  have hc := collect_inX hT.wf x 0 ⟨by rw [hT.y0], hT.ymax0⟩ ((rows T).toNat + 1) (by
    simp only [rows, hT.y0]; omega)
  obtain ⟨s, e1, e2⟩ := afterN_collect (PosIterInX.fused T) n hc
  refine ⟨s, e1, ?_, fun fuel hf => ⟨_, e2 fuel (by omega), ?_⟩⟩
  · simp only [PosIterInX.sizeHint]
    rw [hT.height_eq, Out.ok_bind]; simp only [rows, hT.y0, Int.sub_zero]
  · simp only [rows, hT.y0, Int.sub_zero, List.length_drop, List.length_map, intsFromTo, List.length_range]

/-- The same for `iter_in_y`, with the number of columns. -/
theorem C11_in_y_hint_exact [Target] (T : PosTy) (hT : T.IsGrid) (y : Int) (n : Nat) :
    ∃ s, afterN (liftNext (PosIterInY.next T)) n (PosIterInY.new T y) = .ok s ∧
      PosIterInY.sizeHint T s = .ok (cols T, some (cols T)) ∧
      ∀ fuel, (cols T).toNat < fuel → ∃ rest,
        collectWith (liftNext (PosIterInY.next T)) fuel s = .ok rest ∧ rest.length = (cols T).toNat - n := by
  have hX := hT.xmax0
  have hc := collect_inY hT.wf 0 y ⟨by rw [hT.x0], hT.xmax0⟩ ((cols T).toNat + 1) (by
    simp only [cols, hT.x0]; omega)
  obtain ⟨s, e1, e2⟩ := afterN_collect (PosIterInY.fused T) n hc
  refine ⟨s, e1, ?_, fun fuel hf => ⟨_, e2 fuel (by omega), ?_⟩⟩
  · simp only [PosIterInY.sizeHint]
    rw [hT.width_eq, Out.ok_bind]; simp only [cols, hT.x0, Int.sub_zero]
  · simp only [cols, hT.x0, Int.sub_zero, List.length_drop, List.length_map, intsFromTo, List.length_range]

/-- The same for `Dir::iter`: the hint is always 8 (4 without diagonals), and `8 - n` (`4 - n`) items remain after `n` calls. -/
theorem C11_dir_hint_exact (D : Bool) (n : Nat) :
    ∃ s, afterN (DirIter.next D) n DirIter.default = .ok s ∧
      DirIter.sizeHint D s = (if D then (8, some 8) else (4, some 4)) ∧
      ∀ fuel, 9 ≤ fuel → ∃ rest,
        collectWith (DirIter.next D) fuel s = .ok rest ∧ rest.length = (if D then 8 else 4) - n := by
  obtain ⟨l, hl, hc⟩ : ∃ l : List Dir, l.length = (if D then 8 else 4) ∧
      collectWith (DirIter.next D) 9 DirIter.default = .ok l := by
    cases D
    · exact ⟨[.N, .E, .S, .W], rfl, rfl⟩
    · exact ⟨[.N, .NE, .E, .SE, .S, .SW, .W, .NW], rfl, rfl⟩
  obtain ⟨s, e1, e2⟩ := afterN_collect (DirIter.fused D) n hc
  exact ⟨s, e1, rfl, fun fuel hf => ⟨_, e2 fuel hf, by rw [List.length_drop, hl]⟩⟩

/-- C11 is violated by each of the other iterators too, on every grid and for every range, column and line. -/
theorem C11_others_refuted [Target] :
    (∀ (T : PosTy) (tl br : Int × Int), T.IsGrid → InGrid T tl → InGrid T br → tl.1 ≤ br.1 → tl.2 ≤ br.2 →
      ¬ HintContract (liftNext (PosIterRange.next T)) (PosIterRange.sizeHint T) (PosIterRange.new tl br)) ∧
    (∀ (T : PosTy) (x : Int), T.IsGrid →
      ¬ HintContract (liftNext (PosIterInX.next T)) (PosIterInX.sizeHint T) (PosIterInX.new T x)) ∧
    (∀ (T : PosTy) (y : Int), T.IsGrid →
      ¬ HintContract (liftNext (PosIterInY.next T)) (PosIterInY.sizeHint T) (PosIterInY.new T y)) ∧
    (∀ D : Bool, ¬ HintContract (DirIter.next D) (fun s => .ok (DirIter.sizeHint D s)) DirIter.default) := by
  refine ⟨?_, ?_, ?_, ?_⟩
  · intro T tl br hT h1 h2 hx hy h
    obtain ⟨s, lost, e1, e2, e3, e4⟩ := C11_range_hint_exact T hT tl br h1 h2 hx hy 0
    obtain ⟨rest, f1, f2, f3⟩ := e4 _ (Nat.lt_succ_self _)
    cases e1
    have hX := hT.xmax0
    have hY := hT.ymax0
    have hp : 0 < cols T * rows T := by
      refine Int.mul_pos ?_ ?_
      · simp only [cols, hT.x0]; omega
      · simp only [rows, hT.y0]; omega
    refine hint_const_refuted (total := (cols T * rows T).toNat) (PosIterRange.fused T) ?_ f1 (by omega) (by omega) h
    intro s
    rw [Int.toNat_of_nonneg (by omega)]; exact e2
  · intro T x hT h
    obtain ⟨s, e1, e2, e4⟩ := C11_in_x_hint_exact T hT x 0
    obtain ⟨rest, f1, f2⟩ := e4 _ (Nat.lt_succ_self _)
    cases e1
    have hY := hT.ymax0
    have hp : 0 < rows T := by simp only [rows, hT.y0]; omega
    refine hint_const_refuted (total := (rows T).toNat) (PosIterInX.fused T) ?_ f1 (by omega) (by omega) h
    intro s
    rw [Int.toNat_of_nonneg (by omega)]; exact e2
  · intro T x hT h
    obtain ⟨s, e1, e2, e4⟩ := C11_in_y_hint_exact T hT x 0
    obtain ⟨rest, f1, f2⟩ := e4 _ (Nat.lt_succ_self _)
    cases e1
    have hX := hT.xmax0
    have hp : 0 < cols T := by simp only [cols, hT.x0]; omega
    refine hint_const_refuted (total := (cols T).toNat) (PosIterInY.fused T) ?_ f1 (by omega) (by omega) h
    intro s
    rw [Int.toNat_of_nonneg (by omega)]; exact e2
  · intro D h
    obtain ⟨s, e1, e2, e4⟩ := C11_dir_hint_exact D 0
    obtain ⟨rest, f1, f2⟩ := e4 9 (Nat.le_refl _)
    cases e1
    refine hint_const_refuted (total := if D then 8 else 4) (DirIter.fused D) ?_ f1 (by omega) (by cases D <;> decide_target) h
    intro s
    cases D <;> rfl

example : (PosTy.pos 4 4).IsGrid ∧ InGrid (PosTy.pos 4 4) (1, 1) ∧ InGrid (PosTy.pos 4 4) (2, 2) ∧
    PosIterRange.sizeHint (PosTy.pos 4 4) (PosIterRange.new (1, 1) (2, 2)) = .ok (25, some 25) ∧
    collectWith (liftNext (PosIterRange.next (PosTy.pos 4 4))) 5 (PosIterRange.new (1, 1) (2, 2))
      = .ok [(1, 1), (2, 1), (1, 2), (2, 2)] :=
  ⟨PosTy.pos_isGrid (by decide) (by decide) (.inl rfl), by unfold InGrid; decide, by unfold InGrid; decide, by decide, by decide⟩

example : (PosTy.pos 6 4).IsGrid := PosTy.pos_isGrid (by decide) (by decide) (.inl rfl)

/-! ## C12 -/

/-- C12, full statement (false of the code). -/
def C12_statement [Target] : Prop :=
  ∀ (T : PosTy) (tl br : Int × Int), T.IsGrid → InGrid T tl → InGrid T br → tl.1 ≤ br.1 → tl.2 ≤ br.2 →
    ∃ N, ∀ fuel, N < fuel →
      collectWith (liftNext (PosIterRange.next T)) fuel (PosIterRange.new tl br) = .ok (rectRows tl br)

/-- C12 is violated: on `Pos<2, 1>`, the range (0,0)..(1,1) loses its bottom-right position (1,1). -/
theorem C12_iter_range_refuted [Target] : ¬ C12_statement := by
  intro h
  obtain ⟨N, hN⟩ := h (PosTy.pos 2 1) (0, 0) (1, 1) (PosTy.pos_isGrid (by decide_target) (by decide_target) (by fits_small))
    (by unfold InGrid; decide_target) (by unfold InGrid; decide_target) (by decide_target) (by decide_target)
  have h1 := hN (N + 4) (by omega)
  have ok : PosIterRange.Ok (PosTy.pos 2 1) (0, 0) (1, 1) := ⟨by decide_target, by decide_target, by decide_target, by decide_target, by decide_target⟩
  have h2 := PosIterRange.collect_range ok 3 (Or.inr ⟨by decide_target, by decide_target⟩) (N + 4) (by omega)
  rw [h1] at h2
  revert h2
  decide_target

/-- C12, partial: the statement holds when the range does not end on the last line, or when it extends to the last
column. Missing: ranges that end on the last line but before the last column, see `C12_iter_range_lost`. -/
theorem C12_iter_range_partial (T : PosTy) (hT : T.WF) (tl br : Int × Int) (h1 : InGrid T tl) (h2 : InGrid T br)
    (hx : tl.1 ≤ br.1) (hy : tl.2 ≤ br.2) (hc : br.2 < T.Y.MAX ∨ br.1 = T.X.MAX) (fuel : Nat)
    (hf : (rectRows tl br).length < fuel) :
    collectWith (liftNext (PosIterRange.next T)) fuel (PosIterRange.new tl br) = .ok (rectRows tl br) := by
  rw [PosIterRange.rect_length] at hf
  rw [PosIterRange.collect_range ⟨hT, h1, h2, hx, hy⟩ _ (Or.inl ⟨rfl, hc⟩) fuel hf, PosIterRange.seg_rect]

/-- C12: in the remaining case, exactly the last position (the bottom-right corner) is lost. -/
theorem C12_iter_range_lost (T : PosTy) (hT : T.WF) (tl br : Int × Int) (h1 : InGrid T tl) (h2 : InGrid T br)
    (hx : tl.1 ≤ br.1) (hy : tl.2 ≤ br.2) (hc : br.2 = T.Y.MAX ∧ br.1 < T.X.MAX) (fuel : Nat)
    (hf : (rectRows tl br).length ≤ fuel) :
    (∃ l, collectWith (liftNext (PosIterRange.next T)) fuel (PosIterRange.new tl br) = .ok l ∧
      rectRows tl br = l ++ [br]) := by
  have ok : PosIterRange.Ok T tl br := ⟨hT, h1, h2, hx, hy⟩
  rw [PosIterRange.rect_length] at hf
  have hpos : 0 < PosIterRange.wd tl br * PosIterRange.ht tl br :=
    Nat.mul_pos (by simp only [PosIterRange.wd]; omega) (by simp only [PosIterRange.ht]; omega)
  obtain ⟨M, hM⟩ : ∃ M, M + 1 = PosIterRange.wd tl br * PosIterRange.ht tl br := ⟨_, Nat.sub_add_cancel hpos⟩
  refine ⟨_, PosIterRange.collect_range ok M (Or.inr ⟨hM, hc⟩) fuel (by omega), ?_⟩
  rw [← PosIterRange.seg_rect, ← hM, seg_succ_last]
  congr 2
  rw [Nat.zero_add, show M = PosIterRange.wd tl br * PosIterRange.ht tl br - 1 by omega, PosIterRange.at_last ok]

/-- Two iterators that answer alike for ever collect the same. -/
theorem collectWith_sim {σ τ α : Type} {next : σ → Out (Option α × σ)} {next' : τ → Out (Option α × τ)} (R : σ → τ → Prop)
    (hR : ∀ s t, R s t → ∃ v s' t', next s = .ok (v, s') ∧ next' t = .ok (v, t') ∧ R s' t')
    (fuel : Nat) (s : σ) (t : τ) (h : R s t) : collectWith next fuel s = collectWith next' fuel t := by
  induction fuel generalizing s t with
  | zero => rfl
  | succ n ih =>
    obtain ⟨v, s', t', e1, e2, h'⟩ := hR s t h
    simp only [collectWith, e1, e2, Out.ok_bind]
    cases v with
    | none => rfl
    | some a => simp only [ih s' t' h']

/-- C12, outside its hypotheses: when the second corner is to the left of the first, `iter_range` behaves exactly as if the second
corner had the first one's column, so it visits part of that column (it is not empty). -/
theorem C12_inverted_x (T : PosTy) (hT : T.WF) (tl br : Int × Int) (h1 : InGrid T tl) (h2 : InGrid T br)
    (hx : br.1 < tl.1) (fuel : Nat) :
    collectWith (liftNext (PosIterRange.next T)) fuel (PosIterRange.new tl br)
      = collectWith (liftNext (PosIterRange.next T)) fuel (PosIterRange.new tl (tl.1, br.2)) := by
  have h1' : (T.X.MIN ≤ tl.1 ∧ tl.1 ≤ T.X.MAX) ∧ (T.Y.MIN ≤ tl.2 ∧ tl.2 ≤ T.Y.MAX) := h1
  have h2' : (T.X.MIN ≤ br.1 ∧ br.1 ≤ T.X.MAX) ∧ (T.Y.MIN ≤ br.2 ∧ br.2 ≤ T.Y.MAX) := h2
  refine collectWith_sim
    (fun s t => (s = ⟨tl, br, none⟩ ∧ t = ⟨tl, (tl.1, br.2), none⟩) ∨
      ∃ y, s = ⟨tl, br, some (tl.1, y)⟩ ∧ t = ⟨tl, (tl.1, br.2), some (tl.1, y)⟩) ?_ fuel _ _
    (Or.inr ⟨tl.2, rfl, rfl⟩)
  have hfin : ∀ y : Int, ∃ v : Option (Int × Int), Option.filter (fun p : Int × Int => decide (p.2 ≤ br.2)) (some (tl.1, y)) = v ∧
      (v = none ∨ v = some (tl.1, y)) := by
    intro y
    refine ⟨_, rfl, ?_⟩
    rw [Option.filter_some]
    split
    · exact Or.inr rfl
    · exact Or.inl rfl
  rintro s t (⟨rfl, rfl⟩ | ⟨y, rfl, rfl⟩)
  · exact ⟨none, _, _, rfl, rfl, Or.inl ⟨rfl, rfl⟩⟩
  · simp only [liftNext, PosIterRange.next]
    rcases Int.lt_or_le tl.1 T.X.MAX with hlt | hge
    · have e : T.next (tl.1, y) = some (tl.1 + 1, y) := by
        simp only [PosTy.next]; rw [BTy.inc_some hT.1 (by omega) (by omega)]
      rw [e]
      simp only
      rw [if_neg (by omega), if_pos (by omega), if_neg (by omega), if_pos (by omega)]
      cases hy : T.Y.inc y with
      | none => exact ⟨none, _, _, rfl, rfl, Or.inl ⟨rfl, rfl⟩⟩
      | some y' =>
        obtain ⟨v, hv, h⟩ := hfin y'
        refine ⟨some (tl.1, y), ⟨tl, br, v⟩, ⟨tl, (tl.1, br.2), v⟩, ?_, ?_, ?_⟩
        · simp only [PosTy.newSame, Except.toOption, hv]
        · simp only [PosTy.newSame, Except.toOption, hv]
        · rcases h with rfl | rfl
          · exact Or.inl ⟨rfl, rfl⟩
          · exact Or.inr ⟨y', rfl, rfl⟩
    · have e : T.next (tl.1, y) = (T.Y.inc y).map fun y => (T.X.MIN, y) := by
        simp only [PosTy.next]; rw [BTy.inc_none hT.1 (by omega)]
      rw [e]
      cases hy : T.Y.inc y with
      | none => exact ⟨some (tl.1, y), _, _, rfl, rfl, Or.inl ⟨rfl, rfl⟩⟩
      | some y' =>
        simp only [Option.map_some]
        rw [if_pos (by omega), if_pos (by omega)]
        obtain ⟨v, hv, h⟩ := hfin y'
        refine ⟨some (tl.1, y), ⟨tl, br, v⟩, ⟨tl, (tl.1, br.2), v⟩, ?_, ?_, ?_⟩
        · simp only [PosTy.newSame, Except.toOption, hv]
        · simp only [PosTy.newSame, Except.toOption, hv]
        · rcases h with rfl | rfl
          · exact Or.inl ⟨rfl, rfl⟩
          · exact Or.inr ⟨y', rfl, rfl⟩

/-- C12, outside its hypotheses: when the second corner is above the first, `iter_range` yields the first corner only; or nothing,
if that is on the last line but not in the last column and the second corner is not to the right of it. -/
theorem C12_inverted_y (T : PosTy) (hT : T.WF) (tl br : Int × Int) (h1 : InGrid T tl) (h2 : InGrid T br)
    (hy : br.2 < tl.2) (fuel : Nat) (hf : 1 < fuel) :
    collectWith (liftNext (PosIterRange.next T)) fuel (PosIterRange.new tl br)
      = .ok (if br.1 ≤ tl.1 ∧ tl.1 < T.X.MAX ∧ tl.2 = T.Y.MAX then [] else [tl]) := by
  have h1' : (T.X.MIN ≤ tl.1 ∧ tl.1 ≤ T.X.MAX) ∧ (T.Y.MIN ≤ tl.2 ∧ tl.2 ≤ T.Y.MAX) := h1
  have h2' : (T.X.MIN ≤ br.1 ∧ br.1 ≤ T.X.MAX) ∧ (T.Y.MIN ≤ br.2 ∧ br.2 ≤ T.Y.MAX) := h2
  obtain ⟨k, rfl⟩ : ∃ k, fuel = k + 2 := ⟨fuel - 2, by omega⟩
  have hlast : ∀ f, collectWith (liftNext (PosIterRange.next T)) (f + 1) ⟨tl, br, none⟩ = .ok [] := fun f => rfl
  have hkeep : PosIterRange.next T (PosIterRange.new tl br) = (some tl, ⟨tl, br, none⟩) →
      collectWith (liftNext (PosIterRange.next T)) (k + 2) (PosIterRange.new tl br) = .ok [tl] := by
    intro h
    rw [collectWith]
    simp only [liftNext, h, Out.ok_bind]
    rw [hlast k]
    rfl
  have hfilt : ∀ p : Int × Int, br.2 < p.2 → Option.filter (fun p : Int × Int => decide (p.2 ≤ br.2)) (some p) = none := by
    intro p hp
    rw [Option.filter_some, if_neg]
    simp only [decide_eq_true_eq]; omega
  by_cases hc : br.1 ≤ tl.1 ∧ tl.1 < T.X.MAX ∧ tl.2 = T.Y.MAX
  · rw [if_pos hc, collectWith]
    have e : PosIterRange.next T (PosIterRange.new tl br) = (none, ⟨tl, br, none⟩) := by
      rw [show PosIterRange.new tl br = ⟨tl, br, some tl⟩ from rfl]
      simp only [PosIterRange.next, PosTy.next]
      rw [BTy.inc_some hT.1 (by omega) (by omega)]
      simp only
      rw [if_neg (by omega), if_pos (by omega), BTy.inc_none hT.2 (by omega)]
    simp only [liftNext, e, Out.ok_bind]
  · rw [if_neg hc]
    apply hkeep
    rw [show PosIterRange.new tl br = ⟨tl, br, some tl⟩ from rfl]
    simp only [PosIterRange.next, PosTy.next]
    rcases Int.lt_or_le tl.1 T.X.MAX with hlt | hge
    · rw [BTy.inc_some hT.1 (by omega) (by omega)]
      simp only
      rw [if_neg (by omega)]
      by_cases hb : tl.1 + 1 > br.1
      · rw [if_pos hb, BTy.inc_some hT.2 (by omega) (by omega)]
        simp only [PosTy.newSame, Except.toOption]
        rw [hfilt _ (by simp only; omega)]
      · rw [if_neg hb, hfilt _ (by simp only; omega)]
    · rw [BTy.inc_none hT.1 (by omega)]
      simp only
      rcases Int.lt_or_le tl.2 T.Y.MAX with hl2 | hg2
      · rw [BTy.inc_some hT.2 (by omega) (by omega)]
        simp only [Option.map_some]
        by_cases hb : T.X.MIN < tl.1
        · rw [if_pos hb]
          simp only [PosTy.newSame, Except.toOption]
          rw [hfilt _ (by simp only; omega)]
        · rw [if_neg hb, if_neg (by omega), hfilt _ (by simp only; omega)]
      · rw [BTy.inc_none hT.2 (by omega)]
        rfl

example : InGrid (PosTy.pos 3 3) (2, 2) ∧ InGrid (PosTy.pos 3 3) (1, 1) ∧ InGrid (PosTy.pos 3 3) (2, 0) ∧
    collectWith (liftNext (PosIterRange.next (PosTy.pos 3 3))) 10 (PosIterRange.new (2, 2) (1, 1)) = .ok [(2, 2)] ∧
    collectWith (liftNext (PosIterRange.next (PosTy.pos 3 3))) 10 (PosIterRange.new (2, 0) (1, 2))
      = .ok [(2, 0), (2, 1), (2, 2)] ∧
    collectWith (liftNext (PosIterRange.next (PosTy.pos 3 3))) 10 (PosIterRange.new (2, 3) (2, 1)) = .ok [] := by
  unfold InGrid; decide

/-- The rectangle list contains exactly the positions between the corners, each once. -/
theorem C12_rect_spec (tl br : Int × Int) :
    (∀ p, p ∈ rectRows tl br ↔ (tl.1 ≤ p.1 ∧ p.1 ≤ br.1) ∧ (tl.2 ≤ p.2 ∧ p.2 ≤ br.2)) ∧ (rectRows tl br).Nodup := by
  constructor
  · intro p
    simp only [rectRows, intsFromTo, List.mem_flatMap, List.mem_map, List.mem_range]
    constructor
    · rintro ⟨x, ⟨i, hi, rfl⟩, y, ⟨j, hj, rfl⟩, rfl⟩; simp only; omega
    · rintro ⟨⟨h1, h2⟩, h3, h4⟩
      exact ⟨p.2, ⟨(p.2 - tl.2).toNat, by omega, by omega⟩, p.1, ⟨(p.1 - tl.1).toNat, by omega, by omega⟩, rfl⟩
  · rw [← PosIterRange.seg_rect, seg, List.Nodup, List.pairwise_map]
    refine List.Pairwise.imp ?_ List.nodup_range
    intro a b hab he
    simp only [PosIterRange.at', Nat.zero_add, Prod.mk.injEq] at he
    have h1 := Nat.div_add_mod a (PosIterRange.wd tl br)
    have h2 := Nat.div_add_mod b (PosIterRange.wd tl br)
    have e1 : a % PosIterRange.wd tl br = b % PosIterRange.wd tl br := by omega
    have e2 : a / PosIterRange.wd tl br = b / PosIterRange.wd tl br := by omega
    rw [e1, e2] at h1
    omega

example : (PosTy.pos 4 4).WF ∧ InGrid (PosTy.pos 4 4) (1, 2) ∧ InGrid (PosTy.pos 4 4) (2, 3) ∧
    (rectRows (1, 2) (2, 3)).length < 5 ∧
    collectWith (liftNext (PosIterRange.next (PosTy.pos 4 4))) 5 (PosIterRange.new (1, 2) (2, 3))
      = .ok [(1, 2), (2, 2), (1, 3), (2, 3)] ∧
    collectWith (liftNext (PosIterRange.next (PosTy.pos 4 4))) 5 (PosIterRange.new (1, 3) (2, 4))
      = .ok [(1, 3), (2, 3), (1, 4)] := by unfold InGrid; decide

/-! ## C13 -/

/-- C13, full statement, for every position type whose coordinate types exist (false of the code for those that do not start
at 0). -/
def C13_claim : Prop :=
  ∀ T : PosTy, T.WF →
    (∀ x, T.X.Valid x → ∃ N, ∀ fuel, N < fuel → collectWith (liftNext (PosIterInX.next T)) fuel (PosIterInX.new T x)
      = .ok ((intsFromTo T.Y.MIN T.Y.MAX).map fun y => (x, y))) ∧
    (∀ y, T.Y.Valid y → ∃ N, ∀ fuel, N < fuel → collectWith (liftNext (PosIterInY.next T)) fuel (PosIterInY.new T y)
      = .ok ((intsFromTo T.X.MIN T.X.MAX).map fun x => (x, y)))

/-- C13, partial. On a zero-based type, `iter_in_x(x)` visits exactly the column `x`, top to bottom. Missing: types that
do not start at 0, see `C13_iter_in_x_exact`. -/
theorem C13_iter_in_x_partial [Target] (T : PosTy) (hT : T.IsGrid) (x : Int) (fuel : Nat) (hf : (rows T).toNat < fuel) :
    collectWith (liftNext (PosIterInX.next T)) fuel (PosIterInX.new T x)
      = .ok ((intsFromTo T.Y.MIN T.Y.MAX).map fun y => (x, y)) := by
  have h := collect_inX hT.wf x 0 ⟨by rw [hT.y0], hT.ymax0⟩ fuel (by
    simp only [rows, hT.y0] at hf; exact hf)
  rw [hT.y0]; exact h

/-- C13, partial. On a zero-based type, `iter_in_y(y)` visits exactly the line `y`, left to right. Missing: types that
do not start at 0, see `C13_iter_in_y_exact`. -/
theorem C13_iter_in_y_partial [Target] (T : PosTy) (hT : T.IsGrid) (y : Int) (fuel : Nat) (hf : (cols T).toNat < fuel) :
    collectWith (liftNext (PosIterInY.next T)) fuel (PosIterInY.new T y)
      = .ok ((intsFromTo T.X.MIN T.X.MAX).map fun x => (x, y)) := by
  have h := collect_inY hT.wf 0 y ⟨by rw [hT.x0], hT.xmax0⟩ fuel (by
    simp only [cols, hT.x0] at hf; exact hf)
  rw [hT.x0]; exact h

theorem intsFromTo_empty {a b : Int} (h : b < a) : intsFromTo a b = [] := by
  simp only [intsFromTo, show (b - a + 1).toNat = 0 by omega, List.range_zero, List.map_nil]

/-- C13, what happens on every type: `iter_in_x(x)` starts at line 0, whether or not 0 is a valid coordinate, and goes on to the
last line if line 1 is valid; otherwise it stops there. -/
theorem C13_iter_in_x_exact (T : PosTy) (hT : T.WF) (x : Int) (fuel : Nat) (hf : (T.Y.MAX + 1).toNat + 1 < fuel) :
    collectWith (liftNext (PosIterInX.next T)) fuel (PosIterInX.new T x)
      = .ok ((x, 0) :: if T.Y.Valid 1 then (intsFromTo 1 T.Y.MAX).map fun y => (x, y) else []) := by
  obtain ⟨k, rfl⟩ : ∃ k, fuel = k + 2 := ⟨fuel - 2, by omega⟩
  rw [collectWith]
  simp only [liftNext, PosIterInX.next, PosIterInX.new, BTy.default, Out.ok_bind]
  rw [BTy.inc_eq hT.2, Int.zero_add]
  by_cases hv : T.Y.Valid 1
  · rw [if_pos hv, if_pos hv]
    have := collect_inX hT x 1 hv (k + 1) (by omega)
    simp only [Option.bind_some, PosTy.newSame, Except.toOption]
    rw [this]
    rfl
  · rw [if_neg hv, if_neg hv]
    rfl

/-- The same for `iter_in_y`. -/
theorem C13_iter_in_y_exact (T : PosTy) (hT : T.WF) (y : Int) (fuel : Nat) (hf : (T.X.MAX + 1).toNat + 1 < fuel) :
    collectWith (liftNext (PosIterInY.next T)) fuel (PosIterInY.new T y)
      = .ok ((0, y) :: if T.X.Valid 1 then (intsFromTo 1 T.X.MAX).map fun x => (x, y) else []) := by
  obtain ⟨k, rfl⟩ : ∃ k, fuel = k + 2 := ⟨fuel - 2, by omega⟩
  rw [collectWith]
  simp only [liftNext, PosIterInY.next, PosIterInY.new, BTy.default, Out.ok_bind]
  rw [BTy.inc_eq hT.1, Int.zero_add]
  by_cases hv : T.X.Valid 1
  · rw [if_pos hv, if_pos hv]
    have := collect_inY hT 1 y hv (k + 1) (by omega)
    simp only [Option.bind_some, PosTy.newSame, Except.toOption]
    rw [this]
    rfl
  · rw [if_neg hv, if_neg hv]
    rfl

/-- C13 fails on every type whose lines do not start at 0: the iterator begins with `(x, 0)`, which is either not the first
position of the column or not a position at all. -/
theorem C13_refuted_iff_nonzero (T : PosTy) (hT : T.WF) (x : Int) :
    (∃ N, ∀ fuel, N < fuel → collectWith (liftNext (PosIterInX.next T)) fuel (PosIterInX.new T x)
      = .ok ((intsFromTo T.Y.MIN T.Y.MAX).map fun y => (x, y))) ↔ T.Y.MIN = 0 := by
  constructor
  · rintro ⟨N, hN⟩
    have h1 := hN (N + (T.Y.MAX + 1).toNat + 2) (by omega)
    rw [C13_iter_in_x_exact T hT x _ (by omega)] at h1
    injection h1 with h1
    have h2 : T.Y.MIN ≤ T.Y.MAX := hT.2.min_le_max
    obtain ⟨k, hk⟩ : ∃ k, (T.Y.MAX - T.Y.MIN + 1).toNat = k + 1 := ⟨(T.Y.MAX - T.Y.MIN).toNat, by omega⟩
    simp only [intsFromTo, hk, List.range_succ_eq_map, List.map_cons, List.cons.injEq, Prod.mk.injEq, true_and] at h1
    have := h1.1
    simp at this
    omega
  · intro h0
    refine ⟨(T.Y.MAX - T.Y.MIN + 1).toNat, fun fuel hf => ?_⟩
    have h2 : T.Y.MIN ≤ T.Y.MAX := hT.2.min_le_max
    have := collect_inX hT x 0 ⟨by omega, by omega⟩ fuel (by rw [h0] at hf; exact hf)
    rw [h0]; exact this

/-- C13 does not hold of every type: `<(i8, i8)>::iter_in_x(x)` starts at line 0, not at line -128. -/
theorem C13_refuted : ¬ C13_claim := by
  intro h
  have h1 := (C13_refuted_iff_nonzero (PosTy.tuple .i8) (by decide_target) 5).1 ((h (PosTy.tuple .i8) (by decide_target)).1 5 (by decide_target))
  revert h1
  decide_target

/-- A type that does not contain 0 at all: `iter_in_x` yields a position outside the type's bounds. -/
example : let T : PosTy := ⟨.bounded .u8 0 3, .bounded .u8 3 7, 4, 5⟩
    T.WF ∧ ¬ T.Valid (2, 0) ∧
    collectWith (liftNext (PosIterInX.next T)) 12 (PosIterInX.new T 2) = .ok [(2, 0)] := by decide

example : (PosTy.pos 6 4).IsGrid ∧ (rows (PosTy.pos 6 4)).toNat = 5 ∧
    collectWith (liftNext (PosIterInX.next (PosTy.pos 6 2))) 4 (PosIterInX.new (PosTy.pos 6 2) 5)
      = .ok [(5, 0), (5, 1), (5, 2)] :=
  ⟨PosTy.pos_isGrid (by decide) (by decide) (.inl rfl), by decide, by decide⟩

end Sqrid
