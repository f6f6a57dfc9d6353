import Verif.Proofs.ClosureBfs
import Verif.Proofs.UcsSearch
/-! A* and uniform-cost search with any closure. -/

namespace Sqrid

open Spec

variable {W : Type}

/-- A movement that is the first one of a search, or was answered to a call from one of the positions `done`. -/
def Src (orig : P2) (done : List P2) (log : GoLog) (m : P2 × Dir) : Prop := m = (orig, Dir.N) ∨ ∃ u ∈ done, (u, opposite m.2, some m.1) ∈ log

theorem Src.mono {orig : P2} {done done' : List P2} {log log' : GoLog} {m : P2 × Dir} (h : Src orig done log m) (h1 : ∀ u ∈ done, u ∈ done') (h2 : ∀ e ∈ log, e ∈ log') :
    Src orig done' log' m := h.imp id fun ⟨u, h3, h4⟩ => ⟨u, h1 u h3, h2 _ h4⟩

theorem Src.answer {orig : P2} {done : List P2} {log : GoLog} {m : P2 × Dir} (h : Src orig done log m) : m = (orig, Dir.N) ∨ m ∈ answers log :=
  h.imp id fun ⟨u, _, h4⟩ => List.mem_filterMap.2 ⟨_, h4, by simp [opposite_opposite]⟩

/-- A map with the last movement to each of the positions `done`. -/
def MapSrc (T : PosTy) {M : MapImpl (Option Dir)} (RM : M.σ → (P2 → Option Dir) → Prop) (D : Bool) (orig : P2) (done : List P2) (log : GoLog) (c : M.σ) : Prop :=
  ∃ g, RM c g ∧ (∀ p d, g p = some d → Allowed D d ∧ Src orig done log (p, d)) ∧ ∀ p ∈ done, InGrid T p ∧ g p ≠ none

theorem MapSrc.set {T : PosTy} {M : MapImpl (Option Dir)} {RM : M.σ → (P2 → Option Dir) → Prop} (hM : M.Sim T none RM) {D : Bool} {orig : P2} {done : List P2}
    {log log' : GoLog} {c : M.σ} (h : MapSrc T RM D orig done log c) {p : P2} {d : Dir} (hp : InGrid T p) (hd : Allowed D d) (hs : Src orig done log (p, d))
    (hl : ∀ e ∈ log, e ∈ log') : ∃ c', M.set c p (some d) = .ok c' ∧ MapSrc T RM D orig (done ++ [p]) log' c' := by
  obtain ⟨g, hg, h1, h2⟩ := h
  obtain ⟨c', h3, h4⟩ := hM.set (some d) hg hp
  refine ⟨c', h3, _, h4, fun q e he => ?_, fun q hq => ?_⟩
  · by_cases h : q = p
    · subst h; rw [upd_same] at he; injection he with he; subst he
      exact ⟨hd, hs.mono (fun u hu => List.mem_append_left _ hu) hl⟩
    · rw [upd_other _ _ h] at he
      exact ⟨(h1 q e he).1, (h1 q e he).2.mono (fun u hu => List.mem_append_left _ hu) hl⟩
  · by_cases h : q = p
    · subst h; rw [upd_same]; exact ⟨hp, fun h => by cases h⟩
    · rw [upd_other _ _ h]
      rcases List.mem_append.1 hq with hq | hq
      · exact h2 q hq
      · exact absurd (List.mem_singleton.1 hq) h

section
variable {T : PosTy} {D : Bool} {orig : P2} {done : List P2} {log : GoLog} {g : P2 → Option Dir}

/-- Where the last movement to a position came from. -/
theorem src_back (hadj : ∀ e ∈ log, ∀ q, e.2.2 = some q → q = neighbour e.1 e.2.1) {p : P2} {d : Dir} (h : Src orig done log (p, d)) (hne : p ≠ orig) :
    neighbour p d ∈ done ∧ granted log (neighbour p d) (opposite d) = some p := by
  rcases h with h | ⟨u, h1, h2⟩
  · injection h with h _; exact absurd h hne
  · have h3 : p = neighbour u (opposite d) := hadj _ h2 _ rfl
    have h4 : neighbour p d = u := by rw [h3, neighbour_opposite']
    rw [h4]
    refine ⟨h1, ?_⟩
    rw [granted, if_pos (by rw [← h3]; exact h2), ← h3]

/-- With steps to neighbours only, the way back does not get stuck. -/
theorem not_stuck_of_src (hadj : ∀ e ∈ log, ∀ q, e.2.2 = some q → q = neighbour e.1 e.2.1)
    (h1 : ∀ p d, g p = some d → Src orig done log (p, d)) (h2 : ∀ p ∈ done, InGrid T p ∧ g p ≠ none) {p : P2} {n : Nat} (hp : p ∈ done) : ¬ GetsStuck T g orig p n := by
  intro h
  induction h with
  | @here p hne hout =>
    cases hg : g p with
    | none => exact (h2 p hp).2 hg
    | some d => exact hout d hg (h2 _ (src_back hadj (h1 p d hg) hne).1).1
  | @step p d n hne hg _ _ ih => exact ih (src_back hadj (h1 p d hg) hne).1

/-- With steps to neighbours only, the way back is made of steps that were granted. -/
theorem granted_of_src (hadj : ∀ e ∈ log, ∀ q, e.2.2 = some q → q = neighbour e.1 e.2.1) (h1 : ∀ p d, g p = some d → Allowed D d ∧ Src orig done log (p, d)) {p : P2}
    {path : List Dir} (h : Arrives T g orig p path) : IsPath (granted log) D orig path p := by
  induction h with
  | here => exact isPath_nil
  | step hne hg _ _ ih => exact isPath_append ih (isPath_single (allowed_opposite.2 (h1 _ _ hg).1) (src_back hadj (h1 _ _ hg).2 hne).2)

end

/-- What is known of the state of a best-first search after the positions `done` have been expanded, with `L` the log of the closure. If `small`, a step
costs at most `B` and there is no overflow. -/
structure XInv [Target] (T : PosTy) (D : Bool) (orig : P2) (small : Prop) (B : Int) (done : List P2) (L : GoLog) (s : BSt) : Prop where
  grid : ∀ q, s.c q < usizeMax → InGrid T q
  nonneg : ∀ q, 0 ≤ s.c q
  le : ∀ q, s.c q ≤ usizeMax
  bound : small → ∀ q, s.c q < usizeMax → s.c q ≤ B * ((known (allPositions T true) usizeMax s.c : Nat) - 1 : Int)
  entry : ∀ e ∈ s.heap, s.c e.2.1 < usizeMax ∧ Allowed D e.2.2 ∧ Src orig done L e.2
  seen : ∀ q, s.c q < usizeMax → q ∈ done ∨ ∃ e ∈ s.heap, e.2.1 = q
  ans : small → ∀ m ∈ answers L, s.c m.1 < usizeMax
  org : s.c orig < usizeMax

theorem answers_snoc (log : GoLog) (p : P2) (d : Dir) (a : Option P2) :
    answers (log ++ [(p, d, a)]) = answers log ++ (match a with | none => [] | some q => [(q, opposite d)]) := by
  cases a <;> simp [answers]

/-- The limits: costs below `N`. -/
def Cap [Target] (T : PosTy) (small : Prop) (B : Int) (N : Nat) : Prop :=
  ∀ v : Int, v < usizeMax → (small → v ≤ B * ((T.nx * T.ny : Nat) - 1 : Int)) → v < N

def xMeasure (T : PosTy) (N : Nat) (s : BSt) : Nat := s.heap.length + capSum N s.c (allPositions T true)

section
variable {T : PosTy} {D : Bool} {orig : P2} {small : Prop} {B : Int} {N : Nat} {done : List P2} {L : GoLog} {s : BSt}

/-- The cost of a step does not overflow. -/
theorem XInv.fits [Target] (H : XInv T D orig small B done L s) (hs : small) (hB : 0 ≤ B ∧ B * ((T.nx * T.ny : Nat) : Int) < usizeMax) {p : P2} (hp : s.c p < usizeMax)
    {w : Int} (hw : w ≤ B) : s.c p + w ≤ B * ((T.nx * T.ny : Nat) : Int) := by
  have h1 := H.bound hs p hp
  have h2 : ((known (allPositions T true) usizeMax s.c : Nat) : Int) ≤ ((T.nx * T.ny : Nat) : Int) := by
    have := known_le (allPositions T true) usizeMax s.c
    rw [PosTy.allPositions_length] at this
    exact_mod_cast this
  have h3 := Int.mul_le_mul_of_nonneg_left h2 hB.1
  rw [Int.mul_sub] at h1
  omega

theorem XInv.answer [Target] (H : XInv T D orig small B done L s) {p : P2} {d : Dir} {a : Option P2} (hq : small → ∀ q, a = some q → s.c q < usizeMax) :
    XInv T D orig small B done (L ++ [(p, d, a)]) s := by
  refine ⟨H.grid, H.nonneg, H.le, H.bound, fun e he => ?_, H.seen, fun hs m hm => ?_, H.org⟩
  · obtain ⟨h1, h2, h3⟩ := H.entry e he
    exact ⟨h1, h2, h3.mono (fun _ h => h) fun _ h => List.mem_append_left _ h⟩
  · rw [answers_snoc] at hm
    rcases List.mem_append.1 hm with hm | hm
    · exact H.ans hs m hm
    · cases a with
      | none => cases hm
      | some q => rw [List.mem_singleton.1 hm]; exact hq hs q rfl

theorem XInv.push [Target] (H : XInv T D orig small B done L s) (hB : small → 0 ≤ B ∧ B * ((T.nx * T.ny : Nat) : Int) < usizeMax) (hN : Cap T small B N) {p q : P2}
    (hp : s.c p < usizeMax) (hpd : p ∈ done) (hqin : InGrid T q) {v : Int} (hv : 0 ≤ v) (hvB : small → v ≤ s.c p + B) (hlt : v < s.c q) (pr : Int) {d : Dir} (hd : Allowed D d) :
    XInv T D orig small B done (L ++ [(p, d, some q)]) { c := upd s.c q v, heap := (pr, q, opposite d) :: s.heap } ∧
    xMeasure T N { c := upd s.c q v, heap := (pr, q, opposite d) :: s.heap } ≤ xMeasure T N s ∧ upd s.c q v p ≤ s.c p := by
  have hp0 := H.nonneg p
  have hqle := H.le q
  have hle : ∀ r, upd s.c q v r ≤ s.c r := by
    intro r
    by_cases hr : r = q
    · subst hr; rw [upd_same]; omega
    · rw [upd_other _ _ hr]
  have hmono : known (allPositions T true) usizeMax s.c ≤ known (allPositions T true) usizeMax (upd s.c q v) := by
    refine List.countP_mono_left (fun r _ hr => ?_)
    simp only [decide_eq_true_eq] at hr ⊢
    have := hle r
    omega
  have hmono' : ((known (allPositions T true) usizeMax s.c : Nat) - 1 : Int) ≤ ((known (allPositions T true) usizeMax (upd s.c q v) : Nat) - 1 : Int) := by omega
  have hq : small → v ≤ B * ((known (allPositions T true) usizeMax (upd s.c q v) : Nat) - 1 : Int) := by
    intro hs
    have hB0 := (hB hs).1
    by_cases hqi : s.c q < usizeMax
    · have h1 := H.bound hs q hqi
      have h2 := Int.mul_le_mul_of_nonneg_left hmono' hB0
      omega
    · have hlt' : known (allPositions T true) usizeMax s.c < known (allPositions T true) usizeMax (upd s.c q v) := by
        refine countP_lt (fun r hr => ?_) (PosTy.mem_allPositions.2 hqin) ?_ ?_
        · simp only [decide_eq_true_eq] at hr ⊢
          have := hle r
          omega
        · simp only [upd_same, decide_eq_true_eq]; omega
        · simp only [decide_eq_false_iff_not]; exact hqi
      have h1 := H.bound hs p hp
      have h3 := hvB hs
      have h2 : ((known (allPositions T true) usizeMax s.c : Nat) - 1 : Int) + 1 ≤ ((known (allPositions T true) usizeMax (upd s.c q v) : Nat) - 1 : Int) := by omega
      have h4 := Int.mul_le_mul_of_nonneg_left h2 hB0
      rw [Int.mul_add, Int.mul_one] at h4
      omega
  have hkn : ((known (allPositions T true) usizeMax (upd s.c q v) : Nat) - 1 : Int) ≤ ((T.nx * T.ny : Nat) - 1 : Int) := by
    have := known_le (allPositions T true) usizeMax (upd s.c q v)
    rw [PosTy.allPositions_length] at this
    omega
  refine ⟨⟨fun r hr => ?_, fun r => ?_, fun r => Int.le_trans (hle r) (H.le r), fun hs r hr => ?_, fun e he => ?_, fun r hr => ?_, fun hs m hm => ?_, ?_⟩,
    ?_, hle p⟩
  · by_cases hrq : r = q
    · exact hrq ▸ hqin
    · simp only at hr
      rw [upd_other _ _ hrq] at hr
      exact H.grid r hr
  · simp only
    by_cases hrq : r = q
    · subst hrq; rw [upd_same]; omega
    · rw [upd_other _ _ hrq]; exact H.nonneg r
  · simp only at hr ⊢
    by_cases hrq : r = q
    · subst hrq; rw [upd_same]; exact hq hs
    · rw [upd_other _ _ hrq] at hr ⊢
      have h1 := H.bound hs r hr
      have h2 := Int.mul_le_mul_of_nonneg_left hmono' (hB hs).1
      omega
  · simp only
    rcases List.mem_cons.1 he with rfl | he
    · simp only [upd_same]
      exact ⟨by omega, allowed_opposite.2 hd, .inr ⟨p, hpd, by simp [opposite_opposite]⟩⟩
    · obtain ⟨h1, h2, h3⟩ := H.entry e he
      exact ⟨Int.lt_of_le_of_lt (hle _) h1, h2, h3.mono (fun _ h => h) fun _ h => List.mem_append_left _ h⟩
  · simp only at hr ⊢
    by_cases hrq : r = q
    · exact .inr ⟨_, List.mem_cons_self, hrq.symm⟩
    · rw [upd_other _ _ hrq] at hr
      exact (H.seen r hr).imp id fun ⟨e, he, h⟩ => ⟨e, List.mem_cons_of_mem _ he, h⟩
  · simp only
    rw [answers_snoc] at hm
    rcases List.mem_append.1 hm with hm | hm
    · exact Int.lt_of_le_of_lt (hle _) (H.ans hs m hm)
    · rw [List.mem_singleton] at hm; subst hm; rw [upd_same]; omega
  · exact Int.lt_of_le_of_lt (hle _) H.org
  · unfold xMeasure
    simp only [List.length_cons]
    have : capSum N (upd s.c q v) (allPositions T true) < capSum N s.c (allPositions T true) := by
      refine capSum_lt hle (PosTy.mem_allPositions.2 hqin) ?_ ?_ ?_
      · rw [upd_same]; omega
      · rw [upd_same]; omega
      · rw [upd_same]
        refine hN _ (by omega) fun hs => ?_
        have h1 := hq hs
        have h2 := Int.mul_le_mul_of_nonneg_left hkn (hB hs).1
        omega
    omega

theorem XInv.pop [Target] (H : XInv T D orig small B done L s) {e : Entry} {rest : List Entry} (hp : Heap.pop s.heap = some (e, rest)) :
    XInv T D orig small B (done ++ [e.2.1]) L { c := s.c, heap := rest } ∧ xMeasure T N { c := s.c, heap := rest } < xMeasure T N s ∧
    s.c e.2.1 < usizeMax ∧ InGrid T e.2.1 ∧ Allowed D e.2.2 ∧ Src orig done L e.2 := by
  obtain ⟨hm, -, hperm⟩ := Heap.pop_some hp
  obtain ⟨h1, h2, h3⟩ := H.entry e hm
  refine ⟨⟨H.grid, H.nonneg, H.le, H.bound, fun x hx => ?_, fun q hq => ?_, H.ans, H.org⟩, ?_, h1,
    H.grid _ h1, h2, h3⟩
  · obtain ⟨k1, k2, k3⟩ := H.entry x (hperm.mem_iff.2 (List.mem_cons_of_mem _ hx))
    exact ⟨k1, k2, k3.mono (fun _ h => List.mem_append_left _ h) fun _ h => h⟩
  · rcases H.seen q hq with h | ⟨x, hx, hxq⟩
    · exact .inl (List.mem_append_left _ h)
    · rcases List.mem_cons.1 (hperm.mem_iff.1 hx) with rfl | hx
      · exact .inl (by simp [hxq])
      · exact .inr ⟨x, hx, hxq⟩
  · have := hperm.length_eq
    simp only [List.length_cons] at this
    simp only [xMeasure]
    omega

theorem XInv.init [Target] (ho : InGrid T orig) (hB : small → 0 ≤ B) : XInv T D orig small B [] [] (BSt.init usizeMax orig) := by
  have hx : ∀ q, upd (fun _ => usizeMax) orig 0 q < usizeMax → q = orig := by
    intro q hq
    by_contra hne
    rw [upd_other _ _ hne] at hq
    omega
  have h0 : upd (fun _ => usizeMax) orig 0 orig < usizeMax := by rw [upd_same]; exact usizeMax_pos
  refine ⟨fun q hq => ?_, fun q => ?_, fun q => ?_, fun hs q hq => ?_, fun e he => ?_, fun q hq => ?_, by simp [answers], h0⟩
  · rw [hx q hq]; exact ho
  · simp only [BSt.init]
    by_cases hq : q = orig
    · subst hq; rw [upd_same]
    · rw [upd_other _ _ hq]; exact Int.le_of_lt usizeMax_pos
  · simp only [BSt.init]
    by_cases hq : q = orig
    · subst hq; rw [upd_same]; exact Int.le_of_lt usizeMax_pos
    · rw [upd_other _ _ hq]
  · simp only [BSt.init] at hq ⊢
    rw [hx q hq, upd_same]
    have : 0 < known (allPositions T true) usizeMax (upd (fun _ => usizeMax) orig 0) :=
      List.countP_pos_iff.2 ⟨orig, PosTy.mem_allPositions.2 ho, by simpa using h0⟩
    exact Int.mul_nonneg (hB hs) (by omega)
  · simp only [BSt.init, List.mem_singleton] at he ⊢
    subst he
    exact ⟨h0, .inr (by simp [unit]), .inl rfl⟩
  · simp only [BSt.init] at hq ⊢
    exact .inr ⟨_, List.mem_singleton.2 rfl, (hx q hq).symm⟩

theorem xMeasure_init [Target] : xMeasure T N (BSt.init usizeMax orig) ≤ 1 + N * (T.nx * T.ny) := by
  have := capSum_le N (BSt.init usizeMax orig).c (allPositions T true)
  rw [PosTy.allPositions_length] at this
  simp only [xMeasure]
  have h : (BSt.init usizeMax orig).heap.length = 1 := rfl
  omega

end

theorem calls_snoc {α : Type} (log : List (P2 × Dir × α)) (p : P2) (d : Dir) (a : α) : calls (log ++ [(p, d, a)]) = calls log ++ [(p, d)] := by simp [calls]

/-- The log grows by the calls `cs`. -/
def Grows (log log' : GoLog) (cs : List (P2 × Dir)) : Prop := ∃ more, log' = log ++ more ∧ calls more = cs

theorem Grows.refl (log : GoLog) : Grows log log [] := ⟨[], by simp, rfl⟩
theorem Grows.one (log : GoLog) (p : P2) (d : Dir) (a : Option P2) : Grows log (log ++ [(p, d, a)]) [(p, d)] := ⟨_, rfl, rfl⟩
theorem Grows.trans {l1 l2 l3 : GoLog} {c1 c2 : List (P2 × Dir)} (h1 : Grows l1 l2 c1) (h2 : Grows l2 l3 c2) : Grows l1 l3 (c1 ++ c2) := by
  obtain ⟨m1, rfl, rfl⟩ := h1
  obtain ⟨m2, rfl, rfl⟩ := h2
  exact ⟨m1 ++ m2, by simp, by simp [calls]⟩
theorem Grows.sub {l1 l2 : GoLog} {c : List (P2 × Dir)} (h : Grows l1 l2 c) : ∀ e ∈ l1, e ∈ l2 := by
  obtain ⟨m, rfl, -⟩ := h
  exact fun _ h => List.mem_append_left _ h
theorem Grows.mem {l1 l2 : GoLog} {c : List (P2 × Dir)} (h : Grows l1 l2 c) {x : P2 × Dir} (hx : x ∈ answers l1) : x ∈ answers l2 := by
  obtain ⟨m, rfl, -⟩ := h
  simp only [answers, List.filterMap_append, List.mem_append] at hx ⊢
  exact .inl hx

/-! ### A* -/

section
variable {T : PosTy} {C : MapImpl Int} {R : C.σ → (P2 → Int) → Prop} {M : MapImpl (Option Dir)} {RM : M.σ → (P2 → Option Dir) → Prop} {P : Prop}
  {go : P2 → Dir → Eff W (Option P2)} {lg : W → GoLog} {D : Bool} {orig dest : P2}

/-- The state of the iterator. -/
def AstarIter.XInv [Target] (T : PosTy) (R : C.σ → (P2 → Int) → Prop) (D : Bool) (orig : P2) (done : List P2) (log : GoLog) (st : AstarIter C) (p : Option P2) (m : Nat) : Prop :=
  ∃ c, R st.cost c ∧ Sqrid.XInv T D orig True 1 done log { c, heap := st.frontier } ∧ xMeasure T (T.nx * T.ny) { c, heap := st.frontier } ≤ m ∧
    ∀ q, p = some q → c q < usizeMax ∧ q ∈ done

theorem astar_cap [Target] (T : PosTy) : Cap T True 1 (T.nx * T.ny) := by
  intro v _ h
  have := h trivial
  omega

theorem astar_small [Target] (hT : T.Searchable) : (0 : Int) ≤ 1 ∧ 1 * ((T.nx * T.ny : Nat) : Int) < usizeMax := by
  have h4 := hT.room
  have h5 : ((T.nx * T.ny : Nat) : Int) = (T.X.MAX + 1) * (T.Y.MAX + 1) := by push_cast; rw [hT.nx_eq, hT.ny_eq]
  have hx := hT.xmax0
  have hy := hT.ymax0
  have hs := hT.square
  have hl := limit_pos
  rw [usizeMax_eq]
  refine ⟨by omega, ?_⟩
  rw [h5]
  by_cases h : T.X.MAX + T.Y.MAX = 0
  · have e1 : T.X.MAX = 0 := by omega
    have e2 : T.Y.MAX = 0 := by omega
    rw [e1, e2]; omega
  · omega

theorem AstarIter.post_relax [Target] (hT : T.Searchable) (hC : C.Sim T 0 R) (hgo : Logs T P go lg (fun _ => ())) (hd : InGrid T dest) {p : P2} (hp : InGrid T p)
    {done : List P2} {st : AstarIter C} {w : W} {m : Nat} {d : Dir} (hD : Allowed D d) (h : AstarIter.XInv T R D orig done (lg w) st (some p) m) :
    Eff.Post P (AstarIter.relaxM T C go dest p st d) w fun st' w' =>
      AstarIter.XInv T R D orig done (lg w') st' (some p) m ∧ Grows (lg w) (lg w') [(p, d)] := by
  obtain ⟨c, hR, H, hm, hcp⟩ := h
  obtain ⟨hcp, hpd⟩ := hcp p rfl
  have hroom := hT.room
  have hx := hT.xmax0
  have hy := hT.ymax0
  have hn := H.fits trivial (astar_small hT) hcp (Int.le_refl 1)
  have h5 : ((T.nx * T.ny : Nat) : Int) = (T.X.MAX + 1) * (T.Y.MAX + 1) := by push_cast; rw [hT.nx_eq, hT.ny_eq]
  rw [h5] at hn
  simp only at hn
  have h0 := H.nonneg p
  simp only at h0
  have e1 : IntTy.usize.add (c p) 1 = .ok (c p + 1) := IntTy.usize_add ⟨by omega, by omega⟩
  unfold AstarIter.relaxM
  refine .code_bind (hC.get hR hp) (.code_bind e1 ((hgo p d w hp).bind fun a w' ha => ?_))
  obtain ⟨h1, h2, -⟩ := ha
  have hc : Grows (lg w) (lg w') [(p, d)] := by rw [h2]; exact .one ..
  cases a with
  | none =>
    refine .pure ⟨⟨c, hR, ?_, hm, fun q hq => by injection hq with hq; exact hq ▸ ⟨hcp, hpd⟩⟩, hc⟩
    rw [h2]; exact H.answer fun _ q hq => by cases hq
  | some q =>
    have hq := h1 q rfl
    simp only
    refine .code_bind (hC.get hR hq) ?_
    by_cases hlt : c p + 1 < c q
    · rw [if_pos hlt]
      obtain ⟨s', h6, h7⟩ := hC.set (c p + 1) hR hq
      have hl := l1_le hT.toIsGrid hq hd
      have e2 : IntTy.usize.add (c p + 1) (l1 q dest) = .ok (c p + 1 + l1 q dest) := IntTy.usize_add ⟨by omega, by omega⟩
      obtain ⟨g1, g2, g3⟩ := H.push (fun _ => astar_small hT) (astar_cap T) hcp hpd hq (v := c p + 1) (by omega) (fun _ => by simp only; omega) hlt (c p + 1 + l1 q dest) hD
      refine .code_bind h6 (.code_bind (C15_manhattan_partial T hT.toIsGrid q dest hq hd) (.code_bind e2 (.code_bind (Dir.flip_eq d)
        (.pure ⟨⟨_, h7, ?_, Nat.le_trans g2 hm, fun r hr => ?_⟩, hc⟩))))
      · rw [h2]; exact g1
      · injection hr with hr; subst hr; exact ⟨Int.lt_of_le_of_lt g3 hcp, hpd⟩
    · rw [if_neg hlt]
      refine .pure ⟨⟨c, hR, ?_, hm, fun r hr => by injection hr with hr; exact hr ▸ ⟨hcp, hpd⟩⟩, hc⟩
      rw [h2]
      refine H.answer fun _ q' hq' => ?_
      injection hq' with hq'
      subst hq'
      have := astar_small hT
      rw [h5] at this
      simp only
      omega

theorem AstarIter.post_next [Target] (hT : T.Searchable) (hC : C.Sim T 0 R) (hgo : Logs T P go lg (fun _ => ())) (hd : InGrid T dest)
    {done : List P2} {st : AstarIter C} {w : W} {m : Nat} (h : AstarIter.XInv T R D orig done (lg w) st none m) :
    Eff.Post P (AstarIter.nextM T C D go dest st) w fun a w' =>
      (a = (none, st) ∧ st.frontier = [] ∧ w' = w) ∨
      ∃ mov, a.1 = some mov ∧ 0 < m ∧ AstarIter.XInv T R D orig (done ++ [mov.1]) (lg w') a.2 none (m - 1) ∧ Grows (lg w) (lg w') (sweep D [mov.1]) ∧
        InGrid T mov.1 ∧ Allowed D mov.2 ∧ Src orig done (lg w) mov := by
  obtain ⟨c, hR, H, hm, -⟩ := h
  unfold AstarIter.nextM
  cases hpop : Heap.pop st.frontier with
  | none => exact .pure (.inl ⟨rfl, Heap.pop_none hpop, rfl⟩)
  | some er =>
    obtain ⟨⟨pr, mov⟩, rest⟩ := er
    obtain ⟨g1, g2, g3, g4, g5, g6⟩ := H.pop (N := T.nx * T.ny) hpop
    simp only at g1 g2 g3 g4 g5 g6
    simp only
    refine .code_bind (toList_dirs D) ?_
    have step : Eff.Post P ((clockwise D).foldlM (AstarIter.relaxM T C go dest mov.1) { st with frontier := rest }) w fun st' w' =>
        AstarIter.XInv T R D orig (done ++ [mov.1]) (lg w') st' (some mov.1) (m - 1) ∧ Grows (lg w) (lg w') ((clockwise D).map fun d => (mov.1, d)) := by
      refine Eff.Post.foldlM (fun ds st' w' => AstarIter.XInv T R D orig (done ++ [mov.1]) (lg w') st' (some mov.1) (m - 1) ∧
        Grows (lg w) (lg w') (ds.map fun d => (mov.1, d))) (clockwise D) ?_ _ ⟨⟨c, hR, g1, by simp only; omega, ?_⟩, .refl _⟩
      · rintro ds d post s w' hl ⟨h1, h2⟩
        refine (AstarIter.post_relax hT hC hgo hd g4 (mem_clockwise.1 (by rw [hl]; simp)) h1).mono fun s' w'' ⟨h4, h5⟩ => ⟨h4, ?_⟩
        rw [List.map_append]; exact h2.trans h5
      · intro q hq; injection hq with hq; exact hq ▸ ⟨g3, by simp⟩
    refine step.bind fun st' w' ⟨h1, h2⟩ => .pure (.inr ⟨mov, rfl, by omega, ?_, by simpa [sweep] using h2, g4, g5, g6⟩)
    obtain ⟨c', k1, k2, k3, -⟩ := h1
    exact ⟨c', k1, k2, k3, fun q hq => by cases hq⟩

theorem AstarIter.post_new [Target] (hC : C.Sim T 0 R) (ho : InGrid T orig) {log : GoLog} (hlog : log = []) :
    ∃ st, AstarIter.new C orig = .ok st ∧ AstarIter.XInv T R D orig [] log st none (1 + (T.nx * T.ny) * (T.nx * T.ny)) := by
  obtain ⟨s', h1, h2⟩ := hC.set 0 (hC.new usizeMax) ho
  refine ⟨{ cost := s', frontier := Heap.push [] (0, orig, Dir.N) }, ?_, ⟨_, h2, ?_, xMeasure_init, fun q hq => by cases hq⟩⟩
  · unfold AstarIter.new; rw [h1]; rfl
  · subst hlog; exact XInv.init ho (fun _ => by omega)

/-- Any number of items. -/
theorem AstarIter.post_take [Target] (hT : T.Searchable) (hC : C.Sim T 0 R) (hgo : Logs T P go lg (fun _ => ())) (hd : InGrid T dest) (n : Nat) :
    ∀ {pre : List P2} {st : AstarIter C} {w : W} {m : Nat}, AstarIter.XInv T R D orig pre (lg w) st none m →
    Eff.Post P (takeM (AstarIter.nextM T C D go dest) n st) w fun a w' =>
      AstarIter.XInv T R D orig (pre ++ a.1.map Prod.fst) (lg w') a.2 none (m - a.1.length) ∧ Grows (lg w) (lg w') (sweep D (a.1.map Prod.fst)) ∧
      a.1.length ≤ m ∧ (∀ mov ∈ a.1, InGrid T mov.1 ∧ (mov = (orig, Dir.N) ∨ mov ∈ answers (lg w'))) ∧ (a.1.length < n → a.2.frontier = []) := by
  induction n with
  | zero => intro pre st w m h; exact .pure ⟨by simpa using h, .refl _, by simp, by simp, by simp⟩
  | succ n ih =>
    intro pre st w m h
    refine (AstarIter.post_next (D := D) hT hC hgo hd h).bind fun a w' ha => ?_
    obtain ⟨o, st'⟩ := a
    rcases ha with ⟨h1, h2, h3⟩ | ⟨mov, h1, hm, h2, h3, h4, h5, h6⟩
    · injection h1 with h1 h1'
      subst h1 h1' h3
      exact .pure ⟨by simpa using h, .refl _, by simp, by simp, fun _ => h2⟩
    · simp only at h1 h2
      subst h1
      refine (ih h2).bind fun b w'' ⟨k1, k2, k3, k4, k5⟩ => ?_
      obtain ⟨l, st''⟩ := b
      simp only at k1 k2 k3 k4 k5
      refine .pure ⟨?_, ?_, ?_, ?_, ?_⟩
      · have e : m - (l.length + 1) = m - 1 - l.length := by omega
        simpa [e] using k1
      · have := h3.trans k2
        rw [← sweep_append] at this
        simpa using this
      · simp only [List.length_cons]; omega
      · intro x hx
        rcases List.mem_cons.1 hx with rfl | hx
        · exact ⟨h4, h6.answer.imp id fun h => k2.mem (h3.mem h)⟩
        · exact k4 x hx
      · intro hlt
        exact k5 (by simpa using hlt)

/-- What a search has done when it stops. -/
def BestStopped (T : PosTy) (D : Bool) (orig dest : P2) (log0 log : GoLog) (m : Nat) (found : Prop) : Prop :=
  ∃ items : List (P2 × Dir), Grows log0 log (sweep D (items.map Prod.fst)) ∧ items.length ≤ m ∧
    (∀ mov ∈ items, InGrid T mov.1 ∧ (mov = (orig, Dir.N) ∨ mov ∈ answers log)) ∧
    ((found ∧ ∃ pre d, items = pre ++ [(dest, d)] ∧ dest ∉ pre.map Prod.fst) ∨ (¬ found ∧ dest ∉ items.map Prod.fst))

theorem Astar.post_searchLoop [Target] (hT : T.Searchable) (hC : C.Sim T 0 R) (hM : M.Sim T none RM) (hgo : Logs T P go lg (fun _ => ())) (hd : InGrid T dest) (n : Nat) :
    ∀ {pre : List P2} {st : AstarIter C} {c : M.σ} {w : W} {m : Nat}, AstarIter.XInv T R D orig pre (lg w) st none m → m < n → MapSrc T RM D orig pre (lg w) c → dest ∉ pre →
    Eff.Post P (Astar.searchLoopM T M C D go dest n st c) w fun r w' =>
      (r = .error .destinationUnreachable ∧ BestStopped T D orig dest (lg w) (lg w') m False ∧ dest ≠ orig ∧ ∀ x ∈ answers (lg w'), x.1 ≠ dest) ∨
      ∃ c', r = .ok c' ∧ (∃ done, dest ∈ done ∧ MapSrc T RM D orig done (lg w') c') ∧ BestStopped T D orig dest (lg w) (lg w') m True := by
  induction n with
  | zero => intro pre st c w m h hm; omega
  | succ n ih =>
    intro pre st c w m h hm hc hpre
    refine (AstarIter.post_next (D := D) hT hC hgo hd h).bind fun a w' ha => ?_
    obtain ⟨o, st'⟩ := a
    rcases ha with ⟨h1, h2, h3⟩ | ⟨mov, h1, hm0, h2, h3, h4, h5, h6⟩
    · injection h1 with h1 h1'
      subst h1 h1' h3
      obtain ⟨cc, k1, k2, k3, -⟩ := h
      have hno : ∀ q, cc q < usizeMax → q ≠ dest := by
        rintro q hq rfl
        rcases k2.seen q hq with h | ⟨e, he, -⟩
        · exact hpre h
        · simp only at he; rw [h2] at he; cases he
      refine .pure (.inl ⟨rfl, ⟨[], .refl _, by simp, by simp, .inr ⟨id, by simp⟩⟩, ?_, fun x hx => ?_⟩)
      · exact (hno orig k2.org).symm
      · exact hno _ (k2.ans trivial x hx)
    · simp only at h1 h2
      subst h1
      obtain ⟨p, d⟩ := mov
      simp only at h2 h3 h4 h5 h6
      obtain ⟨c', h7, h8⟩ := hc.set hM h4 h5 h6 h3.sub
      refine .code_bind h7 ?_
      by_cases hpd : p = dest
      · rw [if_pos hpd]
        refine .pure (.inr ⟨c', rfl, ⟨_, by simp [hpd], h8⟩, [(p, d)], by simpa using h3, by simp; omega, ?_, .inl ⟨trivial, [], d, by simp [hpd], by simp⟩⟩)
        · intro x hx
          rw [List.mem_singleton.1 hx]
          exact ⟨h4, h6.answer.imp id h3.mem⟩
      · rw [if_neg hpd]
        refine (ih h2 (by omega) h8 (by simp [hpre, Ne.symm hpd])).mono fun r w'' hr => ?_
        have ext : ∀ {f : Prop}, BestStopped T D orig dest (lg w') (lg w'') (m - 1) f → BestStopped T D orig dest (lg w) (lg w'') m f := by
          rintro f ⟨items, k1, k2, k3, k4⟩
          refine ⟨(p, d) :: items, ?_, by simp; omega, ?_, ?_⟩
          · have := h3.trans k1
            rw [← sweep_append] at this
            simpa using this
          · intro x hx
            rcases List.mem_cons.1 hx with rfl | hx
            · exact ⟨h4, h6.answer.imp id fun h => k1.mem (h3.mem h)⟩
            · exact k3 x hx
          · rcases k4 with ⟨hf, pr, e, k5, k6⟩ | ⟨hf, k5⟩
            · exact .inl ⟨hf, (p, d) :: pr, e, by simp [k5], by simp only [List.map_cons, List.mem_cons, not_or]; exact ⟨Ne.symm hpd, k6⟩⟩
            · exact .inr ⟨hf, by simp only [List.map_cons, List.mem_cons, not_or]; exact ⟨Ne.symm hpd, k5⟩⟩
        rcases hr with ⟨k1, k2, k3⟩ | ⟨c'', k1, k2, k3⟩
        · exact .inl ⟨k1, ext k2, k3⟩
        · exact .inr ⟨c'', k1, k2, ext k3⟩

/-- The whole search. -/
theorem Astar.post_searchPath [Target] (hT : T.Searchable) (hC : C.Sim T 0 R) (hM : M.Sim T none RM) (hgo : Logs T P go lg (fun _ => ())) (ho : InGrid T orig)
    (hd : InGrid T dest) (fuel : Nat) (hfuel : 1 + (T.nx * T.ny) * (T.nx * T.ny) < fuel) {w : W} (hw : lg w = []) :
    Eff.Post P (Astar.searchPathM T M C D go orig dest fuel) w fun r w' =>
      (r = .error .destinationUnreachable ∧ BestStopped T D orig dest [] (lg w') (1 + (T.nx * T.ny) * (T.nx * T.ny)) False ∧ dest ≠ orig ∧
        ∀ x ∈ answers (lg w'), x.1 ≠ dest) ∨
      ((r = .error .loop ∨ r = .error .invalidMovement ∨ ∃ path, r = .ok path ∧ IsPath (aroundWalls T []) D orig path dest) ∧
         ((∀ e ∈ lg w', ∀ q, e.2.2 = some q → q = neighbour e.1 e.2.1) → r = .error .loop ∨ ∃ path, r = .ok path ∧ IsPath (granted (lg w')) D orig path dest) ∧
        BestStopped T D orig dest [] (lg w') (1 + (T.nx * T.ny) * (T.nx * T.ny)) True) := by
  unfold Astar.searchPathM
  obtain ⟨st, h1, h2⟩ := AstarIter.post_new (T := T) (R := R) (D := D) hC ho hw
  refine .code_bind h1 ?_
  refine (Astar.post_searchLoop hT hC hM hgo hd fuel h2 hfuel ⟨_, hM.default, (fun p d h => by cases h), by simp⟩ (by simp)).bind fun r w' hr => ?_
  rw [hw] at hr
  rcases hr with ⟨rfl, h3⟩ | ⟨c', rfl, ⟨done, hdd, g, hg, ha, hin⟩, h4⟩
  · exact .pure (.inl ⟨rfl, h3⟩)
  · simp only
    rcases camefromIntoPath_spec hT M c' g ho hd (fun p hp => hM.get hg hp) with ⟨x, -⟩ | ⟨-, ⟨path, x, -, y⟩ | ⟨n, x, -, y⟩ | ⟨x, -, y⟩⟩
    · exact absurd x (hin _ hdd).2
    · exact .code y (.inr ⟨.inr (.inr ⟨path, rfl, x.isPath (fun p d h => (ha p d h).1) hd⟩), fun hadj => .inr ⟨path, rfl, granted_of_src hadj ha x⟩, h4⟩)
    · exact .code y (.inr ⟨.inr (.inl rfl), fun hadj => absurd x (not_stuck_of_src hadj (fun p d h => (ha p d h).2) hin hdd), h4⟩)
    · exact .code y (.inr ⟨.inl rfl, fun _ => .inl rfl, h4⟩)

end

/-! ### Uniform-cost search -/

/-- Costs are below the limit. -/
def ucsCap [Target] : Nat := usizeMax.toNat

theorem ucs_cap [Target] {T : PosTy} {small : Prop} {B : Int} : Cap T small B ucsCap := by
  intro v h _
  simp only [ucsCap]
  omega

section
variable {T : PosTy} {C : MapImpl Int} {R : C.σ → (P2 → Int) → Prop} {M : MapImpl (Option Dir)} {RM : M.σ → (P2 → Option Dir) → Prop} {P : Prop}
  {go : P2 → Dir → Eff W (Option (P2 × Int))} {lg : W → GoLog} {D : Bool} {orig dest : P2} {small : Prop} {B : Int}

/-- A closure that answers positions of the grid and keeps a log of its calls, without the costs, at `lg`. If `small`, the costs are at most `B`. -/
def LogsCost (T : PosTy) (P : Prop) (go : P2 → Dir → Eff W (Option (P2 × Int))) (lg : W → GoLog) (small : Prop) (B : Int) : Prop :=
  ∀ p d w, InGrid T p → Eff.Post P (go p d) w fun a w' =>
    (∀ q x, a = some (q, x) → InGrid T q ∧ 0 ≤ x ∧ (small → x ≤ B)) ∧ lg w' = lg w ++ [(p, d, a.map Prod.fst)]

theorem ucsCap_eq [Target] : ((ucsCap : Nat) : Int) = limit := by
  rw [ucsCap, Int.toNat_of_nonneg (Int.le_of_lt usizeMax_pos), usizeMax_eq]

/-- What an addition of costs may do: give the sum, wrap around or panic. -/
theorem usize_add_cases [Target] {a b : Int} (h : 0 ≤ a + b) :
    (∃ v, IntTy.usize.add a b = .ok v ∧ 0 ≤ v ∧ (a + b ≤ usizeMax → v = a + b)) ∨
    (IntTy.usize.add a b = .panic ∧ Target.checks = true ∧ usizeMax < a + b) := by
  have hl := limit_pos
  rw [usizeMax_eq]
  by_cases hov : a + b ≤ limit
  · exact .inl ⟨a + b, IntTy.usize_add ⟨h, hov⟩, h, fun _ => rfl⟩
  · have hn : ¬ IntTy.usize.Has (a + b) := by rw [IntTy.usize_has]; omega
    by_cases hc : Target.checks = true
    · exact .inr ⟨by rw [IntTy.add, IntTy.arith_checks hc, if_neg hn], hc, by omega⟩
    · refine .inl ⟨IntTy.usize.cast (a + b), by rw [IntTy.add, IntTy.arith, if_neg hn, if_neg hc], ?_, fun h => absurd h hov⟩
      rw [IntTy.cast, IntTy.usize_lo, Int.add_zero]
      exact Int.emod_nonneg _ (by rw [IntTy.usize_hi]; omega)

/-- The state of the iterator. -/
def UcsIter.XInv [Target] (T : PosTy) (R : C.σ → (P2 → Int) → Prop) (D : Bool) (orig : P2) (small : Prop) (B : Int) (done : List P2) (log : GoLog) (st : UcsIter C)
    (p : Option P2) (m : Nat) : Prop :=
  ∃ c, R st.cost c ∧ Sqrid.XInv T D orig small B done log { c, heap := st.frontier } ∧ xMeasure T ucsCap { c, heap := st.frontier } ≤ m ∧
    ∀ q, p = some q → c q < usizeMax ∧ q ∈ done

theorem UcsIter.post_relax [Target] (hC : C.Sim T 0 R) (hB : small → 0 ≤ B ∧ B * ((T.nx * T.ny : Nat) : Int) < usizeMax) (hP : ¬ small → Target.checks = true → P)
    (hgo : LogsCost T P go lg small B) {p : P2} (hp : InGrid T p)
    {done : List P2} {st : UcsIter C} {w : W} {m : Nat} {d : Dir} (hD : Allowed D d) (h : UcsIter.XInv T R D orig small B done (lg w) st (some p) m) :
    Eff.Post P (UcsIter.relaxM C go p st d) w fun st' w' =>
      UcsIter.XInv T R D orig small B done (lg w') st' (some p) m ∧ Grows (lg w) (lg w') [(p, d)] := by
  obtain ⟨c, hR, H, hm, hcp⟩ := h
  obtain ⟨hcp, hpd⟩ := hcp p rfl
  have h0 := H.nonneg p
  simp only at h0
  unfold UcsIter.relaxM
  refine (hgo p d w hp).bind fun a w' ha => ?_
  obtain ⟨h1, h2⟩ := ha
  have hc : Grows (lg w) (lg w') [(p, d)] := by rw [h2]; exact .one ..
  cases a with
  | none =>
    refine .pure ⟨⟨c, hR, ?_, hm, fun q hq => by injection hq with hq; exact hq ▸ ⟨hcp, hpd⟩⟩, hc⟩
    rw [h2]; exact H.answer fun _ q hq => by cases hq
  | some qx =>
    obtain ⟨q, x⟩ := qx
    obtain ⟨hq, hx0, hxB⟩ := h1 q x rfl
    simp only
    refine .code_bind (hC.get hR hp) ?_
    rcases usize_add_cases (by omega : 0 ≤ c p + x) with ⟨v, hv, hv0, hvr⟩ | ⟨hv, hck, hov⟩
    · refine .code_bind hv (.code_bind (hC.get hR hq) ?_)
      have hsv : small → v = c p + x := fun hs => hvr (by
        have := H.fits hs (hB hs) hcp (hxB hs)
        have := hB hs
        simp only at *
        omega)
      by_cases hlt : v < c q
      · rw [if_pos hlt]
        obtain ⟨s', h6, h7⟩ := hC.set v hR hq
        obtain ⟨g1, g2, g3⟩ := H.push hB ucs_cap hcp hpd hq hv0 (fun hs => by have := hsv hs; have := hxB hs; simp only; omega) hlt v hD
        refine .code_bind h6 (.code_bind (Dir.flip_eq d) (.pure ⟨⟨_, h7, ?_, Nat.le_trans g2 hm, fun r hr => ?_⟩, hc⟩))
        · rw [h2]; exact g1
        · injection hr with hr; subst hr; exact ⟨Int.lt_of_le_of_lt g3 hcp, hpd⟩
      · rw [if_neg hlt]
        refine .pure ⟨⟨c, hR, ?_, hm, fun r hr => by injection hr with hr; exact hr ▸ ⟨hcp, hpd⟩⟩, hc⟩
        rw [h2]
        refine H.answer fun hs q' hq' => ?_
        injection hq' with hq'
        subst hq'
        have := H.fits hs (hB hs) hcp (hxB hs)
        have := hB hs
        have := hsv hs
        simp only at *
        omega
    · have hns : ¬ small := fun hs => by
        have := H.fits hs (hB hs) hcp (hxB hs)
        have := hB hs
        simp only at *
        omega
      refine .inl ⟨?_, hP hns hck⟩
      rw [hv]
      rfl

theorem UcsIter.post_next [Target] (hT : T.Searchable) (hC : C.Sim T 0 R) (hB : small → 0 ≤ B ∧ B * ((T.nx * T.ny : Nat) : Int) < usizeMax) (hP : ¬ small → Target.checks = true → P) (hgo : LogsCost T P go lg small B) 
    {done : List P2} {st : UcsIter C} {w : W} {m : Nat} (h : UcsIter.XInv T R D orig small B done (lg w) st none m) :
    Eff.Post P (UcsIter.nextM C D go st) w fun a w' =>
      (a = (none, st) ∧ st.frontier = [] ∧ w' = w) ∨
      ∃ mov, a.1 = some mov ∧ 0 < m ∧ UcsIter.XInv T R D orig small B (done ++ [mov.1]) (lg w') a.2 none (m - 1) ∧ Grows (lg w) (lg w') (sweep D [mov.1]) ∧
        InGrid T mov.1 ∧ Allowed D mov.2 ∧ Src orig done (lg w) mov := by
  obtain ⟨c, hR, H, hm, -⟩ := h
  unfold UcsIter.nextM
  cases hpop : Heap.pop st.frontier with
  | none => exact .pure (.inl ⟨rfl, Heap.pop_none hpop, rfl⟩)
  | some er =>
    obtain ⟨⟨pr, mov⟩, rest⟩ := er
    obtain ⟨g1, g2, g3, g4, g5, g6⟩ := H.pop (N := ucsCap) hpop
    simp only at g1 g2 g3 g4 g5 g6
    simp only
    refine .code_bind (toList_dirs D) ?_
    have step : Eff.Post P ((clockwise D).foldlM (UcsIter.relaxM C go mov.1) { st with frontier := rest }) w fun st' w' =>
        UcsIter.XInv T R D orig small B (done ++ [mov.1]) (lg w') st' (some mov.1) (m - 1) ∧ Grows (lg w) (lg w') ((clockwise D).map fun d => (mov.1, d)) := by
      refine Eff.Post.foldlM (fun ds st' w' => UcsIter.XInv T R D orig small B (done ++ [mov.1]) (lg w') st' (some mov.1) (m - 1) ∧
        Grows (lg w) (lg w') (ds.map fun d => (mov.1, d))) (clockwise D) ?_ _ ⟨⟨c, hR, g1, by simp only; omega, ?_⟩, .refl _⟩
      · rintro ds d post s w' hl ⟨h1, h2⟩
        refine (UcsIter.post_relax hC hB hP hgo g4 (mem_clockwise.1 (by rw [hl]; simp)) h1).mono fun s' w'' ⟨h4, h5⟩ => ⟨h4, ?_⟩
        rw [List.map_append]; exact h2.trans h5
      · intro q hq; injection hq with hq; exact hq ▸ ⟨g3, by simp⟩
    refine step.bind fun st' w' ⟨h1, h2⟩ => .pure (.inr ⟨mov, rfl, by omega, ?_, by simpa [sweep] using h2, g4, g5, g6⟩)
    obtain ⟨c', k1, k2, k3, -⟩ := h1
    exact ⟨c', k1, k2, k3, fun q hq => by cases hq⟩

theorem UcsIter.post_new [Target] (hC : C.Sim T 0 R) (ho : InGrid T orig) (hB0 : small → 0 ≤ B) {log : GoLog} (hlog : log = []) :
    ∃ st, UcsIter.new C orig = .ok st ∧ UcsIter.XInv T R D orig small B [] log st none (1 + ucsCap * (T.nx * T.ny)) := by
  obtain ⟨s', h1, h2⟩ := hC.set 0 (hC.new usizeMax) ho
  refine ⟨{ cost := s', frontier := Heap.push [] (0, orig, Dir.N) }, ?_, ⟨_, h2, ?_, xMeasure_init, fun q hq => by cases hq⟩⟩
  · unfold UcsIter.new; rw [h1]; rfl
  · subst hlog; exact XInv.init ho hB0

/-- Any number of items. -/
theorem UcsIter.post_take [Target] (hT : T.Searchable) (hC : C.Sim T 0 R) (hB : small → 0 ≤ B ∧ B * ((T.nx * T.ny : Nat) : Int) < usizeMax) (hP : ¬ small → Target.checks = true → P) (hgo : LogsCost T P go lg small B) (n : Nat) :
    ∀ {pre : List P2} {st : UcsIter C} {w : W} {m : Nat}, UcsIter.XInv T R D orig small B pre (lg w) st none m →
    Eff.Post P (takeM (UcsIter.nextM C D go) n st) w fun a w' =>
      UcsIter.XInv T R D orig small B (pre ++ a.1.map Prod.fst) (lg w') a.2 none (m - a.1.length) ∧ Grows (lg w) (lg w') (sweep D (a.1.map Prod.fst)) ∧
      a.1.length ≤ m ∧ (∀ mov ∈ a.1, InGrid T mov.1 ∧ (mov = (orig, Dir.N) ∨ mov ∈ answers (lg w'))) ∧ (a.1.length < n → a.2.frontier = []) := by
  induction n with
  | zero => intro pre st w m h; exact .pure ⟨by simpa using h, .refl _, by simp, by simp, by simp⟩
  | succ n ih =>
    intro pre st w m h
    refine (UcsIter.post_next (D := D) hT hC hB hP hgo h).bind fun a w' ha => ?_
    obtain ⟨o, st'⟩ := a
    rcases ha with ⟨h1, h2, h3⟩ | ⟨mov, h1, hm, h2, h3, h4, h5, h6⟩
    · injection h1 with h1 h1'
      subst h1 h1' h3
      exact .pure ⟨by simpa using h, .refl _, by simp, by simp, fun _ => h2⟩
    · simp only at h1 h2
      subst h1
      refine (ih h2).bind fun b w'' ⟨k1, k2, k3, k4, k5⟩ => ?_
      obtain ⟨l, st''⟩ := b
      simp only at k1 k2 k3 k4 k5
      refine .pure ⟨?_, ?_, ?_, ?_, ?_⟩
      · have e : m - (l.length + 1) = m - 1 - l.length := by omega
        simpa [e] using k1
      · have := h3.trans k2
        rw [← sweep_append] at this
        simpa using this
      · simp only [List.length_cons]; omega
      · intro x hx
        rcases List.mem_cons.1 hx with rfl | hx
        · exact ⟨h4, h6.answer.imp id fun h => k2.mem (h3.mem h)⟩
        · exact k4 x hx
      · intro hlt
        exact k5 (by simpa using hlt)

theorem Ucs.post_searchLoop [Target] (hT : T.Searchable) (hC : C.Sim T 0 R) (hM : M.Sim T none RM) (hB : small → 0 ≤ B ∧ B * ((T.nx * T.ny : Nat) : Int) < usizeMax) (hP : ¬ small → Target.checks = true → P) (hgo : LogsCost T P go lg small B) (n : Nat) :
    ∀ {pre : List P2} {st : UcsIter C} {c : M.σ} {w : W} {m : Nat}, UcsIter.XInv T R D orig small B pre (lg w) st none m → m < n → MapSrc T RM D orig pre (lg w) c → dest ∉ pre →
    Eff.Post P (Ucs.searchLoopM M C D go dest n st c) w fun r w' =>
      (r = .error .destinationUnreachable ∧ BestStopped T D orig dest (lg w) (lg w') m False ∧ dest ≠ orig ∧ (small → ∀ x ∈ answers (lg w'), x.1 ≠ dest)) ∨
      ∃ c', r = .ok c' ∧ (∃ done, dest ∈ done ∧ MapSrc T RM D orig done (lg w') c') ∧ BestStopped T D orig dest (lg w) (lg w') m True := by
  induction n with
  | zero => intro pre st c w m h hm; omega
  | succ n ih =>
    intro pre st c w m h hm hc hpre
    refine (UcsIter.post_next (D := D) hT hC hB hP hgo h).bind fun a w' ha => ?_
    obtain ⟨o, st'⟩ := a
    rcases ha with ⟨h1, h2, h3⟩ | ⟨mov, h1, hm0, h2, h3, h4, h5, h6⟩
    · injection h1 with h1 h1'
      subst h1 h1' h3
      obtain ⟨cc, k1, k2, k3, -⟩ := h
      have hno : ∀ q, cc q < usizeMax → q ≠ dest := by
        rintro q hq rfl
        rcases k2.seen q hq with h | ⟨e, he, -⟩
        · exact hpre h
        · simp only at he; rw [h2] at he; cases he
      refine .pure (.inl ⟨rfl, ⟨[], .refl _, by simp, by simp, .inr ⟨id, by simp⟩⟩, ?_, fun hs x hx => ?_⟩)
      · exact (hno orig k2.org).symm
      · exact hno _ (k2.ans hs x hx)
    · simp only at h1 h2
      subst h1
      obtain ⟨p, d⟩ := mov
      simp only at h2 h3 h4 h5 h6
      obtain ⟨c', h7, h8⟩ := hc.set hM h4 h5 h6 h3.sub
      refine .code_bind h7 ?_
      by_cases hpd : p = dest
      · rw [if_pos hpd]
        refine .pure (.inr ⟨c', rfl, ⟨_, by simp [hpd], h8⟩, [(p, d)], by simpa using h3, by simp; omega, ?_, .inl ⟨trivial, [], d, by simp [hpd], by simp⟩⟩)
        · intro x hx
          rw [List.mem_singleton.1 hx]
          exact ⟨h4, h6.answer.imp id h3.mem⟩
      · rw [if_neg hpd]
        refine (ih h2 (by omega) h8 (by simp [hpre, Ne.symm hpd])).mono fun r w'' hr => ?_
        have ext : ∀ {f : Prop}, BestStopped T D orig dest (lg w') (lg w'') (m - 1) f → BestStopped T D orig dest (lg w) (lg w'') m f := by
          rintro f ⟨items, k1, k2, k3, k4⟩
          refine ⟨(p, d) :: items, ?_, by simp; omega, ?_, ?_⟩
          · have := h3.trans k1
            rw [← sweep_append] at this
            simpa using this
          · intro x hx
            rcases List.mem_cons.1 hx with rfl | hx
            · exact ⟨h4, h6.answer.imp id fun h => k1.mem (h3.mem h)⟩
            · exact k3 x hx
          · rcases k4 with ⟨hf, pr, e, k5, k6⟩ | ⟨hf, k5⟩
            · exact .inl ⟨hf, (p, d) :: pr, e, by simp [k5], by simp only [List.map_cons, List.mem_cons, not_or]; exact ⟨Ne.symm hpd, k6⟩⟩
            · exact .inr ⟨hf, by simp only [List.map_cons, List.mem_cons, not_or]; exact ⟨Ne.symm hpd, k5⟩⟩
        rcases hr with ⟨k1, k2, k3⟩ | ⟨c'', k1, k2, k3⟩
        · exact .inl ⟨k1, ext k2, k3⟩
        · exact .inr ⟨c'', k1, k2, ext k3⟩

/-- The whole search. -/
theorem Ucs.post_searchPath [Target] (hT : T.Searchable) (hC : C.Sim T 0 R) (hM : M.Sim T none RM) (hB : small → 0 ≤ B ∧ B * ((T.nx * T.ny : Nat) : Int) < usizeMax) (hP : ¬ small → Target.checks = true → P) (hgo : LogsCost T P go lg small B) (ho : InGrid T orig)
    (hd : InGrid T dest) (fuel : Nat) (hfuel : 1 + ucsCap * (T.nx * T.ny) < fuel) {w : W} (hw : lg w = []) :
    Eff.Post P (Ucs.searchPathM T M C D go orig dest fuel) w fun r w' =>
      (r = .error .destinationUnreachable ∧ BestStopped T D orig dest [] (lg w') (1 + ucsCap * (T.nx * T.ny)) False ∧ dest ≠ orig ∧
        (small → ∀ x ∈ answers (lg w'), x.1 ≠ dest)) ∨
      ((r = .error .loop ∨ r = .error .invalidMovement ∨ ∃ path, r = .ok path ∧ IsPath (aroundWalls T []) D orig path dest) ∧
         ((∀ e ∈ lg w', ∀ q, e.2.2 = some q → q = neighbour e.1 e.2.1) → r = .error .loop ∨ ∃ path, r = .ok path ∧ IsPath (granted (lg w')) D orig path dest) ∧
        BestStopped T D orig dest [] (lg w') (1 + ucsCap * (T.nx * T.ny)) True) := by
  unfold Ucs.searchPathM
  obtain ⟨st, h1, h2⟩ := UcsIter.post_new (T := T) (R := R) (small := small) (B := B) (D := D) hC ho (fun hs => (hB hs).1) hw
  refine .code_bind h1 ?_
  refine (Ucs.post_searchLoop hT hC hM hB hP hgo fuel h2 hfuel ⟨_, hM.default, (fun p d h => by cases h), by simp⟩ (by simp)).bind fun r w' hr => ?_
  rw [hw] at hr
  rcases hr with ⟨rfl, h3⟩ | ⟨c', rfl, ⟨done, hdd, g, hg, ha, hin⟩, h4⟩
  · exact .pure (.inl ⟨rfl, h3⟩)
  · simp only
    rcases camefromIntoPath_spec hT M c' g ho hd (fun p hp => hM.get hg hp) with ⟨x, -⟩ | ⟨-, ⟨path, x, -, y⟩ | ⟨n, x, -, y⟩ | ⟨x, -, y⟩⟩
    · exact absurd x (hin _ hdd).2
    · exact .code y (.inr ⟨.inr (.inr ⟨path, rfl, x.isPath (fun p d h => (ha p d h).1) hd⟩), fun hadj => .inr ⟨path, rfl, granted_of_src hadj ha x⟩, h4⟩)
    · exact .code y (.inr ⟨.inr (.inl rfl), fun hadj => absurd x (not_stuck_of_src hadj (fun p d h => (ha p d h).2) hin hdd), h4⟩)
    · exact .code y (.inr ⟨.inl rfl, fun _ => .inl rfl, h4⟩)

end

end Sqrid
