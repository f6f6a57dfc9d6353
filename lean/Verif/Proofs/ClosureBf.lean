import Verif.Proofs.Closure
/-! Breadth-first traversal with any closure. -/

namespace Sqrid

open Spec

variable {W W' α β σ : Type}

/-! ### Postconditions -/

/-- The computation panics, which is acceptable only if `P`, or ends with a result and a world that satisfy `Q`. -/
def Eff.Post (P : Prop) (m : Eff W α) (w : W) (Q : α → W → Prop) : Prop :=
  (m w = .panic ∧ P) ∨ ∃ a w', m w = .ok (a, w') ∧ Q a w'

namespace Eff.Post

variable {P : Prop} {w : W}

theorem pure {a : α} {Q : α → W → Prop} (h : Q a w) : Eff.Post P (Pure.pure a) w Q := .inr ⟨a, w, rfl, h⟩

theorem bind {m : Eff W α} {f : α → Eff W β} {Q : α → W → Prop} {R : β → W → Prop} (h : Eff.Post P m w Q)
    (hf : ∀ a w', Q a w' → Eff.Post P (f a) w' R) : Eff.Post P (m >>= f) w R := by
  have e : (m >>= f) w = m w >>= fun s => f s.1 s.2 := rfl
  rcases h with ⟨h, hP⟩ | ⟨a, w', h, hQ⟩
  · exact .inl ⟨by rw [e, h]; rfl, hP⟩
  · rcases hf a w' hQ with ⟨h', hP⟩ | ⟨b, w'', h', hR⟩
    · exact .inl ⟨by rw [e, h]; exact h', hP⟩
    · exact .inr ⟨b, w'', by rw [e, h]; exact h', hR⟩

theorem mono {m : Eff W α} {Q R : α → W → Prop} (h : Eff.Post P m w Q) (hQR : ∀ a w', Q a w' → R a w') : Eff.Post P m w R := by
  rcases h with h | ⟨a, w', h, hQ⟩
  · exact .inl h
  · exact .inr ⟨a, w', h, hQR a w' hQ⟩

theorem code {x : Out α} {a : α} {Q : α → W → Prop} (hx : x = .ok a) (h : Q a w) : Eff.Post P (Eff.code x) w Q :=
  .inr ⟨a, w, by rw [hx]; rfl, h⟩

theorem code_bind {x : Out α} {a : α} {f : α → Eff W β} {R : β → W → Prop} (hx : x = .ok a) (h : Eff.Post P (f a) w R) :
    Eff.Post P (Eff.code x >>= f) w R :=
  Eff.Post.bind (Q := fun b w' => b = a ∧ w' = w) (Eff.Post.code hx ⟨rfl, rfl⟩) (by rintro _ _ ⟨rfl, rfl⟩; exact h)

theorem foldlM {f : σ → α → Eff W σ} (I : List α → σ → W → Prop) (l : List α)
    (h : ∀ pre a post s w, l = pre ++ a :: post → I pre s w → Eff.Post P (f s a) w (I (pre ++ [a]))) (s : σ) (h0 : I [] s w) :
    Eff.Post P (l.foldlM f s) w (I l) := by
  suffices H : ∀ (post pre : List α) (s : σ) (w : W), l = pre ++ post → I pre s w → Eff.Post P (post.foldlM f s) w (I l) from H l [] s w rfl h0
  intro post
  induction post with
  | nil => intro pre s w hl hI; rw [List.append_nil] at hl; subst hl; exact .pure hI
  | cons a post ih =>
    intro pre s w hl hI
    rw [List.foldlM_cons]
    exact (h pre a post s w hl hI).bind fun s' w' hI' => ih (pre ++ [a]) s' w' (by simp [hl]) hI'

end Eff.Post

/-! ### The traversal -/

abbrev GoLog := List (P2 × Dir × Option P2)

theorem firstAnswers_snoc (skip : P2) (log : GoLog) (e : P2 × Dir × Option P2) :
    firstAnswers skip (log ++ [e]) = match e.2.2 with
      | none => firstAnswers skip log
      | some q => if q = skip ∨ q ∈ (firstAnswers skip log).map Prod.fst then firstAnswers skip log else firstAnswers skip log ++ [(q, opposite e.2.1)] := by
  simp only [firstAnswers, List.foldl_append, List.foldl_cons, List.foldl_nil]
  cases e.2.2 <;> rfl

/-- What is known of the items found so far, `disc`; `od` says whether the origin has been marked as visited, after the first `k` calls. -/
structure Found (T : PosTy) (orig : P2) (k : Nat) (od : Bool) (disc : List (P2 × Dir)) (log : GoLog) (vis : P2 → Bool) : Prop where
  nodup : (disc.map Prod.fst).Nodup
  inGrid : ∀ m ∈ disc, InGrid T m.1
  vis : ∀ q, vis q = true ↔ q ∈ disc.map Prod.fst ∨ (od = true ∧ q = orig)
  firsts : firstAnswers orig log = disc.filter fun m => decide (m.1 ≠ orig)
  old : od = true → k ≤ log.length
  org : orig ∈ disc.map Prod.fst ↔ ∃ e ∈ (if od then log.take k else log), e.2.2 = some orig
  src : ∀ pre m post, disc = pre ++ m :: post → ∃ p, (p = orig ∨ p ∈ pre.map Prod.fst) ∧ (p, opposite m.2, some m.1) ∈ log

theorem Found.call_none {T : PosTy} {orig : P2} {k : Nat} {od : Bool} {disc : List (P2 × Dir)} {log : GoLog} {vis : P2 → Bool}
    (h : Found T orig k od disc log vis) (p : P2) (d : Dir) : Found T orig k od disc (log ++ [(p, d, none)]) vis := by
  refine ⟨h.nodup, h.inGrid, h.vis, ?_, ?_, ?_, fun pre m post hm => (h.src pre m post hm).imp fun _ h => ⟨h.1, List.mem_append_left _ h.2⟩⟩
  · rw [firstAnswers_snoc]; exact h.firsts
  · intro ho; have := h.old ho; simp; omega
  · rw [h.org]
    cases od with
    | false => simp
    | true => rw [if_pos rfl, if_pos rfl, List.take_append_of_le_length (h.old rfl)]

theorem Found.call_seen {T : PosTy} {orig : P2} {k : Nat} {od : Bool} {disc : List (P2 × Dir)} {log : GoLog} {vis : P2 → Bool}
    (h : Found T orig k od disc log vis) (p : P2) (d : Dir) {q : P2} (hq : vis q = true) : Found T orig k od disc (log ++ [(p, d, some q)]) vis := by
  refine ⟨h.nodup, h.inGrid, h.vis, ?_, ?_, ?_, fun pre m post hm => (h.src pre m post hm).imp fun _ h => ⟨h.1, List.mem_append_left _ h.2⟩⟩
  · rw [firstAnswers_snoc]
    simp only
    rw [if_pos, h.firsts]
    by_cases e : q = orig
    · exact .inl e
    · right
      rw [h.firsts]
      rcases (h.vis q).1 hq with h1 | ⟨-, h1⟩
      · obtain ⟨m, hm, rfl⟩ := List.mem_map.1 h1
        exact List.mem_map.2 ⟨m, List.mem_filter.2 ⟨hm, by simpa using e⟩, rfl⟩
      · exact absurd h1 e
  · intro ho; have := h.old ho; simp; omega
  · cases od with
    | false =>
      rw [h.org]
      simp only [Bool.false_eq_true, if_false, List.mem_append, List.mem_singleton]
      constructor
      · rintro ⟨e, he, ho⟩; exact ⟨e, .inl he, ho⟩
      · rintro ⟨e, he | rfl, ho⟩
        · exact ⟨e, he, ho⟩
        · simp only at ho
          injection ho with ho
          subst ho
          rcases (h.vis q).1 hq with h1 | ⟨h1, -⟩
          · have := h.org.1 h1; simpa using this
          · cases h1
    | true => rw [h.org, if_pos rfl, if_pos rfl, List.take_append_of_le_length (h.old rfl)]

theorem Found.call_new {T : PosTy} {orig : P2} {k : Nat} {od : Bool} {disc : List (P2 × Dir)} {log : GoLog} {vis : P2 → Bool}
    (h : Found T orig k od disc log vis) {p : P2} (hp : p = orig ∨ p ∈ disc.map Prod.fst) (d : Dir) {q : P2} (hg : InGrid T q) (hq : vis q = false) :
    Found T orig k od (disc ++ [(q, opposite d)]) (log ++ [(p, d, some q)]) (upd vis q true) := by
  have hnd : q ∉ disc.map Prod.fst := fun hc => by have := (h.vis q).2 (.inl hc); rw [hq] at this; cases this
  refine ⟨?_, ?_, ?_, ?_, ?_, ?_, ?_⟩
  · rw [List.map_append, List.nodup_append]
    refine ⟨h.nodup, by simp, fun a ha b hb => ?_⟩
    simp only [List.map_cons, List.map_nil, List.mem_singleton] at hb
    subst hb
    rintro rfl
    exact hnd ha
  · intro m hm
    rcases List.mem_append.1 hm with hm | hm
    · exact h.inGrid m hm
    · rw [List.mem_singleton] at hm; subst hm; exact hg
  · intro r
    by_cases e : r = q
    · subst e; simp
    · rw [upd_other _ _ e, h.vis]
      simp [e]
  · rw [firstAnswers_snoc, List.filter_append, ← h.firsts]
    simp only
    by_cases e : q = orig
    · rw [if_pos (.inl e)]; simp [e]
    · rw [if_neg]
      · congr 1
        simp [e]
      · rintro (hc | hc)
        · exact e hc
        · rw [h.firsts] at hc
          obtain ⟨m, hm, hmq⟩ := List.mem_map.1 hc
          exact hnd (List.mem_map.2 ⟨m, (List.mem_filter.1 hm).1, hmq⟩)
  · intro ho; have := h.old ho; simp; omega
  · cases od with
    | false =>
      have hi := h.org
      simp only [Bool.false_eq_true, if_false] at hi ⊢
      simp only [List.map_append, List.mem_append, List.map_cons, List.map_nil, List.mem_singleton]
      constructor
      · rintro (h1 | h1)
        · obtain ⟨e, he, ho⟩ := hi.1 h1; exact ⟨e, .inl he, ho⟩
        · exact ⟨_, .inr rfl, by rw [h1]⟩
      · rintro ⟨e, he | rfl, ho⟩
        · exact .inl (hi.2 ⟨e, he, ho⟩)
        · simp only at ho; injection ho with ho; exact .inr ho.symm
    | true =>
      have hi := h.org
      rw [if_pos rfl] at hi ⊢
      rw [List.take_append_of_le_length (h.old rfl), ← hi]
      simp only [List.map_append, List.mem_append, List.map_cons, List.map_nil, List.mem_singleton]
      constructor
      · rintro (h1 | h1)
        · exact h1
        · exfalso
          have := (h.vis orig).2 (.inr ⟨rfl, rfl⟩)
          rw [h1, hq] at this; cases this
      · exact .inl
  · intro pre m post hm
    rcases List.eq_nil_or_concat post with rfl | ⟨post', m', rfl⟩
    · obtain ⟨h1, h2⟩ := List.append_inj' hm rfl
      injection h2 with h2
      subst h1 h2
      exact ⟨p, hp, by simp [opposite_opposite]⟩
    · rw [List.concat_eq_append, ← List.cons_append, ← List.append_assoc] at hm
      obtain ⟨h1, -⟩ := List.append_inj' hm rfl
      exact (h.src pre m post' h1).imp fun _ h => ⟨h.1, List.mem_append_left _ h.2⟩

/-- Marking a position that has been found. -/
theorem Found.mark {T : PosTy} {orig : P2} {k : Nat} {disc : List (P2 × Dir)} {log : GoLog} {vis : P2 → Bool}
    (h : Found T orig k true disc log vis) {p : P2} (hp : p ∈ disc.map Prod.fst) : Found T orig k true disc log (upd vis p true) := by
  refine ⟨h.nodup, h.inGrid, fun q => ?_, h.firsts, h.old, h.org, h.src⟩
  by_cases e : q = p
  · subst e; simp [hp]
  · rw [upd_other _ _ e, h.vis]

/-- Marking the origin. -/
theorem Found.mark_orig {T : PosTy} {orig : P2} {k : Nat} {disc : List (P2 × Dir)} {log : GoLog} {vis : P2 → Bool}
    (h : Found T orig k false disc log vis) (hk : log.length = k) : Found T orig k true disc log (upd vis orig true) := by
  refine ⟨h.nodup, h.inGrid, fun q => ?_, h.firsts, fun _ => by omega, ?_, h.src⟩
  · by_cases e : q = orig
    · subst e; simp
    · rw [upd_other _ _ e, h.vis]; simp [e]
  · rw [h.org, if_pos rfl, ← hk, List.take_length]
    simp

section
variable {T : PosTy} {S : SetImpl} {R : S.σ → (P2 → Bool) → Prop} {P : Prop} {go : P2 → Dir → Eff W (Option P2)}
  {lg : W → GoLog} {K : W → β} {D : Bool} {orig : P2}

/-- A closure that answers positions of the grid, keeps a log of its calls at `lg` and leaves `K` alone. -/
def Logs (T : PosTy) (P : Prop) (go : P2 → Dir → Eff W (Option P2)) (lg : W → GoLog) (K : W → β) : Prop :=
  ∀ p d w, InGrid T p → Eff.Post P (go p d) w fun a w' => (∀ q, a = some q → InGrid T q) ∧ lg w' = lg w ++ [(p, d, a)] ∧ K w' = K w

/-- The state of the iterator. -/
def BfIter.Inv (T : PosTy) (R : S.σ → (P2 → Bool) → Prop) (orig : P2) (k : Nat) (od : Bool) (pre : List (P2 × Dir)) (st : BfIter S) (log : GoLog) : Prop :=
  ∃ f, R st.visited f ∧ Found T orig k od (pre ++ st.nextfront) log f

theorem BfIter.post_visitDir (hS : S.Sim T R) (hgo : Logs T P go lg K) {p : P2} (hp : InGrid T p) {k : Nat} {od : Bool} {pre : List (P2 × Dir)} (hps : p = orig ∨ p ∈ pre.map Prod.fst)
    {st : BfIter S} {w : W} (d : Dir) (h : BfIter.Inv T R orig k od pre st (lg w)) :
    Eff.Post P (BfIter.visitDirM S go p st d) w fun st' w' =>
      BfIter.Inv T R orig k od pre st' (lg w') ∧ calls (lg w') = calls (lg w) ++ [(p, d)] ∧ K w' = K w := by
  obtain ⟨f, hR, hF⟩ := h
  refine (hgo p d w hp).bind fun a w' ha => ?_
  obtain ⟨h1, h2, h3⟩ := ha
  have hc : calls (lg w') = calls (lg w) ++ [(p, d)] := by rw [h2]; simp [calls]
  cases a with
  | none =>
    refine .pure ⟨⟨f, hR, ?_⟩, hc, h3⟩
    rw [h2]; exact hF.call_none p d
  | some q =>
    have hq := h1 q rfl
    simp only
    refine .code_bind (hS.contains hR hq) ?_
    cases hv : f q with
    | true =>
      refine .pure ⟨⟨f, hR, ?_⟩, hc, h3⟩
      rw [h2]; exact hF.call_seen p d hv
    | false =>
      obtain ⟨s', h4, h5⟩ := hS.insert hR hq
      refine .code_bind (Dir.flip_eq d) (.code_bind h4 (.pure ⟨⟨_, h5, ?_⟩, hc, h3⟩))
      rw [h2, ← List.append_assoc]
      exact hF.call_new (hps.imp id fun h => by rw [List.map_append, List.mem_append]; exact .inl h) d hq hv

theorem BfIter.post_dirs (hS : S.Sim T R) (hgo : Logs T P go lg K) {p : P2} (hp : InGrid T p) {k : Nat} {od : Bool} {pre : List (P2 × Dir)} (hps : p = orig ∨ p ∈ pre.map Prod.fst)
    {st : BfIter S} {w : W} (h : BfIter.Inv T R orig k od pre st (lg w)) :
    Eff.Post P ((clockwise D).foldlM (BfIter.visitDirM S go p) st) w fun st' w' =>
      BfIter.Inv T R orig k od pre st' (lg w') ∧ calls (lg w') = calls (lg w) ++ sweep D [p] ∧ K w' = K w := by
  refine (Eff.Post.foldlM (fun ds st' w' => BfIter.Inv T R orig k od pre st' (lg w') ∧ calls (lg w') = calls (lg w) ++ ds.map (fun d => (p, d)) ∧
    K w' = K w) (clockwise D) ?_ st ⟨h, by simp, rfl⟩).mono fun st' w' ⟨h1, h2, h3⟩ => ⟨h1, by rw [h2]; simp [sweep], h3⟩
  rintro ds d post s w' - ⟨h1, h2, h3⟩
  refine (BfIter.post_visitDir hS hgo hp hps d h1).mono fun s' w'' ⟨h4, h5, h6⟩ => ⟨h4, ?_, h6.trans h3⟩
  rw [h5, h2]; simp

/-- Taking in the origin. -/
theorem BfIter.post_new (hS : S.Sim T R) (hgo : Logs T P go lg K) (ho : InGrid T orig) {w : W} (hw : lg w = []) :
    Eff.Post P (BfIter.newM S D go orig) w fun st w' =>
      BfIter.Inv T R orig (clockwise D).length true [] st (lg w') ∧ calls (lg w') = sweep D [orig] ∧ K w' = K w := by
  unfold BfIter.newM
  refine Eff.Post.bind (Q := fun a w' => BfIter.Inv T R orig (clockwise D).length true [] a.2 (lg w') ∧ calls (lg w') = sweep D [orig] ∧ K w' = K w) ?_
    fun a w' h => .pure h
  unfold BfIter.nextM
  simp only [List.isEmpty_cons, Bool.false_eq_true, if_false]
  rw [List.foldlM_cons]
  simp only [List.foldlM_nil]
  rw [bind_pure]
  refine Eff.Post.bind (Q := fun st w' => BfIter.Inv T R orig (clockwise D).length true [] st (lg w') ∧ calls (lg w') = sweep D [orig] ∧ K w' = K w) ?_
    fun st w' h => .pure h
  unfold BfIter.visitPosM
  refine .code_bind (toList_dirs D) ?_
  have h0 : BfIter.Inv T R orig (clockwise D).length false [] ({ visited := S.default, nextfront := [] } : BfIter S) (lg w) := by
    refine ⟨_, hS.default, by simp, by simp, by simp, ?_, (fun h => by cases h), ?_, by simp⟩
    · rw [hw]; rfl
    · rw [hw]; simp
  refine (BfIter.post_dirs (D := D) hS hgo ho (.inl rfl) h0).bind fun st w' ⟨h1, h2, h3⟩ => ?_
  obtain ⟨f, hR, hF⟩ := h1
  obtain ⟨s', h4, h5⟩ := hS.insert hR ho
  have hc : calls (lg w') = sweep D [orig] := by rw [h2, hw]; rfl
  refine .code_bind h4 (.pure ⟨⟨_, h5, hF.mark_orig ?_⟩, hc, h3⟩)
  have := congrArg List.length hc
  simpa [calls, sweep] using this

theorem sweep_append (D : Bool) (ps qs : List P2) : sweep D (ps ++ qs) = sweep D ps ++ sweep D qs := by simp [sweep]

/-- One layer. -/
theorem BfIter.post_next (hS : S.Sim T R) (hgo : Logs T P go lg K) {k : Nat} {pre : List (P2 × Dir)} {st : BfIter S} {w : W}
    (h : BfIter.Inv T R orig k true pre st (lg w)) :
    Eff.Post P (BfIter.nextM S D go st) w fun a w' =>
      a.1 = (if st.nextfront = [] then none else some st.nextfront) ∧ BfIter.Inv T R orig k true (pre ++ st.nextfront) a.2 (lg w') ∧
      calls (lg w') = calls (lg w) ++ sweep D (st.nextfront.map Prod.fst) ∧ K w' = K w ∧ (st.nextfront = [] → a.2.nextfront = []) := by
  unfold BfIter.nextM
  by_cases he : st.nextfront = []
  · simp only [he, List.isEmpty_nil, if_true]
    refine .pure ⟨rfl, ?_, by simp [sweep], rfl, fun _ => rfl⟩
    obtain ⟨f, hR, hF⟩ := h
    refine ⟨f, hR, ?_⟩
    rw [he] at hF
    simpa using hF
  · have he' : st.nextfront.isEmpty = false := by simpa using he
    simp only [he', Bool.false_eq_true, if_false, if_neg he]
    refine (Eff.Post.foldlM (fun done st' w' => BfIter.Inv T R orig k true (pre ++ st.nextfront) st' (lg w') ∧
      calls (lg w') = calls (lg w) ++ sweep D (done.map Prod.fst) ∧ K w' = K w) st.nextfront ?_ _ ⟨?_, by simp [sweep], rfl⟩).bind
      fun st' w' ⟨h1, h2, h3⟩ => .pure ⟨rfl, h1, h2, h3, fun h => absurd h he⟩
    · rintro done m post s w' hl ⟨h1, h2, h3⟩
      have hm : m ∈ pre ++ st.nextfront := by rw [hl]; simp
      have hmg : InGrid T m.1 := by
        obtain ⟨f, -, hF⟩ := h1
        exact hF.inGrid m (by rw [List.mem_append]; exact .inl hm)
      unfold BfIter.visitPosM
      refine .code_bind (toList_dirs D) ?_
      refine (BfIter.post_dirs (D := D) hS hgo hmg (.inr (List.mem_map_of_mem hm)) h1).bind fun st' w'' ⟨h4, h5, h6⟩ => ?_
      obtain ⟨f, hR, hF⟩ := h4
      obtain ⟨s', h7, h8⟩ := hS.insert hR hmg
      refine .code_bind h7 (.pure ⟨⟨_, h8, hF.mark ?_⟩, ?_, h6.trans h3⟩)
      · rw [List.map_append, List.mem_append]; exact .inl (List.mem_map_of_mem hm)
      · rw [h5, h2, List.map_append, sweep_append, List.append_assoc]; rfl
    · obtain ⟨f, hR, hF⟩ := h
      exact ⟨f, hR, by simpa using hF⟩

theorem BfIter.post_take (hS : S.Sim T R) (hgo : Logs T P go lg K) {k : Nat} (n : Nat) : ∀ {pre : List (P2 × Dir)} {st : BfIter S} {w : W},
    BfIter.Inv T R orig k true pre st (lg w) → calls (lg w) = sweep D (orig :: pre.map Prod.fst) →
    Eff.Post P (takeM (BfIter.nextM S D go) n st) w fun a w' =>
      BfIter.Inv T R orig k true (pre ++ a.1.flatten) a.2 (lg w') ∧ calls (lg w') = sweep D (orig :: (pre ++ a.1.flatten).map Prod.fst) ∧
      (∀ l ∈ a.1, l ≠ []) ∧ (a.1.length < n → a.2.nextfront = []) ∧ K w' = K w := by
  induction n with
  | zero => intro pre st w h hc; exact .pure ⟨by simpa using h, by simpa using hc, by simp, by simp, rfl⟩
  | succ n ih =>
    intro pre st w h hc
    refine (BfIter.post_next (D := D) hS hgo h).bind fun a w' ⟨h1, h2, h3, h4, h4'⟩ => ?_
    obtain ⟨o, st'⟩ := a
    simp only at h1 h2 h4'
    by_cases he : st.nextfront = []
    · rw [if_pos he] at h1
      subst h1
      rw [he] at h2 h3
      refine .pure ⟨by simpa using h2, ?_, by simp, fun _ => h4' he, h4⟩
      rw [h3, hc]; simp [sweep]
    · rw [if_neg he] at h1
      subst h1
      have hc' : calls (lg w') = sweep D (orig :: (pre ++ st.nextfront).map Prod.fst) := by
        rw [h3, hc, ← sweep_append]; simp
      refine (ih h2 hc').bind fun b w'' ⟨h5, h6, h7, h8, h9⟩ => ?_
      obtain ⟨l, st''⟩ := b
      refine .pure ⟨?_, ?_, ?_, ?_, h9.trans h4⟩
      · simpa using h5
      · simpa using h6
      · intro l' hl'
        rcases List.mem_cons.1 hl' with rfl | hl'
        · exact he
        · exact h7 l' hl'
      · intro hlt
        exact h8 (by simpa using hlt)

theorem Found.length_le {T : PosTy} {orig : P2} {k : Nat} {od : Bool} {disc : List (P2 × Dir)} {log : GoLog} {vis : P2 → Bool}
    (h : Found T orig k od disc log vis) : disc.length ≤ T.nx * T.ny := by
  have := nodup_length_le h.nodup (fun p hp => by obtain ⟨m, hm, rfl⟩ := List.mem_map.1 hp; exact h.inGrid m hm)
  simpa using this

/-- The whole traversal. -/
theorem BfIter.post_collect (hS : S.Sim T R) (hgo : Logs T P go lg K) {k : Nat} (n : Nat) : ∀ {pre : List (P2 × Dir)} {st : BfIter S} {w : W},
    BfIter.Inv T R orig k true pre st (lg w) → calls (lg w) = sweep D (orig :: pre.map Prod.fst) → T.nx * T.ny < n + pre.length →
    Eff.Post P (collectM (BfIter.nextM S D go) n st) w fun layers w' =>
      (∃ f, Found T orig k true (pre ++ layers.flatten) (lg w') f) ∧ calls (lg w') = sweep D (orig :: (pre ++ layers.flatten).map Prod.fst) ∧
      (∀ l ∈ layers, l ≠ []) ∧ K w' = K w := by
  induction n with
  | zero =>
    intro pre st w h hc hn
    obtain ⟨f, -, hF⟩ := h
    have := hF.length_le
    rw [List.length_append] at this
    omega
  | succ n ih =>
    intro pre st w h hc hn
    refine (BfIter.post_next (D := D) hS hgo h).bind fun a w' ⟨h1, h2, h3, h4, h4'⟩ => ?_
    obtain ⟨o, st'⟩ := a
    simp only at h1 h2 h4'
    by_cases he : st.nextfront = []
    · rw [if_pos he] at h1
      subst h1
      rw [he] at h3
      obtain ⟨f, -, hF⟩ := h2
      rw [he, h4' he] at hF
      refine .pure ⟨⟨f, by simpa using hF⟩, ?_, by simp, h4⟩
      rw [h3, hc]; simp [sweep]
    · rw [if_neg he] at h1
      subst h1
      have hc' : calls (lg w') = sweep D (orig :: (pre ++ st.nextfront).map Prod.fst) := by
        rw [h3, hc, ← sweep_append]; simp
      have hl : 0 < st.nextfront.length := List.length_pos_iff.2 he
      refine (ih h2 hc' (by rw [List.length_append]; omega)).bind fun layers w'' ⟨h5, h6, h7, h9⟩ => ?_
      refine .pure ⟨?_, ?_, ?_, h9.trans h4⟩
      · simpa using h5
      · simpa using h6
      · intro l' hl'
        rcases List.mem_cons.1 hl' with rfl | hl'
        · exact he
        · exact h7 l' hl'

theorem Bf.post_iterAll (hS : S.Sim T R) (hgo : Logs T P go lg K) (ho : InGrid T orig) (fuel : Nat) (hf : T.nx * T.ny < fuel) {w : W} (hw : lg w = []) :
    Eff.Post P (Bf.iterAllM S D go orig fuel) w fun layers w' =>
      (∃ f, Found T orig (clockwise D).length true layers.flatten (lg w') f) ∧ calls (lg w') = sweep D (orig :: layers.flatten.map Prod.fst) ∧
      (∀ l ∈ layers, l ≠ []) ∧ K w' = K w := by
  refine (BfIter.post_new (D := D) hS hgo ho hw).bind fun st w' ⟨h1, h2, h3⟩ => ?_
  refine (BfIter.post_collect hS hgo fuel h1 (by simpa using h2) (by simpa using hf)).mono fun layers w'' ⟨h4, h5, h6, h7⟩ => ?_
  exact ⟨by simpa using h4, by simpa using h5, h6, h7.trans h3⟩

end

end Sqrid
