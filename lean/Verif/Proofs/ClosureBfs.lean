import Verif.Proofs.ClosureBf
/-! Breadth-first search with any closures. -/

namespace Sqrid

open Spec

variable {W : Type}

theorem Found.allowed {T : PosTy} {D : Bool} {orig : P2} {k : Nat} {od : Bool} {disc : List (P2 × Dir)} {log : GoLog} {vis : P2 → Bool} {ps : List P2}
    (h : Found T orig k od disc log vis) (hc : calls log = sweep D ps) {m : P2 × Dir} (hm : m ∈ disc) : Allowed D m.2 := by
  obtain ⟨pre, post, hpp⟩ := List.append_of_mem hm
  obtain ⟨p, -, hp⟩ := h.src pre m post hpp
  have : (p, opposite m.2) ∈ calls log := List.mem_map.2 ⟨_, hp, rfl⟩
  rw [hc, sweep, List.mem_flatMap] at this
  obtain ⟨q, -, hq⟩ := this
  obtain ⟨d, hd, he⟩ := List.mem_map.1 hq
  injection he with _ he
  subst he
  exact allowed_opposite.1 (mem_clockwise.1 hd)

/-- What following the directions of the map back to the origin gives is a path. -/
theorem Spec.Arrives.isPath {T : PosTy} {map : P2 → Option Dir} {orig : P2} {D : Bool} (hmap : ∀ p d, map p = some d → Allowed D d) {p : P2} {path : List Dir}
    (h : Arrives T map orig p path) (hp : InGrid T p) : IsPath (aroundWalls T []) D orig path p := by
  induction h with
  | here => exact isPath_nil
  | step h1 h2 h3 h4 ih =>
    rename_i q d l
    refine isPath_append (ih h3) (isPath_single (allowed_opposite.2 (hmap _ _ h2)) ?_)
    rw [aroundWalls, neighbour_opposite, if_pos ⟨hp, by simp⟩]

section
variable {T : PosTy} {S : SetImpl} {R : S.σ → (P2 → Bool) → Prop} {M : MapImpl (Option Dir)} {RM : M.σ → (P2 → Option Dir) → Prop} {P : Prop}
  {go : P2 → Dir → Eff W (Option P2)} {found : P2 → Eff W Bool} {lg : W → GoLog} {tl : W → List (P2 × Bool)} {D : Bool} {orig : P2}

/-- A predicate that keeps a log of its calls at `tl` and leaves `lg` alone. -/
def Logs1 (T : PosTy) (P : Prop) (found : P2 → Eff W Bool) (tl : W → List (P2 × Bool)) (lg : W → GoLog) : Prop :=
  ∀ p w, InGrid T p → Eff.Post P (found p) w fun a w' => tl w' = tl w ++ [(p, a)] ∧ lg w' = lg w

/-- A map with the movements of a list. -/
def MapOf (RM : M.σ → (P2 → Option Dir) → Prop) (l : List (P2 × Dir)) (c : M.σ) : Prop := ∃ g, RM c g ∧ ∀ p d, g p = some d ↔ (p, d) ∈ l


/-- The tests that did not find the goal. -/
def misses (l : List (P2 × Dir)) : List (P2 × Bool) := l.map fun m => (m.1, false)

theorem Bf.post_scanLayer (hM : M.Sim T none RM) (hf : Logs1 T P found tl lg) (l : List (P2 × Dir)) :
    ∀ {done : List (P2 × Dir)} {c : M.σ} {w : W}, (∀ m ∈ l, InGrid T m.1) → ((done ++ l).map Prod.fst).Nodup → MapOf RM done c →
    Eff.Post P (Bf.scanLayerM M found l c) w fun a w' => lg w' = lg w ∧
      ((a.2 = none ∧ MapOf RM (done ++ l) a.1 ∧ tl w' = tl w ++ misses l) ∨
       ∃ pre m post, l = pre ++ m :: post ∧ a.2 = some m.1 ∧ MapOf RM (done ++ pre ++ [m]) a.1 ∧ tl w' = tl w ++ misses pre ++ [(m.1, true)]) := by
  induction l with
  | nil => intro done c w hl hn hc; exact .pure ⟨rfl, .inl ⟨rfl, by simpa using hc, by simp [misses]⟩⟩
  | cons m l ih =>
    intro done c w hl hn hc
    obtain ⟨p, d⟩ := m
    obtain ⟨g, hg, ha⟩ := hc
    have hp := hl (p, d) (by simp)
    obtain ⟨c', h1, h2⟩ := hM.set (some d) hg hp
    have hnp : ∀ e, (p, e) ∉ done := by
      intro e he
      rw [List.map_append, List.nodup_append] at hn
      exact hn.2.2 p (List.mem_map_of_mem he) p (by simp) rfl
    have ha' : MapOf RM (done ++ [(p, d)]) c' := by
      refine ⟨_, h2, fun q e => ?_⟩
      by_cases h : q = p
      · subst h
        rw [upd_same]
        have := hnp e
        simp only [Option.some.injEq, List.mem_append, List.mem_singleton, Prod.mk.injEq, true_and]
        constructor
        · rintro rfl; exact .inr rfl
        · rintro (h | rfl)
          · exact absurd h this
          · rfl
      · rw [upd_other _ _ h, ha]; simp [h]
    unfold Bf.scanLayerM
    refine .code_bind h1 ((hf p w hp).bind fun hit w' ⟨h3, h4⟩ => ?_)
    cases hit with
    | true => exact .pure ⟨h4, .inr ⟨[], (p, d), l, rfl, rfl, by simpa using ha', by rw [h3]; simp [misses]⟩⟩
    | false =>
      refine (ih (fun m hm => hl m (by simp [hm])) (by simpa using hn) ha').mono fun a w'' ⟨h5, h6⟩ => ⟨h5.trans h4, ?_⟩
      rcases h6 with ⟨h6, h7, h8⟩ | ⟨pre, m, post, h6, h7, h8, h9⟩
      · exact .inl ⟨h6, by simpa using h7, by rw [h8, h3]; simp [misses]⟩
      · exact .inr ⟨(p, d) :: pre, m, post, by simp [h6], h7, by simpa using h8, by rw [h9, h3]; simp [misses]⟩

/-- What a search has done when it stops: the steps from the positions `disc` were taken, and the positions `more` were also found. -/
def Stopped (T : PosTy) (D : Bool) (orig : P2) (log : GoLog) (disc more : List (P2 × Dir)) : Prop :=
  (∃ k f, Found T orig k true (disc ++ more) log f) ∧ calls log = sweep D (orig :: disc.map Prod.fst)

theorem Bf.post_searchLoop (hS : S.Sim T R) (hM : M.Sim T none RM) (hgo : Logs T P go lg tl) (hf : Logs1 T P found tl lg) {k : Nat} (n : Nat) :
    ∀ {pre : List (P2 × Dir)} {st : BfIter S} {c : M.σ} {w : W},
    BfIter.Inv T R orig k true pre st (lg w) → calls (lg w) = sweep D (orig :: pre.map Prod.fst) → T.nx * T.ny < n + pre.length → MapOf RM pre c →
    tl w = misses pre →
    Eff.Post P (Bf.searchLoopM S M D go found n st c) w fun r w' => ∃ disc more, Stopped T D orig (lg w') disc more ∧
      ((r = .error .destinationUnreachable ∧ more = [] ∧ tl w' = misses disc) ∨
       ∃ a m b c', disc = a ++ m :: b ∧ r = .ok (m.1, c') ∧ MapOf RM (a ++ [m]) c' ∧ tl w' = misses a ++ [(m.1, true)]) := by
  induction n with
  | zero =>
    intro pre st c w h hc hn
    obtain ⟨f, -, hF⟩ := h
    have := hF.length_le
    rw [List.length_append] at this
    omega
  | succ n ih =>
    intro pre st c w h hc hn hm ht
    refine (BfIter.post_next (D := D) hS hgo h).bind fun a w' ⟨h1, h2, h3, h4, h4'⟩ => ?_
    obtain ⟨o, st'⟩ := a
    simp only at h1 h2 h4'
    by_cases he : st.nextfront = []
    · rw [if_pos he] at h1
      subst h1
      rw [he] at h3
      obtain ⟨f, -, hF⟩ := h2
      rw [he, h4' he] at hF
      refine .pure ⟨pre, [], ⟨⟨k, f, by simpa using hF⟩, ?_⟩, .inl ⟨rfl, rfl, h4.trans ht⟩⟩
      rw [h3, hc]; simp [sweep]
    · rw [if_neg he] at h1
      subst h1
      have hc' : calls (lg w') = sweep D (orig :: (pre ++ st.nextfront).map Prod.fst) := by
        rw [h3, hc, ← sweep_append]; simp
      have hlen : 0 < st.nextfront.length := List.length_pos_iff.2 he
      have hl : (∀ m ∈ st.nextfront, InGrid T m.1) ∧ ((pre ++ st.nextfront).map Prod.fst).Nodup := by
        obtain ⟨f, -, hF⟩ := h2
        refine ⟨fun m hm => hF.inGrid m (by simp [hm]), ?_⟩
        have := hF.nodup
        rw [List.map_append, List.nodup_append] at this
        exact this.1
      refine (Bf.post_scanLayer hM hf st.nextfront hl.1 hl.2 hm).bind fun b w'' ⟨h5, h6⟩ => ?_
      obtain ⟨c', hit⟩ := b
      rcases h6 with ⟨h6, h7, h8⟩ | ⟨a, m, b, h6, h7, h8, h9⟩
      · simp only at h6 h7
        subst h6
        refine ih (pre := pre ++ st.nextfront) ?_ ?_ ?_ h7 ?_
        · rw [h5]; exact h2
        · rw [h5]; exact hc'
        · rw [List.length_append]; omega
        · rw [h8, h4, ht]; simp [misses]
      · simp only at h7 h8
        subst h7
        obtain ⟨f, -, hF⟩ := h2
        refine .pure ⟨pre ++ st.nextfront, st'.nextfront, ⟨⟨k, f, by rw [h5]; exact hF⟩, by rw [h5]; exact hc'⟩,
          .inr ⟨pre ++ a, m, b, c', by rw [h6]; simp, rfl, by simpa using h8, ?_⟩⟩
        rw [h9, h4, ht]; simp [misses]

/-- The way back from a position that was found, when the closure only answers neighbours. -/
theorem Found.arrives {k : Nat} {od : Bool} {disc : List (P2 × Dir)} {log : GoLog} {vis : P2 → Bool} {ps : List P2} {g : P2 → Option Dir}
    (h : Found T orig k od disc log vis) (ho : InGrid T orig) (hc : calls log = sweep D ps) (hadj : ∀ e ∈ log, ∀ q, e.2.2 = some q → q = neighbour e.1 e.2.1)
    {scan : List (P2 × Dir)} (hscan : scan <+: disc) (hg : ∀ p d, g p = some d ↔ (p, d) ∈ scan) (n : Nat) :
    ∀ pre m post, scan = pre ++ m :: post → pre.length ≤ n →
      ∃ path, Arrives T g orig m.1 path ∧ path.length ≤ pre.length + 1 ∧ IsPath (granted log) D orig path m.1 := by
  induction n using Nat.strongRecOn with
  | _ n ih =>
    intro pre m post hs hn
    by_cases hmo : m.1 = orig
    · exact ⟨[], hmo ▸ .here, by simp, hmo ▸ isPath_nil⟩
    · obtain ⟨rest, hrest⟩ := hscan
      have hd : disc = pre ++ m :: (post ++ rest) := by rw [← hrest, hs]; simp
      obtain ⟨p, hp, hlog⟩ := h.src pre m _ hd
      have hmp := hadj _ hlog _ rfl
      simp only at hmp
      have hpm : neighbour m.1 m.2 = p := by
        have := neighbour_opposite p (opposite m.2)
        rwa [opposite_opposite, ← hmp] at this
      have hal : Allowed D m.2 := h.allowed hc (by rw [hd]; simp)
      have hgm : g m.1 = some m.2 := (hg _ _).2 (by rw [hs]; simp)
      have hstep : granted log p (opposite m.2) = some m.1 := by
        rw [granted, if_pos (by rw [← hmp]; exact hlog), ← hmp]
      rcases hp with rfl | hp
      · refine ⟨[] ++ [opposite m.2], .step hmo hgm (hpm ▸ ho) (hpm ▸ .here), by simp, ?_⟩
        exact isPath_single (allowed_opposite.2 hal) hstep
      · obtain ⟨m', hm', rfl⟩ := List.mem_map.1 hp
        obtain ⟨a, b, hab⟩ := List.append_of_mem hm'
        have hlen : a.length < pre.length := by rw [hab]; simp
        obtain ⟨path, h1, h2, h3⟩ := ih a.length (by omega) a m' (b ++ m :: post) (by rw [hs, hab]; simp) (Nat.le_refl _)
        refine ⟨path ++ [opposite m.2], .step hmo hgm ?_ (hpm ▸ h1), by simp; omega, isPath_append h3 (isPath_single (allowed_opposite.2 hal) hstep)⟩
        rw [hpm]
        exact h.inGrid m' (by rw [hd, hab]; simp)

/-- The whole search. -/
theorem Bf.post_searchPath [Target] (hT : T.Searchable) (hS : S.Sim T R) (hM : M.Sim T none RM) (hgo : Logs T P go lg tl) (hf : Logs1 T P found tl lg)
    (ho : InGrid T orig) (fuel : Nat) (hfuel : T.nx * T.ny < fuel) {w : W} (hw : lg w = []) (ht : tl w = []) :
    Eff.Post P (Bf.searchPathM T S M D go orig found fuel) w fun r w' => ∃ disc more, Stopped T D orig (lg w') disc more ∧
      ((r = .error .destinationUnreachable ∧ more = [] ∧ tl w' = misses disc) ∨
       ∃ a m b, disc = a ++ m :: b ∧ tl w' = misses a ++ [(m.1, true)] ∧
         (r = .error .loop ∨ r = .error .invalidMovement ∨ ∃ path, r = .ok (m.1, path) ∧ IsPath (aroundWalls T []) D orig path m.1) ∧
         ((∀ e ∈ lg w', ∀ q, e.2.2 = some q → q = neighbour e.1 e.2.1) →
            (r = .error .loop ∧ T.nx * T.nx ≤ a.length) ∨ ∃ path, r = .ok (m.1, path) ∧ IsPath (granted (lg w')) D orig path m.1)) := by
  unfold Bf.searchPathM Bf.searchMapmovM
  refine Eff.Post.bind ((BfIter.post_new (D := D) hS hgo ho hw).bind fun st w' ⟨h1, h2, h3⟩ =>
    Bf.post_searchLoop hS hM hgo hf fuel h1 (by simpa using h2) (by simpa using hfuel) ⟨_, hM.default, by simp⟩ (h3.trans ht)) ?_
  rintro r w' ⟨disc, more, hst, ⟨rfl, hmo, ht'⟩ | ⟨a, m, b, c', h1, rfl, h3, ht'⟩⟩
  · exact .pure ⟨disc, more, hst, .inl ⟨rfl, hmo, ht'⟩⟩
  · simp only
    have hst' := hst
    obtain ⟨g, hg, hgl⟩ := h3
    obtain ⟨⟨k, f, hF⟩, hcl⟩ := hst'
    have hmg : InGrid T m.1 := hF.inGrid m (by rw [h1]; simp)
    have hne : g m.1 ≠ none := by rw [(hgl m.1 m.2).2 (by simp)]; exact fun h => by cases h
    have ha : ∀ p d, g p = some d → Allowed D d := by
      intro p d hpd
      have := (hgl p d).1 hpd
      exact hF.allowed (m := (p, d)) hcl (by rw [h1]; simp only [List.mem_append, List.mem_cons, List.mem_singleton, List.not_mem_nil, or_false] at this ⊢; tauto)
    have harr := fun hadj => hF.arrives (g := g) ho hcl hadj (scan := a ++ [m]) ⟨b ++ more, by rw [h1]; simp⟩ hgl a.length a m [] rfl (Nat.le_refl _)
    rcases camefromIntoPath_spec hT M c' g ho hmg (fun p hp => hM.get hg hp) with ⟨x, -⟩ | ⟨-, ⟨path, x, -, y⟩ | ⟨n, x, -, y⟩ | ⟨x, -, y⟩⟩
    · exact absurd x hne
    · refine .code_bind y (.pure ⟨disc, more, hst, .inr ⟨a, m, b, h1, ht', .inr (.inr ⟨path, rfl, x.isPath ha hmg⟩), fun hadj => ?_⟩⟩)
      obtain ⟨path', h4, -, h6⟩ := harr hadj
      exact .inr ⟨path, rfl, x.unique h4 ▸ h6⟩
    · refine .code_bind y (.pure ⟨disc, more, hst, .inr ⟨a, m, b, h1, ht', .inr (.inl rfl), fun hadj => ?_⟩⟩)
      obtain ⟨path', h4, -, h6⟩ := harr hadj
      exact absurd x (h4.not_stuck n)
    · refine .code_bind y (.pure ⟨disc, more, hst, .inr ⟨a, m, b, h1, ht', .inl rfl, fun hadj => .inl ⟨rfl, ?_⟩⟩⟩)
      obtain ⟨path', h4, h5, h6⟩ := harr hadj
      have := x path' h4
      omega

end

end Sqrid
