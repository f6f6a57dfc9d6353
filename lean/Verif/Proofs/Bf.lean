import Verif.Spec.Target
import Verif.Proofs.Paths
import Verif.Model.Bf
/-! Breadth-first traversal and search. -/

namespace Sqrid

open Spec

/-! ### Refinement: every implementation runs like the ideal one -/

section
variable {T : PosTy} {S : SetImpl} {R : S.σ → (P2 → Bool) → Prop} {go : GoFn}

/-- Related states of the iterator. -/
def BfIter.Rel (T : PosTy) (R : S.σ → (P2 → Bool) → Prop) (s : BfIter S) (t : BfIter SetImpl.ideal) : Prop :=
  R s.visited t.visited ∧ s.nextfront = t.nextfront ∧ ∀ m ∈ t.nextfront, InGrid T m.1

theorem BfIter.rel_visitDir (hS : S.Sim T R) (hgo : StaysIn T go) {p : P2} (hp : InGrid T p) (d : Dir) {s t} (h : BfIter.Rel T R s t) :
    Out.Rel (BfIter.Rel T R) (visitDir S go p s d) (visitDir SetImpl.ideal go p t d) := by
  unfold visitDir
  cases hg : go p d with
  | none => exact h
  | some q =>
    have hq := hgo p d q hp hg
    simp only
    rw [hS.rel_contains h.1 hq]
    refine Out.Rel.bind_same _ fun seen => ?_
    cases seen with
    | true => exact h
    | false =>
      refine Out.Rel.bind_same _ fun neg => ?_
      refine (hS.rel_insert h.1 hq).bind fun a b hab => ?_
      refine ⟨hab, by rw [h.2.1], fun m hm => ?_⟩
      rcases List.mem_append.1 hm with hm | hm
      · exact h.2.2 m hm
      · rw [List.mem_singleton] at hm; subst hm; exact hq

theorem BfIter.rel_visitPos (hS : S.Sim T R) (hgo : StaysIn T go) (D : Bool) {m : P2 × Dir} (hm : InGrid T m.1) {s t} (h : BfIter.Rel T R s t) :
    Out.Rel (BfIter.Rel T R) (visitPos S D go s m) (visitPos SetImpl.ideal D go t m) := by
  unfold visitPos
  refine Out.Rel.bind_same _ fun dirs => ?_
  refine (Out.Rel.foldlM dirs (fun s t d _ h => BfIter.rel_visitDir hS hgo hm d h) s t h).bind fun s t h => ?_
  exact (hS.rel_insert h.1 hm).bind fun a b hab => ⟨hab, h.2⟩

theorem BfIter.rel_next (hS : S.Sim T R) (hgo : StaysIn T go) (D : Bool) {s t} (h : BfIter.Rel T R s t) :
    Out.Rel (fun a b => a.1 = b.1 ∧ (∀ l, b.1 = some l → ∀ m ∈ l, InGrid T m.1) ∧ BfIter.Rel T R a.2 b.2)
      (next S D go s) (next SetImpl.ideal D go t) := by
  unfold next
  rw [h.2.1]
  by_cases he : t.nextfront.isEmpty = true
  · simp only [he, if_true]
    refine ⟨rfl, ?_, h.1, rfl, ?_⟩
    · intro l hl; cases hl
    · intro m hm; cases hm
  · simp only [he]
    refine (Out.Rel.foldlM t.nextfront (fun s t m hm h' => BfIter.rel_visitPos hS hgo D (h.2.2 m hm) h') _ _ ?_).bind fun s' t' h' => ?_
    · exact ⟨h.1, rfl, by simp⟩
    · refine ⟨rfl, fun l hl => ?_, h'⟩
      injection hl with hl
      subst hl
      exact h.2.2

theorem BfIter.rel_new (hS : S.Sim T R) (hgo : StaysIn T go) (D : Bool) {orig : P2} (ho : InGrid T orig) :
    Out.Rel (BfIter.Rel T R) (BfIter.new S D go orig) (BfIter.new SetImpl.ideal D go orig) := by
  unfold BfIter.new
  refine (BfIter.rel_next hS hgo D (s := { visited := S.default, nextfront := [(orig, Dir.N)] }) ?_).bind fun a b h => h.2.2
  exact ⟨hS.default, rfl, fun m hm => by rw [List.mem_singleton] at hm; subst hm; exact ho⟩

theorem collectWith_rel {σ τ α : Type} {Q : σ → τ → Prop} {f : σ → Out (Option α × σ)} {g : τ → Out (Option α × τ)}
    (h : ∀ s t, Q s t → Out.Rel (fun a b => a.1 = b.1 ∧ Q a.2 b.2) (f s) (g t)) (fuel : Nat) : ∀ s t, Q s t →
    collectWith f fuel s = collectWith g fuel t := by
  induction fuel with
  | zero => intro s t _; rfl
  | succ n ih =>
    intro s t hQ
    apply Out.Rel.eq
    unfold collectWith
    refine (h s t hQ).bind fun a b hab => ?_
    obtain ⟨v, s'⟩ := a
    obtain ⟨v', t'⟩ := b
    obtain ⟨h1, h2⟩ := hab
    simp only at h1 h2
    subst h1
    cases v with
    | none => rfl
    | some a =>
      simp only
      rw [ih s' t' h2]
      exact Out.Rel.refl (fun _ => rfl) _

theorem Bf.iterAll_ideal (hS : S.Sim T R) (hgo : StaysIn T go) (D : Bool) {orig : P2} (ho : InGrid T orig) (fuel : Nat) :
    Bf.iterAll S D go orig fuel = Bf.iterAll SetImpl.ideal D go orig fuel := by
  apply Out.Rel.eq
  unfold Bf.iterAll
  refine (BfIter.rel_new hS hgo D ho).bind fun a b h => ?_
  rw [collectWith_rel (Q := BfIter.Rel T R) (fun s t h => (BfIter.rel_next hS hgo D h).mono fun a b h => ⟨h.1, h.2.2⟩) fuel a b h]
  exact Out.Rel.refl (fun _ => rfl) _

variable {M : MapImpl (Option Dir)} {RM : M.σ → (P2 → Option Dir) → Prop}

theorem Bf.rel_scanLayer (hM : M.Sim T none RM) (found : P2 → Bool) (l : List (P2 × Dir)) (hl : ∀ m ∈ l, InGrid T m.1) : ∀ {s f}, RM s f →
    Out.Rel (fun a b => RM a.1 b.1 ∧ a.2 = b.2) (Bf.scanLayer M found l s) (Bf.scanLayer (MapImpl.ideal none) found l f) := by
  induction l with
  | nil => intro s f h; exact ⟨h, rfl⟩
  | cons m l ih =>
    obtain ⟨p, d⟩ := m
    intro s f h
    unfold Bf.scanLayer
    refine (hM.rel_set h (hl (p, d) (by simp)) _).bind fun a b hab => ?_
    cases found p with
    | true => exact ⟨hab, rfl⟩
    | false => exact ih (fun m hm => hl m (by simp [hm])) hab

/-- Related results of `search_mapmov`. -/
def RelRes (T : PosTy) (RM : M.σ → (P2 → Option Dir) → Prop) (a : Res (P2 × M.σ)) (b : Res (P2 × (P2 → Option Dir))) : Prop :=
  match a, b with
  | .error e, .error e' => e = e'
  | .ok (p, s), .ok (q, f) => p = q ∧ RM s f ∧ InGrid T q
  | _, _ => False

theorem Bf.scanLayer_mem (l : List (P2 × Dir)) (found : P2 → Bool) : ∀ (f : P2 → Option Dir) r,
    Bf.scanLayer (MapImpl.ideal none) found l f = .ok r → ∀ p, r.2 = some p → ∃ m ∈ l, m.1 = p := by
  induction l with
  | nil => intro f r h p hp; injection h with h; subst h; cases hp
  | cons m l ih =>
    obtain ⟨q, d⟩ := m
    intro f r h p hp
    have e : Bf.scanLayer (MapImpl.ideal none) found ((q, d) :: l) f =
      if found q then .ok (upd f q (some d), some q) else Bf.scanLayer (MapImpl.ideal none) found l (upd f q (some d)) := rfl
    rw [e] at h
    cases hf : found q with
    | true =>
      rw [hf] at h
      injection h with h
      subst h
      injection hp with hp
      exact ⟨(q, d), by simp, hp⟩
    | false =>
      rw [hf] at h
      obtain ⟨m, hm, hmp⟩ := ih _ r h p hp
      exact ⟨m, by simp [hm], hmp⟩

theorem Bf.rel_searchLoop (hS : S.Sim T R) (hM : M.Sim T none RM) (hgo : StaysIn T go) (D : Bool) (found : P2 → Bool) (fuel : Nat) :
    ∀ {s t c f}, BfIter.Rel T R s t → RM c f →
    Out.Rel (RelRes T RM) (Bf.searchLoop S M D go found fuel s c) (Bf.searchLoop SetImpl.ideal (MapImpl.ideal none) D go found fuel t f) := by
  induction fuel with
  | zero => intros; trivial
  | succ n ih =>
    intro s t c f hst hcf
    unfold Bf.searchLoop
    refine (BfIter.rel_next hS hgo D hst).bind fun a b hab => ?_
    obtain ⟨v, s'⟩ := a
    obtain ⟨v', t'⟩ := b
    obtain ⟨h1, h2, h3⟩ := hab
    simp only at h1 h2 h3
    subst h1
    cases v with
    | none => exact rfl
    | some l =>
      simp only
      have hl := h2 l rfl
      have hmem := Bf.scanLayer_mem l found f
      have hrel := Bf.rel_scanLayer hM found l hl hcf
      revert hmem hrel
      generalize Bf.scanLayer M found l c = x
      generalize Bf.scanLayer (MapImpl.ideal none) found l f = y
      intro hmem hrel
      cases x <;> cases y <;> try (first | exact hrel.elim | trivial)
      rename_i a b
      obtain ⟨c', hit⟩ := a
      obtain ⟨f', hit'⟩ := b
      obtain ⟨h4, h5⟩ := hrel
      simp only at h4 h5
      subst h5
      cases hit with
      | none => exact ih h3 h4
      | some p =>
        obtain ⟨m, hm, hmp⟩ := hmem _ rfl p rfl
        exact ⟨rfl, h4, hmp ▸ hl m hm⟩

theorem Bf.searchPath_ideal [Target] (hT : T.WF) (hS : S.Sim T R) (hM : M.Sim T none RM) (hgo : StaysIn T go) (D : Bool) {orig : P2}
    (ho : InGrid T orig) (found : P2 → Bool) (fuel : Nat) :
    Bf.searchPath T S M D go orig found fuel = Bf.searchPath T SetImpl.ideal (MapImpl.ideal none) D go orig found fuel := by
  apply Out.Rel.eq
  unfold Bf.searchPath Bf.searchMapmov
  refine Out.Rel.bind (R := RelRes T RM) ?_ fun a b hab => ?_
  · exact (BfIter.rel_new hS hgo D ho).bind fun a b h => Bf.rel_searchLoop hS hM hgo D found fuel h hM.default
  · cases a with
    | error e =>
      cases b with
      | error e' => exact congrArg Except.error hab
      | ok b => exact hab.elim
    | ok a =>
      cases b with
      | error e' => exact hab.elim
      | ok b =>
        obtain ⟨p, s⟩ := a
        obtain ⟨q, f⟩ := b
        obtain ⟨h1, h2, h3⟩ := hab
        subst h1
        simp only
        rw [camefrom_ideal hM h2 hT h3]
        exact Out.Rel.refl (fun _ => rfl) _

end

/-! ### One layer of the ideal iterator -/

theorem BfIter.visitDir_ideal (go : GoFn) (p : P2) (st : BfIter SetImpl.ideal) (d : Dir) :
    BfIter.visitDir SetImpl.ideal go p st d = .ok (match go p d with
      | none => st
      | some q => if st.visited q then st else { visited := upd st.visited q true, nextfront := st.nextfront ++ [(q, opposite d)] }) := by
  unfold BfIter.visitDir
  cases go p d with
  | none => rfl
  | some q =>
    simp only
    show (if st.visited q then Out.ok st else _) = _
    by_cases h : st.visited q = true
    · rw [if_pos h, if_pos h]
    · rw [if_neg h, if_neg h, Dir.flip_eq]; rfl

/-- What processing the positions `done` does to the sets `vis0` (visited) and `nf` (next front, empty at the start), where `E p q` says that a step from
`p` leads to `q`. -/
structure LayerInv (go : GoFn) (vis0 : P2 → Bool) (ins : P2 → Prop) (E : P2 → Dir → Prop) (st : BfIter SetImpl.ideal) : Prop where
  vis : ∀ q, st.visited q = true ↔ vis0 q = true ∨ ins q ∨ ∃ p d, E p d ∧ go p d = some q
  front : ∀ q, (∃ d, (q, d) ∈ st.nextfront) ↔ vis0 q = false ∧ ∃ p d, E p d ∧ go p d = some q
  nodup : (st.nextfront.map Prod.fst).Nodup
  back : ∀ q d, (q, d) ∈ st.nextfront → ∃ p, E p (opposite d) ∧ go p (opposite d) = some q

theorem LayerInv.visitDir {go : GoFn} {vis0 : P2 → Bool} {ins : P2 → Prop} {E : P2 → Dir → Prop} {st : BfIter SetImpl.ideal}
    (h : LayerInv go vis0 ins E st) (hins : ∀ q, ins q → vis0 q = true) (p : P2) (d : Dir) {st' : BfIter SetImpl.ideal}
    (hst' : BfIter.visitDir SetImpl.ideal go p st d = .ok st') :
    LayerInv go vis0 ins (fun p' d' => E p' d' ∨ (p' = p ∧ d' = d)) st' := by
  rw [BfIter.visitDir_ideal] at hst'
  injection hst' with hst'
  subst hst'
  cases hg : go p d with
  | none =>
    simp only
    have hiff : ∀ q, (∃ p' d', (E p' d' ∨ (p' = p ∧ d' = d)) ∧ go p' d' = some q) ↔ ∃ p' d', E p' d' ∧ go p' d' = some q := by
      intro q
      constructor
      · rintro ⟨p', d', h1 | ⟨rfl, rfl⟩, h2⟩
        · exact ⟨p', d', h1, h2⟩
        · rw [hg] at h2; cases h2
      · rintro ⟨p', d', h1, h2⟩; exact ⟨p', d', .inl h1, h2⟩
    exact ⟨fun q => by rw [h.vis, hiff], fun q => by rw [h.front, hiff], h.nodup, fun q d hq => by
      obtain ⟨p', h1, h2⟩ := h.back q d hq; exact ⟨p', .inl h1, h2⟩⟩
  | some q0 =>
    simp only
    have hiff : ∀ q, (∃ p' d', (E p' d' ∨ (p' = p ∧ d' = d)) ∧ go p' d' = some q) ↔ q = q0 ∨ ∃ p' d', E p' d' ∧ go p' d' = some q := by
      intro q
      constructor
      · rintro ⟨p', d', h1 | ⟨rfl, rfl⟩, h2⟩
        · exact .inr ⟨p', d', h1, h2⟩
        · rw [hg] at h2; injection h2 with h2; exact .inl h2.symm
      · rintro (rfl | ⟨p', d', h1, h2⟩)
        · exact ⟨p, d, .inr ⟨rfl, rfl⟩, hg⟩
        · exact ⟨p', d', .inl h1, h2⟩
    by_cases hv : st.visited q0 = true
    · rw [if_pos hv]
      refine ⟨fun q => ?_, fun q => ?_, h.nodup, fun q d hq => ?_⟩
      · rw [hiff, h.vis]
        constructor
        · rintro (h1 | h1 | h1)
          · exact .inl h1
          · exact .inr (.inl h1)
          · exact .inr (.inr (.inr h1))
        · rintro (h1 | h1 | rfl | h1)
          · exact .inl h1
          · exact .inr (.inl h1)
          · exact (h.vis q).1 hv
          · exact .inr (.inr h1)
      · rw [hiff, h.front]
        constructor
        · rintro ⟨h1, h2⟩; exact ⟨h1, .inr h2⟩
        · rintro ⟨h1, rfl | h2⟩
          · refine ⟨h1, ?_⟩
            rcases (h.vis q).1 hv with h3 | h3 | h3
            · rw [h1] at h3; cases h3
            · have := hins q h3; rw [h1] at this; cases this
            · exact h3
          · exact ⟨h1, h2⟩
      · obtain ⟨p', h1, h2⟩ := h.back q d hq; exact ⟨p', .inl h1, h2⟩
    · rw [if_neg hv]
      have hv' : vis0 q0 = false := by
        cases hc : vis0 q0 with
        | false => rfl
        | true => exact absurd ((h.vis q0).2 (.inl hc)) hv
      refine ⟨fun q => ?_, fun q => ?_, ?_, fun q d' hq => ?_⟩
      · show upd st.visited q0 true q = true ↔ _
        rw [hiff]
        by_cases e : q = q0
        · subst e
          rw [upd_same]
          exact ⟨fun _ => .inr (.inr (.inl rfl)), fun _ => rfl⟩
        · rw [upd_other _ _ e, h.vis]
          simp only [e, false_or]
      · rw [hiff]
        simp only [List.mem_append, List.mem_singleton, Prod.mk.injEq]
        constructor
        · rintro ⟨d', h1 | ⟨rfl, -⟩⟩
          · obtain ⟨h2, h3⟩ := (h.front q).1 ⟨d', h1⟩
            exact ⟨h2, .inr h3⟩
          · exact ⟨hv', .inl rfl⟩
        · rintro ⟨h1, rfl | h2⟩
          · exact ⟨_, .inr ⟨rfl, rfl⟩⟩
          · obtain ⟨d', h3⟩ := (h.front q).2 ⟨h1, h2⟩
            exact ⟨d', .inl h3⟩
      · rw [List.map_append, List.nodup_append]
        refine ⟨h.nodup, by simp, fun a ha b hb => ?_⟩
        simp only [List.map_cons, List.map_nil, List.mem_singleton] at hb
        subst hb
        rintro rfl
        obtain ⟨⟨q, d'⟩, h1, rfl⟩ := List.mem_map.1 ha
        have h2 := (h.front q).1 ⟨d', h1⟩
        exact hv ((h.vis q).2 (.inr (.inr h2.2)))
      · rcases List.mem_append.1 hq with hq | hq
        · obtain ⟨p', h1, h2⟩ := h.back q d' hq; exact ⟨p', .inl h1, h2⟩
        · rw [List.mem_singleton] at hq
          injection hq with h1 h2
          subst h1 h2
          rw [opposite_opposite]
          exact ⟨p, .inr ⟨rfl, rfl⟩, hg⟩

theorem LayerInv.congr {go : GoFn} {vis0 : P2 → Bool} {ins ins' : P2 → Prop} {E E' : P2 → Dir → Prop} {st : BfIter SetImpl.ideal}
    (h : LayerInv go vis0 ins E st) (hi : ∀ q, ins q ↔ ins' q) (hE : ∀ p d, E p d ↔ E' p d) : LayerInv go vis0 ins' E' st := by
  obtain rfl : ins = ins' := funext fun q => propext (hi q)
  obtain rfl : E = E' := funext fun p => funext fun d => propext (hE p d)
  exact h

theorem LayerInv.visitPos {go : GoFn} {D : Bool} {vis0 : P2 → Bool} {pre : List (P2 × Dir)} {st : BfIter SetImpl.ideal}
    (h : LayerInv go vis0 (fun q => ∃ m ∈ pre, m.1 = q) (fun p d => (∃ m ∈ pre, m.1 = p) ∧ Allowed D d) st)
    (hins : ∀ m ∈ pre, vis0 m.1 = true) (m : P2 × Dir) :
    ∃ st', BfIter.visitPos SetImpl.ideal D go st m = .ok st' ∧
      LayerInv go vis0 (fun q => ∃ m' ∈ pre ++ [m], m'.1 = q) (fun p d => (∃ m' ∈ pre ++ [m], m'.1 = p) ∧ Allowed D d) st' := by
  unfold BfIter.visitPos
  rw [toList_dirs, Out.ok_bind]
  obtain ⟨st1, h1, h2⟩ := foldlM_inv (BfIter.visitDir SetImpl.ideal go m.1)
    (fun ds st => LayerInv go vis0 (fun q => ∃ m ∈ pre, m.1 = q) (fun p d => ((∃ m ∈ pre, m.1 = p) ∧ Allowed D d) ∨ (p = m.1 ∧ d ∈ ds)) st)
    (clockwise D) (by
      intro ds d post s hl hI
      refine ⟨_, BfIter.visitDir_ideal go m.1 s d, ?_⟩
      refine (hI.visitDir ?_ m.1 d (BfIter.visitDir_ideal go m.1 s d)).congr (fun _ => Iff.rfl) (fun p' d' => ?_)
      · rintro q ⟨m', hm', rfl⟩; exact hins m' hm'
      · simp only [List.mem_append, List.mem_singleton]
        constructor
        · rintro ((h1 | ⟨h1, h2⟩) | ⟨h1, h2⟩)
          · exact .inl h1
          · exact .inr ⟨h1, .inl h2⟩
          · exact .inr ⟨h1, .inr h2⟩
        · rintro (h1 | ⟨h1, h2 | h2⟩)
          · exact .inl (.inl h1)
          · exact .inl (.inr ⟨h1, h2⟩)
          · exact .inr ⟨h1, h2⟩) st (h.congr (fun _ => Iff.rfl) (fun p d => by simp))
  rw [h1, Out.ok_bind]
  refine ⟨_, rfl, fun q => ?_, fun q => ?_, h2.nodup, fun q d hq => ?_⟩
  · show upd st1.visited m.1 true q = true ↔ _
    have hE : (∃ p d, ((∃ m' ∈ pre ++ [m], m'.1 = p) ∧ Allowed D d) ∧ go p d = some q) ↔
        ∃ p d, (((∃ m ∈ pre, m.1 = p) ∧ Allowed D d) ∨ (p = m.1 ∧ d ∈ clockwise D)) ∧ go p d = some q := by
      constructor
      · rintro ⟨p, d, ⟨⟨m', hm', rfl⟩, ha⟩, hg⟩
        rcases List.mem_append.1 hm' with hm' | hm'
        · exact ⟨_, d, .inl ⟨⟨m', hm', rfl⟩, ha⟩, hg⟩
        · rw [List.mem_singleton] at hm'; subst hm'
          exact ⟨_, d, .inr ⟨rfl, mem_clockwise.2 ha⟩, hg⟩
      · rintro ⟨p, d, ⟨⟨m', hm', rfl⟩, ha⟩ | ⟨rfl, ha⟩, hg⟩
        · exact ⟨_, d, ⟨⟨m', by simp [hm'], rfl⟩, ha⟩, hg⟩
        · exact ⟨_, d, ⟨⟨m, by simp, rfl⟩, mem_clockwise.1 ha⟩, hg⟩
    rw [hE]
    by_cases e : q = m.1
    · subst e
      simp only [upd_same, true_iff]
      exact .inr (.inl ⟨m, by simp, rfl⟩)
    · rw [upd_other _ _ e, h2.vis]
      have : (∃ m' ∈ pre ++ [m], m'.1 = q) ↔ ∃ m' ∈ pre, m'.1 = q := by
        constructor
        · rintro ⟨m', hm', rfl⟩
          rcases List.mem_append.1 hm' with hm' | hm'
          · exact ⟨m', hm', rfl⟩
          · rw [List.mem_singleton] at hm'; subst hm'; exact absurd rfl e
        · rintro ⟨m', hm', rfl⟩; exact ⟨m', by simp [hm'], rfl⟩
      rw [this]
  · show (∃ d, (q, d) ∈ st1.nextfront) ↔ _
    rw [h2.front]
    refine and_congr_right fun _ => ?_
    constructor
    · rintro ⟨p, d, ⟨⟨m', hm', rfl⟩, ha⟩ | ⟨rfl, ha⟩, hg⟩
      · exact ⟨_, d, ⟨⟨m', by simp [hm'], rfl⟩, ha⟩, hg⟩
      · exact ⟨_, d, ⟨⟨m, by simp, rfl⟩, mem_clockwise.1 ha⟩, hg⟩
    · rintro ⟨p, d, ⟨⟨m', hm', rfl⟩, ha⟩, hg⟩
      rcases List.mem_append.1 hm' with hm' | hm'
      · exact ⟨_, d, .inl ⟨⟨m', hm', rfl⟩, ha⟩, hg⟩
      · rw [List.mem_singleton] at hm'; subst hm'
        exact ⟨_, d, .inr ⟨rfl, mem_clockwise.2 ha⟩, hg⟩
  · obtain ⟨p, h3, h4⟩ := h2.back q d hq
    refine ⟨p, ?_, h4⟩
    rcases h3 with ⟨⟨m', hm', rfl⟩, ha⟩ | ⟨rfl, ha⟩
    · exact ⟨⟨m', by simp [hm'], rfl⟩, ha⟩
    · exact ⟨⟨m, by simp, rfl⟩, mem_clockwise.1 ha⟩

/-- One call of `next` on a non-empty front, all of which, except for the last, is in the visited set. -/
theorem BfIter.next_layer {go : GoFn} {D : Bool} (vis0 : P2 → Bool) (front : List (P2 × Dir)) (hne : front ≠ [])
    (hvis : ∀ pre m post, front = pre ++ m :: post → ∀ x ∈ pre, vis0 x.1 = true) :
    ∃ st', BfIter.next SetImpl.ideal D go { visited := vis0, nextfront := front } = .ok (some front, st') ∧
      LayerInv go vis0 (fun q => ∃ m ∈ front, m.1 = q) (fun p d => (∃ m ∈ front, m.1 = p) ∧ Allowed D d) st' := by
  obtain ⟨st', h1, h2⟩ := foldlM_inv (BfIter.visitPos SetImpl.ideal D go)
    (fun pre st => LayerInv go vis0 (fun q => ∃ m ∈ pre, m.1 = q) (fun p d => (∃ m ∈ pre, m.1 = p) ∧ Allowed D d) st) front
    (fun pre m post s hl hI => hI.visitPos (hvis pre m post hl) m) { visited := vis0, nextfront := [] }
    ⟨fun q => by simp, fun q => by simp, by simp, by simp⟩
  refine ⟨st', ?_, h2⟩
  unfold BfIter.next
  have : front.isEmpty = false := by cases front with
    | nil => exact absurd rfl hne
    | cons a l => rfl
  simp only [this]
  rw [if_neg (by simp), h1]
  rfl

/-! ### The layers -/

/-- The positions of the layer `k`: those at distance `k + 1`, and the origin in the first layer if a step leads from it to itself. -/
def InLayer (go : GoFn) (D : Bool) (orig : P2) (k : Nat) (q : P2) : Prop :=
  IsDist go D orig q (k + 1) ∨ (k = 0 ∧ q = orig ∧ Edge go D orig orig)

/-- The state before the layer `k` is returned. -/
structure LayerSt (go : GoFn) (D : Bool) (orig : P2) (k : Nat) (st : BfIter SetImpl.ideal) : Prop where
  vis : ∀ q, st.visited q = true ↔ Within go D orig (k + 1) q
  front : ∀ q, (∃ d, (q, d) ∈ st.nextfront) ↔ InLayer go D orig k q
  nodup : (st.nextfront.map Prod.fst).Nodup
  back : ∀ q d, (q, d) ∈ st.nextfront → Allowed D d ∧ ∃ p, IsDist go D orig p k ∧ go p (opposite d) = some q

theorem InLayer.within {go : GoFn} {D : Bool} {orig : P2} {k : Nat} {q : P2} (h : InLayer go D orig k q) : Within go D orig (k + 1) q := by
  rcases h with h | ⟨rfl, rfl, -⟩
  · exact (isDist_succ_iff.1 h).1
  · exact within_mono (Nat.zero_le _) (within_zero.2 rfl)

theorem BfIter.new_st (go : GoFn) (D : Bool) (orig : P2) :
    ∃ st, BfIter.new SetImpl.ideal D go orig = .ok st ∧ LayerSt go D orig 0 st := by
  obtain ⟨st, h1, h2⟩ := BfIter.next_layer (go := go) (D := D) (fun _ => false) [(orig, Dir.N)] (by simp) (by
    intro pre m post h x hx
    have := congrArg List.length h
    cases pre with
    | nil => cases hx
    | cons a l => simp at this)
  refine ⟨st, ?_, ?_⟩
  · unfold BfIter.new
    show (BfIter.next SetImpl.ideal D go { visited := fun _ => false, nextfront := [(orig, Dir.N)] } >>= _) = _
    rw [h1]; rfl
  · have hE : ∀ q, (∃ p d, ((∃ m ∈ [(orig, Dir.N)], m.1 = p) ∧ Allowed D d) ∧ go p d = some q) ↔ Edge go D orig q := by
      intro q
      constructor
      · rintro ⟨p, d, ⟨⟨m, hm, rfl⟩, ha⟩, hg⟩
        rw [List.mem_singleton] at hm; subst hm
        exact ⟨d, ha, hg⟩
      · rintro ⟨d, ha, hg⟩
        exact ⟨orig, d, ⟨⟨_, List.mem_singleton_self _, rfl⟩, ha⟩, hg⟩
    have hW : ∀ q, Within go D orig 1 q ↔ q = orig ∨ Edge go D orig q := by
      intro q
      constructor
      · rintro ⟨m, hm, hr⟩
        rcases Nat.lt_or_ge m 1 with h | h
        · obtain rfl : m = 0 := by omega
          exact .inl (reachN_zero.1 hr)
        · obtain rfl : m = 0 + 1 := by omega
          obtain ⟨r, h3, h4⟩ := reachN_succ.1 hr
          rw [reachN_zero] at h3; subst h3
          exact .inr h4
      · rintro (rfl | h)
        · exact within_mono (Nat.zero_le _) (within_zero.2 rfl)
        · exact within_edge (within_zero.2 rfl) h
    refine ⟨fun q => ?_, fun q => ?_, h2.nodup, fun q d hq => ?_⟩
    · rw [h2.vis, hE, hW]
      constructor
      · rintro (h | ⟨m, hm, rfl⟩ | h)
        · cases h
        · rw [List.mem_singleton] at hm; subst hm; exact .inl rfl
        · exact .inr h
      · rintro (rfl | h)
        · exact .inr (.inl ⟨_, List.mem_singleton_self _, rfl⟩)
        · exact .inr (.inr h)
    · rw [h2.front, hE]
      unfold InLayer
      rw [isDist_succ_iff, within_zero, hW]
      constructor
      · rintro ⟨-, h⟩
        by_cases e : q = orig
        · subst e; exact .inr ⟨rfl, rfl, h⟩
        · exact .inl ⟨.inr h, e⟩
      · rintro (⟨h | h, e⟩ | ⟨-, rfl, h⟩)
        · exact absurd h e
        · exact ⟨rfl, h⟩
        · exact ⟨rfl, h⟩
    · obtain ⟨p, ⟨⟨m, hm, rfl⟩, ha⟩, hg⟩ := h2.back q d hq
      rw [List.mem_singleton] at hm; subst hm
      exact ⟨allowed_opposite.1 ha, orig, isDist_zero.2 rfl, hg⟩

theorem BfIter.next_st {go : GoFn} {D : Bool} {orig : P2} {k : Nat} {st : BfIter SetImpl.ideal} (h : LayerSt go D orig k st)
    (hne : st.nextfront ≠ []) :
    ∃ st', BfIter.next SetImpl.ideal D go st = .ok (some st.nextfront, st') ∧ LayerSt go D orig (k + 1) st' := by
  have hfv : ∀ m ∈ st.nextfront, st.visited m.1 = true := fun m hm => (h.vis _).2 ((h.front m.1).1 ⟨m.2, hm⟩).within
  obtain ⟨st', h1, h2⟩ := BfIter.next_layer (go := go) (D := D) st.visited st.nextfront hne
    (fun pre m post hl x hx => hfv x (by rw [hl]; simp [hx]))
  refine ⟨st', h1, ?_⟩
  have hE : ∀ q, (∃ p d, ((∃ m ∈ st.nextfront, m.1 = p) ∧ Allowed D d) ∧ go p d = some q) ↔ ∃ p, InLayer go D orig k p ∧ Edge go D p q := by
    intro q
    constructor
    · rintro ⟨p, d, ⟨⟨m, hm, rfl⟩, ha⟩, hg⟩
      exact ⟨m.1, (h.front _).1 ⟨m.2, hm⟩, d, ha, hg⟩
    · rintro ⟨p, hp, d, ha, hg⟩
      obtain ⟨d', hd'⟩ := (h.front p).2 hp
      exact ⟨p, d, ⟨⟨_, hd', rfl⟩, ha⟩, hg⟩
  have hstep : ∀ q, Within go D orig (k + 2) q ↔ Within go D orig (k + 1) q ∨ ∃ p, InLayer go D orig k p ∧ Edge go D p q := by
    intro q
    constructor
    · intro hw
      by_cases hw' : Within go D orig (k + 1) q
      · exact .inl hw'
      · obtain ⟨r, h3, h4⟩ := isDist_pred (isDist_succ_iff.2 ⟨hw, hw'⟩)
        exact .inr ⟨r, .inl h3, h4⟩
    · rintro (hw | ⟨p, hp, he⟩)
      · exact within_mono (by omega) hw
      · exact within_edge hp.within he
  refine ⟨fun q => ?_, fun q => ?_, h2.nodup, fun q d hq => ?_⟩
  · rw [h2.vis, hE, hstep, h.vis]
    constructor
    · rintro (h3 | ⟨m, hm, rfl⟩ | h3)
      · exact .inl h3
      · exact .inl ((h.vis _).1 (hfv m hm))
      · exact .inr h3
    · rintro (h3 | h3)
      · exact .inl h3
      · exact .inr (.inr h3)
  · rw [h2.front, hE]
    have hv : st.visited q = false ↔ ¬ Within go D orig (k + 1) q := by rw [← h.vis]; simp
    rw [hv]
    unfold InLayer
    rw [isDist_succ_iff (n := k + 1), hstep]
    constructor
    · rintro ⟨h3, h4⟩; exact .inl ⟨.inr h4, h3⟩
    · rintro (⟨h3 | h3, h4⟩ | ⟨h3, -⟩)
      · exact absurd h3 h4
      · exact ⟨h4, h3⟩
      · omega
  · obtain ⟨p, ⟨⟨m, hm, rfl⟩, ha⟩, hg⟩ := h2.back q d hq
    refine ⟨allowed_opposite.1 ha, m.1, ?_, hg⟩
    rcases (h.front m.1).1 ⟨m.2, hm⟩ with h3 | ⟨rfl, h3, h4⟩
    · exact h3
    · exfalso
      have hq' := (h2.front q).1 ⟨d, hq⟩
      rw [h3] at hg
      have : Within go D orig 1 q := within_edge (within_zero.2 rfl) ⟨opposite d, ha, hg⟩
      rw [(h.vis q).2 this] at hq'
      cases hq'.1

theorem BfIter.next_nil {go : GoFn} {D : Bool} {st : BfIter SetImpl.ideal} (h : st.nextfront = []) :
    ∃ st', BfIter.next SetImpl.ideal D go st = .ok (none, st') := by
  unfold BfIter.next
  simp only [h]
  exact ⟨_, rfl⟩

/-- Layers end before the longest distance. -/
theorem InLayer.lt {N : Nat} {go : GoFn} {D : Bool} {orig : P2} (hN : ∀ q n, IsDist go D orig q n → n < N) {k : Nat} {q : P2}
    (h : InLayer go D orig k q) : k < N := by
  rcases h with h | ⟨rfl, -, -⟩
  · have := hN _ _ h; omega
  · have := hN _ _ (isDist_zero.2 rfl : IsDist go D orig orig 0); omega

theorem LayerSt.nonempty_lt {N : Nat} {go : GoFn} {D : Bool} {orig : P2} (hN : ∀ q n, IsDist go D orig q n → n < N) {k : Nat}
    {st : BfIter SetImpl.ideal} (h : LayerSt go D orig k st) (hne : st.nextfront ≠ []) : k < N := by
  obtain ⟨m, hm⟩ := List.exists_mem_of_ne_nil _ hne
  exact ((h.front m.1).1 ⟨m.2, hm⟩).lt hN

/-- A layer as it is returned. -/
structure IsLayer (go : GoFn) (D : Bool) (orig : P2) (k : Nat) (l : List (P2 × Dir)) : Prop where
  mem : ∀ q, (∃ d, (q, d) ∈ l) ↔ InLayer go D orig k q
  nodup : (l.map Prod.fst).Nodup
  back : ∀ q d, (q, d) ∈ l → Allowed D d ∧ ∃ p, IsDist go D orig p k ∧ go p (opposite d) = some q

theorem Bf.collect_st {N : Nat} {go : GoFn} {D : Bool} {orig : P2} (hN : ∀ q n, IsDist go D orig q n → n < N) (n : Nat) :
    ∀ {k : Nat} {st : BfIter SetImpl.ideal}, LayerSt go D orig k st → N ≤ k + n → ∀ fuel, n < fuel →
    ∃ ls, collectWith (BfIter.next SetImpl.ideal D go) fuel st = .ok ls ∧ (∀ i l, ls[i]? = some l → l ≠ [] ∧ IsLayer go D orig (k + i) l) ∧
      (∀ i q, ls.length ≤ i → ¬ InLayer go D orig (k + i) q) ∧ ls.length ≤ n := by
  induction n with
  | zero =>
    intro k st h hk fuel hf
    have he : st.nextfront = [] := by
      by_contra hne
      have := h.nonempty_lt hN hne
      omega
    obtain ⟨st', h1⟩ := BfIter.next_nil (go := go) (D := D) he
    obtain ⟨m, rfl⟩ : ∃ m, fuel = m + 1 := ⟨fuel - 1, by omega⟩
    refine ⟨[], by simp [collectWith, h1], by simp, fun i q _ hq => ?_, by simp⟩
    have := hq.lt hN
    omega
  | succ n ih =>
    intro k st h hk fuel hf
    obtain ⟨m, rfl⟩ : ∃ m, fuel = m + 1 := ⟨fuel - 1, by omega⟩
    by_cases he : st.nextfront = []
    · obtain ⟨st', h1⟩ := BfIter.next_nil (go := go) (D := D) he
      refine ⟨[], by simp [collectWith, h1], by simp, fun i q _ hq => ?_, by simp⟩
      -- an empty layer has no successors
      have h0 : ∀ q, ¬ InLayer go D orig k q := by
        intro q hq
        obtain ⟨d, hd⟩ := (h.front q).2 hq
        rw [he] at hd; cases hd
      have hall : ∀ i q, ¬ IsDist go D orig q (k + i + 1) := by
        intro i
        induction i with
        | zero => intro q hq; exact h0 q (.inl hq)
        | succ i ihi =>
          intro q hq
          obtain ⟨r, hr, -⟩ := isDist_pred hq
          exact ihi r hr
      rcases hq with hq | ⟨hk0, rfl, hq⟩
      · exact hall i q hq
      · obtain rfl : k = 0 := by omega
        exact h0 q (.inr ⟨rfl, rfl, hq⟩)
    · obtain ⟨st', h1, h2⟩ := BfIter.next_st h he
      obtain ⟨ls, h3, h4, h5, h6⟩ := ih h2 (by omega) m (by omega)
      refine ⟨st.nextfront :: ls, by simp [collectWith, h1, h3], fun i l hl => ?_, fun i q hi hq => ?_, by simp; omega⟩
      · cases i with
        | zero =>
          injection hl with hl
          subst hl
          exact ⟨he, h.front, h.nodup, h.back⟩
        | succ i =>
          have := h4 i l (by simpa using hl)
          rwa [show k + 1 + i = k + (i + 1) by omega] at this
      · cases i with
        | zero => simp at hi
        | succ i =>
          refine h5 i q (by simpa using hi) ?_
          rwa [show k + 1 + i = k + (i + 1) by omega]

theorem Bf.iterAll_upto {N : Nat} {go : GoFn} (D : Bool) {orig : P2} (hN : ∀ q n, IsDist go D orig q n → n < N) (fuel : Nat)
    (hf : N < fuel) :
    ∃ ls, Bf.iterAll SetImpl.ideal D go orig fuel = .ok ls ∧ (∀ k l, ls[k]? = some l → l ≠ [] ∧ IsLayer go D orig k l) ∧
      (∀ k q, ls.length ≤ k → ¬ InLayer go D orig k q) ∧ ls.length ≤ N := by
  obtain ⟨st, h1, h2⟩ := BfIter.new_st go D orig
  obtain ⟨ls, h3, h4, h5, h6⟩ := Bf.collect_st hN N h2 (by omega) fuel hf
  refine ⟨ls, ?_, fun k l hl => by simpa using h4 k l hl, fun k q hk => by simpa using h5 k q hk, h6⟩
  unfold Bf.iterAll
  rw [h1, Out.ok_bind, h3]

theorem Bf.iterAll_layers {T : PosTy} {go : GoFn} (D : Bool) {orig : P2} (hgo : StaysIn T go) (ho : InGrid T orig) (fuel : Nat)
    (hf : T.nx * T.ny < fuel) :
    ∃ ls, Bf.iterAll SetImpl.ideal D go orig fuel = .ok ls ∧ (∀ k l, ls[k]? = some l → l ≠ [] ∧ IsLayer go D orig k l) ∧
      (∀ k q, ls.length ≤ k → ¬ InLayer go D orig k q) ∧ ls.length ≤ T.nx * T.ny :=
  Bf.iterAll_upto D (fun _ _ h => isDist_lt hgo ho h) fuel hf

end Sqrid
