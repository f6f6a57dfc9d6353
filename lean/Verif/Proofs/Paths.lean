import Verif.Proofs.CameFrom
/-! Paths, reachability and distances. -/

namespace Sqrid

open Spec

abbrev GoFn := P2 → Dir → Option P2

theorem toList_dirs (D : Bool) : DirIter.toList D = .ok (clockwise D) := by cases D <;> rfl

theorem mem_clockwise {D : Bool} {d : Dir} : d ∈ clockwise D ↔ Allowed D d := by
  cases D <;> cases d <;> simp [clockwise, Allowed, unit]

theorem allowed_opposite {D : Bool} {d : Dir} : Allowed D (opposite d) ↔ Allowed D d := by
  cases D <;> cases d <;> simp [Allowed, opposite, unit]

/-- One step of the movement function in a direction of the mode. -/
def Edge (go : GoFn) (D : Bool) (p q : P2) : Prop := ∃ d, Allowed D d ∧ go p d = some q

theorem follow_append (go : GoFn) (p : P2) (as bs : List Dir) :
    follow go p (as ++ bs) = (follow go p as).bind fun q => follow go q bs := by
  induction as generalizing p with
  | nil => rfl
  | cons a as ih =>
    simp only [List.cons_append, follow]
    cases go p a with
    | none => rfl
    | some q => exact ih q

theorem follow_inGrid {T : PosTy} {go : GoFn} (hgo : StaysIn T go) (ds : List Dir) {p q : P2} (hp : InGrid T p) (h : follow go p ds = some q) :
    InGrid T q := by
  induction ds generalizing p with
  | nil => injection h with h; exact h ▸ hp
  | cons d ds ih =>
    simp only [follow] at h
    cases hg : go p d with
    | none => rw [hg] at h; cases h
    | some r => rw [hg] at h; exact ih (hgo p d r hp hg) h

section
variable {T : PosTy} {go : GoFn} {D : Bool} {p q r : P2}

theorem isPath_nil : IsPath go D p [] p := ⟨by simp, rfl⟩

theorem isPath_append {as bs : List Dir} (h : IsPath go D p as q) (h' : IsPath go D q bs r) : IsPath go D p (as ++ bs) r := by
  refine ⟨fun d hd => ?_, ?_⟩
  · rcases List.mem_append.1 hd with hd | hd
    · exact h.1 d hd
    · exact h'.1 d hd
  · rw [follow_append, h.2]; exact h'.2

theorem isPath_single {d : Dir} (hd : Allowed D d) (hg : go p d = some q) : IsPath go D p [d] q := by
  refine ⟨by simp [hd], ?_⟩
  simp only [follow]
  rw [hg]

theorem isPath_concat {ds : List Dir} {d : Dir} (h : IsPath go D p (ds ++ [d]) q) : ∃ r, IsPath go D p ds r ∧ Allowed D d ∧ go r d = some q := by
  obtain ⟨h1, h2⟩ := h
  rw [follow_append] at h2
  cases hr : follow go p ds with
  | none => rw [hr] at h2; cases h2
  | some r =>
    rw [hr] at h2
    simp only [Option.bind_some, follow] at h2
    refine ⟨r, ⟨fun d hd => h1 d (by simp [hd]), hr⟩, h1 d (by simp), ?_⟩
    cases hg : go r d with
    | none => rw [hg] at h2; cases h2
    | some r' => rw [hg] at h2; exact h2

theorem isPath_inGrid {ds : List Dir} (hgo : StaysIn T go) (hp : InGrid T p) (h : IsPath go D p ds q) : InGrid T q :=
  follow_inGrid hgo ds hp h.2

theorem Spec.Reachable.refl : Reachable go D p p := ⟨[], isPath_nil⟩

theorem Spec.Reachable.edge (h : Reachable go D p q) (he : Edge go D q r) : Reachable go D p r := by
  obtain ⟨ds, hds⟩ := h
  obtain ⟨d, hd, hg⟩ := he
  exact ⟨ds ++ [d], isPath_append hds (isPath_single hd hg)⟩

/-- Induction along a path from its origin. -/
theorem Spec.Reachable.induct {P : P2 → Prop} (h0 : P p) (hs : ∀ q r, Reachable go D p q → P q → Edge go D q r → P r)
    (h : Reachable go D p q) : P q := by
  obtain ⟨ds, hds⟩ := h
  induction ds using List.reverseRecOn generalizing q with
  | nil => have := hds.2; injection this with e; exact e ▸ h0
  | append_singleton ds d ih =>
    obtain ⟨r, h1, h2, h3⟩ := isPath_concat hds
    exact hs r q ⟨ds, h1⟩ (ih h1) ⟨d, h2, h3⟩

/-- There is a path of that length. -/
def ReachN (go : GoFn) (D : Bool) (p : P2) (n : Nat) (q : P2) : Prop := ∃ ds, IsPath go D p ds q ∧ ds.length = n

theorem reachN_zero : ReachN go D p 0 q ↔ q = p := by
  constructor
  · rintro ⟨ds, h, hl⟩
    rw [List.length_eq_zero_iff] at hl
    subst hl
    have := h.2
    injection this with e
    exact e.symm
  · rintro rfl; exact ⟨[], isPath_nil, rfl⟩

theorem reachN_succ {n : Nat} : ReachN go D p (n + 1) q ↔ ∃ r, ReachN go D p n r ∧ Edge go D r q := by
  constructor
  · rintro ⟨ds, h, hl⟩
    rcases List.eq_nil_or_concat ds with rfl | ⟨ds', d, rfl⟩
    · simp at hl
    · rw [List.concat_eq_append] at h hl
      obtain ⟨r, h1, h2, h3⟩ := isPath_concat h
      exact ⟨r, ⟨ds', h1, by simpa using hl⟩, d, h2, h3⟩
  · rintro ⟨r, ⟨ds, h, hl⟩, d, hd, hg⟩
    exact ⟨ds ++ [d], isPath_append h (isPath_single hd hg), by simp [hl]⟩

/-- There is a path not longer than that. -/
def Within (go : GoFn) (D : Bool) (p : P2) (n : Nat) (q : P2) : Prop := ∃ m ≤ n, ReachN go D p m q

theorem within_mono {m n : Nat} (h : m ≤ n) (hw : Within go D p m q) : Within go D p n q := by
  obtain ⟨k, hk, hr⟩ := hw; exact ⟨k, by omega, hr⟩

theorem within_zero : Within go D p 0 q ↔ q = p := by
  constructor
  · rintro ⟨m, hm, hr⟩
    obtain rfl : m = 0 := by omega
    exact reachN_zero.1 hr
  · intro h; exact ⟨0, Nat.le_refl _, reachN_zero.2 h⟩

theorem within_edge {n : Nat} (h : Within go D p n q) (he : Edge go D q r) : Within go D p (n + 1) r := by
  obtain ⟨m, hm, hr⟩ := h
  exact ⟨m + 1, by omega, reachN_succ.2 ⟨q, hr, he⟩⟩

theorem isDist_iff_reachN {n : Nat} : IsDist go D p q n ↔ ReachN go D p n q ∧ ∀ m < n, ¬ ReachN go D p m q := by
  constructor
  · rintro ⟨h1, h2⟩
    refine ⟨h1, fun m hm => ?_⟩
    rintro ⟨ds, h3, h4⟩
    have := h2 ds h3
    omega
  · rintro ⟨h1, h2⟩
    refine ⟨h1, fun ds hds => ?_⟩
    by_contra hlt
    exact h2 ds.length (by omega) ⟨ds, hds, rfl⟩

theorem isDist_zero : IsDist go D p q 0 ↔ q = p := by
  rw [isDist_iff_reachN, reachN_zero]
  exact ⟨fun h => h.1, fun h => ⟨h, fun m hm => absurd hm (Nat.not_lt_zero _)⟩⟩

theorem isDist_succ_iff {n : Nat} : IsDist go D p q (n + 1) ↔ Within go D p (n + 1) q ∧ ¬ Within go D p n q := by
  rw [isDist_iff_reachN]
  constructor
  · rintro ⟨h1, h2⟩
    refine ⟨⟨n + 1, Nat.le_refl _, h1⟩, ?_⟩
    rintro ⟨m, hm, hr⟩
    exact h2 m (by omega) hr
  · rintro ⟨⟨m, hm, hr⟩, h2⟩
    have : m = n + 1 := by
      by_contra hne
      exact h2 ⟨m, by omega, hr⟩
    subst this
    exact ⟨hr, fun m hm hr => h2 ⟨m, by omega, hr⟩⟩

theorem within_iff_isDist {n : Nat} : Within go D p n q ↔ ∃ m ≤ n, IsDist go D p q m := by
  constructor
  · intro h
    induction n with
    | zero => exact ⟨0, Nat.le_refl _, isDist_zero.2 (within_zero.1 h)⟩
    | succ n ih =>
      by_cases hw : Within go D p n q
      · obtain ⟨m, hm, hd⟩ := ih hw
        exact ⟨m, by omega, hd⟩
      · exact ⟨n + 1, Nat.le_refl _, isDist_succ_iff.2 ⟨h, hw⟩⟩
  · rintro ⟨m, hm, hd⟩
    exact ⟨m, hm, (isDist_iff_reachN.1 hd).1⟩

theorem reachable_iff_isDist : Reachable go D p q ↔ ∃ n, IsDist go D p q n := by
  constructor
  · rintro ⟨ds, h⟩
    obtain ⟨m, -, hd⟩ := within_iff_isDist.1 (⟨ds.length, Nat.le_refl _, ds, h, rfl⟩ : Within go D p ds.length q)
    exact ⟨m, hd⟩
  · rintro ⟨n, ⟨ds, h, -⟩, -⟩
    exact ⟨ds, h⟩

theorem isDist_unique {m n : Nat} (h : IsDist go D p q m) (h' : IsDist go D p q n) : m = n := by
  obtain ⟨⟨ds, a, rfl⟩, b⟩ := h
  obtain ⟨⟨ds', a', rfl⟩, b'⟩ := h'
  have := b _ a'
  have := b' _ a
  omega

/-- A position at distance `n + 1` has a predecessor at distance `n`. -/
theorem isDist_pred {n : Nat} (h : IsDist go D p q (n + 1)) : ∃ r, IsDist go D p r n ∧ Edge go D r q := by
  rw [isDist_iff_reachN] at h
  obtain ⟨r, hr, he⟩ := reachN_succ.1 h.1
  refine ⟨r, isDist_iff_reachN.2 ⟨hr, fun m hm hr' => ?_⟩, he⟩
  exact h.2 (m + 1) (by omega) (reachN_succ.2 ⟨r, hr', he⟩)

theorem isDist_le_edge {m n : Nat} (h : IsDist go D p q m) (he : Edge go D q r) (h' : IsDist go D p r n) : n ≤ m + 1 := by
  obtain ⟨⟨ds, a, rfl⟩, -⟩ := h
  obtain ⟨d, hd, hg⟩ := he
  have := h'.2 _ (isPath_append a (isPath_single hd hg))
  simpa using this

theorem isDist_inGrid {n : Nat} (hgo : StaysIn T go) (hp : InGrid T p) (h : IsDist go D p q n) : InGrid T q := by
  obtain ⟨⟨ds, a, -⟩, -⟩ := h
  exact isPath_inGrid hgo hp a

/-- Distances are smaller than the number of positions that can be reached. -/
theorem isDist_lt_list {L : List P2} {n : Nat} (hL : ∀ q, Reachable go D p q → q ∈ L) (h : IsDist go D p q n) : n < L.length := by
  have key : ∀ n q, IsDist go D p q n → ∃ l : List P2, l.length = n + 1 ∧ l.Nodup ∧ ∀ r ∈ l, ∃ m ≤ n, IsDist go D p r m := by
    intro n
    induction n with
    | zero =>
      intro q hq
      exact ⟨[q], rfl, List.nodup_singleton _, fun r hr => ⟨0, Nat.le_refl _, by rw [List.mem_singleton] at hr; exact hr ▸ hq⟩⟩
    | succ n ih =>
      intro q hq
      obtain ⟨r, hr, -⟩ := isDist_pred hq
      obtain ⟨l, h1, h2, h3⟩ := ih r hr
      refine ⟨q :: l, by simp [h1], List.nodup_cons.2 ⟨fun hmem => ?_, h2⟩, fun s hs => ?_⟩
      · obtain ⟨m, hm, hd⟩ := h3 q hmem
        have := isDist_unique hd hq
        omega
      · rcases List.mem_cons.1 hs with rfl | hs
        · exact ⟨n + 1, Nat.le_refl _, hq⟩
        · obtain ⟨m, hm, hd⟩ := h3 s hs
          exact ⟨m, by omega, hd⟩
  obtain ⟨l, h1, h2, h3⟩ := key n q h
  have := (List.Nodup.subperm h2 (fun r hr => by
    obtain ⟨m, -, hd⟩ := h3 r hr
    exact hL r (reachable_iff_isDist.2 ⟨m, hd⟩))).length_le
  omega

/-- Distances are smaller than the number of positions. -/
theorem isDist_lt {n : Nat} (hgo : StaysIn T go) (hp : InGrid T p) (h : IsDist go D p q n) : n < T.nx * T.ny := by
  have := isDist_lt_list (L := allPositions T true) (fun q ⟨ds, hds⟩ => PosTy.mem_allPositions.2 (isPath_inGrid hgo hp hds)) h
  rwa [PosTy.allPositions_length] at this

end

theorem Spec.Adjacent.staysIn {T : PosTy} {go : GoFn} (h : Adjacent T go) : StaysIn T go := fun p d q hp hg => (h p d q hp hg).1

/-! ### Folds that keep an invariant over the processed prefix -/

theorem foldlM_inv {σ α : Type} (f : σ → α → Out σ) (I : List α → σ → Prop) (l : List α)
    (h : ∀ pre a post s, l = pre ++ a :: post → I pre s → ∃ s', f s a = .ok s' ∧ I (pre ++ [a]) s') (s : σ) (h0 : I [] s) :
    ∃ s', l.foldlM f s = .ok s' ∧ I l s' := by
  have key : ∀ (post pre : List α) (s : σ), l = pre ++ post → I pre s → ∃ s', post.foldlM f s = .ok s' ∧ I l s' := by
    intro post
    induction post with
    | nil => intro pre s hl hI; rw [List.append_nil] at hl; exact ⟨s, rfl, hl ▸ hI⟩
    | cons a post ih =>
      intro pre s hl hI
      obtain ⟨s', h1, h2⟩ := h pre a post s hl hI
      obtain ⟨s'', h3, h4⟩ := ih (pre ++ [a]) s' (by simp [hl]) h2
      exact ⟨s'', by rw [List.foldlM_cons, h1, Out.ok_bind, h3], h4⟩
  exact key l [] s rfl h0

end Sqrid
