import Verif.Proofs.SetMap
import Verif.Props.Dir
import Verif.Props.Pos
import Verif.Spec.Search
import Mathlib.Data.List.Perm.Subperm
import Mathlib.Tactic.Linarith
/-! Walking back along a "came from" map. -/

namespace Sqrid

open Spec

namespace PosTy

theorem searchable_of_u16 [Target] {T : PosTy} (h : T.IsGrid) (hx : T.X.MAX ≤ 65535) (hy : T.Y.MAX ≤ 65535)
    (hs : FitsSearch T.X.MAX T.Y.MAX) : T.Searchable where
  toIsGrid := h
  square := by
    have h1 := h.xmax0
    rcases hs with hw | ⟨h2, -⟩
    · simp only [limit, hw, if_true]; nlinarith
    · have := limit_pos; nlinarith
  room := by
    have h1 := h.xmax0; have h2 := h.ymax0
    rcases hs with hw | ⟨-, h3⟩
    · simp only [limit, hw, if_true]; nlinarith
    · have := limit_pos; omega
  alloc := by have := limit_pos; omega

theorem pos_searchable [Target] {xmax ymax : Int} (hx : 0 ≤ xmax ∧ xmax ≤ 65535) (hy : 0 ≤ ymax ∧ ymax ≤ 65535)
    (hs : FitsSearch xmax ymax) : (PosTy.pos xmax ymax).Searchable :=
  searchable_of_u16 (pos_isGrid hx hy (hs.imp id fun h => .inl h.1)) hx.2 hy.2 hs

theorem u8_searchable [Target] : (PosTy.tuple .u8).Searchable := searchable_of_u16 u8_isGrid (by decide) (by decide) (.inr (by decide))
theorem u16_searchable [Target] (hw : Target.wide = true) : (PosTy.tuple .u16).Searchable :=
  searchable_of_u16 (u16_isGrid hw) (by decide) (by decide) (.inl hw)

end PosTy

theorem Dir.flip_eq (d : Dir) : d.flip = .ok (opposite d) := by cases d <;> rfl
theorem opposite_opposite (d : Dir) : opposite (opposite d) = d := by cases d <;> rfl
theorem neighbour_opposite (p : P2) (d : Dir) : neighbour (neighbour p d) (opposite d) = p := by
  cases d <;> (apply Prod.ext <;> simp [neighbour, unit, opposite])
theorem neighbour_opposite' (p : P2) (d : Dir) : neighbour (neighbour p (opposite d)) d = p := by
  have := neighbour_opposite p (opposite d); rwa [opposite_opposite] at this
theorem neighbour_ne (p : P2) (d : Dir) : neighbour p d ≠ p := by
  intro h
  simp only [Prod.ext_iff] at h
  cases d <;> simp [neighbour, unit] at h

theorem l1_le [Target] {T : PosTy} (hT : T.IsGrid) {p q : P2} (hp : InGrid T p) (hq : InGrid T q) : 0 ≤ l1 p q ∧ l1 p q ≤ T.X.MAX + T.Y.MAX := by
  have hp' := hT.valid_iff'.1 hp
  have hq' := hT.valid_iff'.1 hq
  simp only [l1]
  omega

/-- At most as many different positions as there are. -/
theorem nodup_length_le {T : PosTy} {l : List P2} (hl : l.Nodup) (hv : ∀ p ∈ l, InGrid T p) : l.length ≤ T.nx * T.ny := by
  have h : l ⊆ allPositions T true := fun p hp => PosTy.mem_allPositions.2 (hv p hp)
  have := (List.Nodup.subperm hl h).length_le
  rwa [PosTy.allPositions_length] at this

section
variable {T : PosTy} {map : P2 → Option Dir} {orig : P2}

theorem Spec.Arrives.unique {p : P2} {path path' : List Dir} (h : Arrives T map orig p path) (h' : Arrives T map orig p path') :
    path = path' := by
  induction h generalizing path' with
  | here =>
    cases h' with
    | here => rfl
    | step hne => exact absurd rfl hne
  | step hne hm hin _ ih =>
    cases h' with
    | here => exact absurd rfl hne
    | step hne' hm' hin' h'' =>
      rw [hm] at hm'
      injection hm' with e
      subst e
      rw [ih h'']

theorem Spec.GetsStuck.unique {p : P2} {n n' : Nat} (h : GetsStuck T map orig p n) (h' : GetsStuck T map orig p n') : n = n' := by
  induction h generalizing n' with
  | here hne hs =>
    cases h' with
    | here => rfl
    | step _ hm hin => exact absurd hin (hs _ hm)
  | step hne hm hin _ ih =>
    cases h' with
    | here _ hs => exact absurd hin (hs _ hm)
    | step hne' hm' hin' h'' =>
      rw [hm] at hm'
      injection hm' with e
      subst e
      rw [ih h'']

theorem Spec.Arrives.not_stuck {p : P2} {path : List Dir} (h : Arrives T map orig p path) (n : Nat) : ¬ GetsStuck T map orig p n := by
  intro h'
  induction h generalizing n with
  | here => cases h' <;> simp_all
  | step hne hm hin _ ih =>
    cases h' with
    | here _ hs => exact hs _ hm hin
    | step _ hm' _ h'' =>
      rw [hm] at hm'
      injection hm' with e
      subst e
      exact ih _ h''

theorem Spec.Arrives.trace {K : P2 → Prop} (hK : ∀ q d, K q → q ≠ orig → map q = some d → InGrid T (neighbour q d) → K (neighbour q d))
    {p : P2} {path : List Dir} (hp : K p) (h : Arrives T map orig p path) :
    ∃ l : List P2, l.length = path.length + 1 ∧ l.Nodup ∧ ∀ q ∈ l, K q ∧ ∃ path', Arrives T map orig q path' ∧ path'.length ≤ path.length := by
  induction h with
  | here => exact ⟨[orig], rfl, List.nodup_singleton _, fun q hq => by
      rw [List.mem_singleton] at hq; subst hq; exact ⟨hp, [], .here, Nat.le_refl _⟩⟩
  | @step p d path hne hm hin h ih =>
    obtain ⟨l, h1, h2, h3⟩ := ih (hK _ _ hp hne hm hin)
    have hA := Arrives.step hne hm hin h
    refine ⟨p :: l, by simp [h1], List.nodup_cons.2 ⟨fun hmem => ?_, h2⟩, fun q hq => ?_⟩
    · obtain ⟨-, path', a1, a2⟩ := h3 p hmem
      rw [a1.unique hA] at a2
      simp at a2
    · rcases List.mem_cons.1 hq with rfl | hq
      · exact ⟨hp, _, hA, Nat.le_refl _⟩
      · obtain ⟨b0, path', b1, b2⟩ := h3 q hq
        exact ⟨b0, path', b1, by simp; omega⟩

theorem Spec.Arrives.length_lt {p : P2} {path : List Dir} (hp : InGrid T p) (h : Arrives T map orig p path) : path.length < T.nx * T.ny := by
  obtain ⟨l, h1, h2, h3⟩ := h.trace (K := InGrid T) (fun _ _ _ _ _ hin => hin) hp
  have := nodup_length_le h2 (fun q hq => (h3 q hq).1)
  omega

theorem Spec.Arrives.length_lt_list {K : P2 → Prop} (hK : ∀ q d, K q → q ≠ orig → map q = some d → K (neighbour q d)) {L : List P2}
    (hL : ∀ q, K q → q ∈ L) {p : P2} {path : List Dir} (hp : K p) (h : Arrives T map orig p path) : path.length < L.length := by
  obtain ⟨l, h1, h2, h3⟩ := h.trace (K := K) (fun q d h1 h2 h3 _ => hK q d h1 h2 h3) hp
  have := (List.Nodup.subperm h2 (fun q hq => hL q (h3 q hq).1)).length_le
  omega

theorem Spec.GetsStuck.trace {p : P2} {n : Nat} (hp : InGrid T p) (h : GetsStuck T map orig p n) :
    ∃ l : List P2, l.length = n + 1 ∧ l.Nodup ∧ ∀ q ∈ l, InGrid T q ∧ ∃ m, GetsStuck T map orig q m ∧ m ≤ n := by
  induction h with
  | @here p hne hs => exact ⟨[p], rfl, List.nodup_singleton _, fun q hq => by
      rw [List.mem_singleton] at hq; subst hq; exact ⟨hp, 0, .here hne hs, Nat.le_refl _⟩⟩
  | @step p d n hne hm hin h ih =>
    obtain ⟨l, h1, h2, h3⟩ := ih hin
    have hA := GetsStuck.step hne hm hin h
    refine ⟨p :: l, by simp [h1], List.nodup_cons.2 ⟨fun hmem => ?_, h2⟩, fun q hq => ?_⟩
    · obtain ⟨-, m, a1, a2⟩ := h3 p hmem
      rw [a1.unique hA] at a2
      omega
    · rcases List.mem_cons.1 hq with rfl | hq
      · exact ⟨hp, _, hA, Nat.le_refl _⟩
      · obtain ⟨b0, m, b1, b2⟩ := h3 q hq
        exact ⟨b0, m, b1, by omega⟩

theorem Spec.GetsStuck.lt {p : P2} {n : Nat} (hp : InGrid T p) (h : GetsStuck T map orig p n) : n < T.nx * T.ny := by
  obtain ⟨l, h1, h2, h3⟩ := h.trace hp
  have := nodup_length_le h2 (fun q hq => (h3 q hq).1)
  omega

end

/-- What the loop returns, exactly. -/
theorem camefromLoop_spec {T : PosTy} (hT : T.WF) (M : MapImpl (Option Dir)) (s : M.σ) (map : P2 → Option Dir) (orig : P2)
    (hget : ∀ p, InGrid T p → M.get s p = .ok (map p)) (k : Nat) : ∀ (p : P2) (ret : List Dir), InGrid T p →
    (∃ path, Arrives T map orig p path ∧ path.length < k ∧ camefromLoop T M s orig k p ret = .ok (.ok (path ++ ret))) ∨
    (∃ n, GetsStuck T map orig p n ∧ n < k ∧ camefromLoop T M s orig k p ret = .ok (.error .invalidMovement)) ∨
    ((∀ path, Arrives T map orig p path → k ≤ path.length) ∧ (∀ n, GetsStuck T map orig p n → k ≤ n) ∧
      camefromLoop T M s orig k p ret = .ok (.error .loop)) := by
  induction k with
  | zero => intro p ret hp; exact .inr (.inr ⟨fun _ _ => Nat.zero_le _, fun _ _ => Nat.zero_le _, rfl⟩)
  | succ k ih =>
    intro p ret hp
    rw [camefromLoop]
    by_cases e : p = orig
    · rw [if_pos e]
      subst e
      exact .inl ⟨[], .here, Nat.succ_pos _, rfl⟩
    · rw [if_neg e, hget p hp, Out.ok_bind]
      cases hm : map p with
      | none =>
        refine .inr (.inl ⟨0, .here e (fun d hd => ?_), Nat.succ_pos _, rfl⟩)
        rw [hm] at hd; cases hd
      | some d =>
        simp only
        rw [Dir.flip_eq, Out.ok_bind, PosTy.addDir_eq hT p hp d]
        by_cases hin : InGrid T (neighbour p d)
        · rw [if_pos (show T.Valid _ from hin)]
          simp only
          rcases ih (neighbour p d) (opposite d :: ret) hin with ⟨path, a1, a2, a3⟩ | ⟨n, a1, a2, a3⟩ | ⟨a1, a2, a3⟩
          · refine .inl ⟨_, .step e hm hin a1, by simp; omega, ?_⟩
            rw [a3, List.append_assoc]; rfl
          · exact .inr (.inl ⟨_, .step e hm hin a1, by omega, a3⟩)
          · refine .inr (.inr ⟨fun path h => ?_, fun n h => ?_, a3⟩)
            · cases h with
              | here => exact absurd rfl e
              | step _ hm' _ h' =>
                rw [hm] at hm'
                injection hm' with e'
                subst e'
                have := a1 _ h'
                simp; omega
            · cases h with
              | here _ hs => exact absurd hin (hs _ hm)
              | step _ hm' _ h' =>
                rw [hm] at hm'
                injection hm' with e'
                subst e'
                have := a2 _ h'
                omega
        · rw [if_neg (show ¬ T.Valid _ from hin)]
          simp only
          refine .inr (.inl ⟨0, .here e (fun d' hd' => ?_), Nat.succ_pos _, trivial⟩)
          rw [hm] at hd'
          injection hd' with e'
          subst e'
          exact hin

theorem withCapacity_eq [Target] {n : Int} (h : 2 * n ≤ limit) : withCapacity n = .ok () := by
  rw [withCapacity, IntTy.usize_hi, if_pos (by omega)]

/-- What `camefrom_into_path` returns, exactly. -/
theorem camefromIntoPath_spec [Target] {T : PosTy} (hT : T.Searchable) (M : MapImpl (Option Dir)) (s : M.σ) (map : P2 → Option Dir) {orig dest : P2}
    (horig : InGrid T orig) (hdest : InGrid T dest) (hget : ∀ p, InGrid T p → M.get s p = .ok (map p)) :
    (map dest = none ∧ camefromIntoPath T M s orig dest = .ok (.error .destinationUnreachable)) ∨
    (map dest ≠ none ∧
      ((∃ path, Arrives T map orig dest path ∧ path.length ≤ T.nx * T.nx ∧ camefromIntoPath T M s orig dest = .ok (.ok path)) ∨
      (∃ n, GetsStuck T map orig dest n ∧ n ≤ T.nx * T.nx ∧ camefromIntoPath T M s orig dest = .ok (.error .invalidMovement)) ∨
      ((∀ path, Arrives T map orig dest path → T.nx * T.nx < path.length) ∧ (∀ n, GetsStuck T map orig dest n → T.nx * T.nx < n) ∧
        camefromIntoPath T M s orig dest = .ok (.error .loop)))) := by
  have hl := l1_le hT.toIsGrid horig hdest
  have h0 := hT.xmax0
  have h0' := hT.ymax0
  have hr := hT.room
  have hsq := hT.square
  have ha := hT.alloc
  have hcells : 0 ≤ (T.X.MAX + 1) * (T.Y.MAX + 1) := Int.mul_nonneg (by omega) (by omega)
  have hcells' : 0 ≤ (T.X.MAX + 1) * (T.X.MAX + 1) := Int.mul_nonneg (by omega) (by omega)
  have hnx := hT.nx_eq
  have hsqn : ((T.X.MAX + 1) * (T.X.MAX + 1) + 1).toNat = T.nx * T.nx + 1 := by
    have : (((T.nx * T.nx + 1 : Nat)) : Int) = (T.X.MAX + 1) * (T.X.MAX + 1) + 1 := by push_cast; rw [hnx]
    omega
  have e : camefromIntoPath T M s orig dest = match map dest with
      | none => .ok (.error .destinationUnreachable)
      | some _ => camefromLoop T M s orig (T.nx * T.nx + 1) dest [] := by
    rw [camefromIntoPath, C15_manhattan_partial T hT.toIsGrid orig dest horig hdest, Out.ok_bind,
      IntTy.usize_mul ⟨by omega, by omega⟩, Out.ok_bind, withCapacity_eq (by omega), Out.ok_bind, hget dest hdest, Out.ok_bind]
    cases map dest with
    | none => rfl
    | some d =>
      simp only
      rw [hT.width_eq, Out.ok_bind, Out.ok_bind, IntTy.usize_mul ⟨by omega, by omega⟩, Out.ok_bind,
        IntTy.usize_add ⟨by omega, by omega⟩, Out.ok_bind, hsqn]
  cases hm : map dest with
  | none => left; rw [e, hm]; exact ⟨rfl, rfl⟩
  | some d =>
    right
    rw [e, hm]
    refine ⟨by simp, ?_⟩
    rcases camefromLoop_spec hT.wf M s map orig hget (T.nx * T.nx + 1) dest [] hdest with ⟨path, a1, a2, a3⟩ | ⟨n, a1, a2, a3⟩ | ⟨a1, a2, a3⟩
    · exact .inl ⟨path, a1, by omega, by rw [a3, List.append_nil]⟩
    · exact .inr (.inl ⟨n, a1, by omega, a3⟩)
    · exact .inr (.inr ⟨fun p h => a1 p h, fun n h => a2 n h, a3⟩)

/-! ### In every position type -/

/-- The start of `camefrom_into_path`: the capacity of the deque. -/
def wayStart [Target] (T : PosTy) (orig dest : P2) : Out Unit := do
  let distance ← T.manhattan orig dest
  let capacity ← IntTy.usize.mul 2 distance
  withCapacity capacity

/-- The number of times around the loop. -/
def waySteps [Target] (T : PosTy) : Out Nat := do
  let w1 ← T.width
  let w2 ← T.width
  let ww ← IntTy.usize.mul w1 w2
  let maxiter ← IntTy.usize.add ww 1
  .ok maxiter.toNat

/-- `maxiter` is not 0 when the loop begins, even where its calculation wraps around: no square is -1 modulo 4. So the loop of the model, which ends at 0, is that of the code,
which ends when the subtraction gets to 0. -/
theorem maxiter_pos [Target] {w ww m : Int} (h1 : IntTy.usize.mul w w = .ok ww) (h2 : IntTy.usize.add ww 1 = .ok m) : 0 < m := by
  have key : ∀ N : Int, N % 4 = 0 → 0 < N → (w * w) % N ≠ N - 1 := by
    intro N hN hpos h
    have h3 : (w * w) % 4 = 3 := by
      have h4 := Int.emod_add_mul_ediv (w * w) N
      generalize (w * w) / N = q at h4
      rw [h] at h4
      obtain ⟨k, rfl⟩ : ∃ k, N = 4 * k := ⟨N / 4, by omega⟩
      rw [← h4, mul_assoc]
      generalize k * q = r
      omega
    rcases Int.emod_two_eq_zero_or_one w with h4 | h4
    · obtain ⟨k, rfl⟩ : ∃ k, w = 2 * k := ⟨w / 2, by omega⟩
      rw [show 2 * k * (2 * k) = 4 * (k * k) by ring] at h3
      omega
    · obtain ⟨k, rfl⟩ : ∃ k, w = 2 * k + 1 := ⟨w / 2, by omega⟩
      rw [show (2 * k + 1) * (2 * k + 1) = 4 * (k * k + k) + 1 by ring] at h3
      omega
  have hsq : 0 ≤ w * w := mul_self_nonneg w
  have hw := key 18446744073709551616 (by decide) (by decide)
  have hn := key 4294967296 (by decide) (by decide)
  clear key
  have har : ∀ v r : Int, IntTy.usize.arith v = .ok r → 0 ≤ v → v ≤ limit ∧ r = v ∨ limit < v ∧ r = v % (limit + 1) := by
    intro v r h hv
    unfold IntTy.arith at h
    simp only [IntTy.usize_has] at h
    split at h
    · injection h with h; exact .inl ⟨by omega, h.symm⟩
    · split at h
      · cases h
      · injection h with h
        refine .inr ⟨by omega, ?_⟩
        rw [← h, IntTy.cast, IntTy.usize_lo, IntTy.usize_hi]; simp
  have h3 := har _ _ h1 hsq
  generalize w * w = s at *
  have hl : limit = 18446744073709551615 ∨ limit = 4294967295 := by unfold limit; split <;> simp
  have h4 := har _ _ h2 (by rcases hl with hl | hl <;> rw [hl] at h3 <;> omega)
  rcases hl with hl | hl <;> rw [hl] at h3 h4 <;> omega

theorem waySteps_pos [Target] {T : PosTy} {k : Nat} (h : waySteps T = .ok k) : 0 < k := by
  unfold waySteps at h
  obtain ⟨w1, h1, h⟩ := Out.bind_ok h
  obtain ⟨w2, h2, h⟩ := Out.bind_ok h
  obtain ⟨ww, h3, h⟩ := Out.bind_ok h
  obtain ⟨m, h4, h⟩ := Out.bind_ok h
  have e : w1 = w2 := by rw [h1] at h2; exact Out.ok.inj h2
  have e2 : m.toNat = k := Out.ok.inj h
  rw [← e] at h3
  have := maxiter_pos h3 h4
  omega

/-- What becomes of a way back; `none` is one that never arrives. -/
def wayOut [Target] (T : PosTy) (orig dest : P2) (o : Option (List Dir)) : Out (Res (List Dir)) := do
  let _ ← wayStart T orig dest
  let k ← waySteps T
  .ok (match o with
    | some path => if path.length < k then .ok path else .error .loop
    | none => .error .loop)

theorem wayOut_fits [Target] {T : PosTy} (hT : T.WF) {orig dest : P2} (ho : InGrid T orig) (hd : InGrid T dest) (h : WayFits T orig dest)
    (o : Option (List Dir)) :
    wayOut T orig dest o = .ok (match o with
      | some path => if (path.length : Int) ≤ (T.X.MAX + 1) * (T.X.MAX + 1) then .ok path else .error .loop
      | none => .error .loop) := by
  obtain ⟨h1, h2, h3, h4, h5⟩ := h
  rw [← Int.abs_eq_natAbs] at h1 h2
  have hl : 0 ≤ l1 orig dest := by simp only [l1]; omega
  have hsq : T.X.MAX + 1 ≤ (T.X.MAX + 1) * (T.X.MAX + 1) := by nlinarith
  have hw : T.width = .ok (T.X.MAX + 1) := by
    rw [PosTy.width, PosTy.intoUsize_eq ⟨h4, by omega⟩, Out.ok_bind, IntTy.usize_add ⟨by omega, by omega⟩]
  unfold wayOut wayStart waySteps
  rw [C15_manhattan_fits T hT orig dest ho hd h1 h2 (by omega), Out.ok_bind, IntTy.usize_mul ⟨by omega, by omega⟩, Out.ok_bind,
    withCapacity_eq (by omega), Out.ok_bind, hw, Out.ok_bind, Out.ok_bind, IntTy.usize_mul ⟨by omega, by omega⟩, Out.ok_bind,
    IntTy.usize_add ⟨by omega, by omega⟩, Out.ok_bind, Out.ok_bind]
  cases o with
  | none => rfl
  | some path =>
    simp only
    by_cases hp : (path.length : Int) ≤ (T.X.MAX + 1) * (T.X.MAX + 1)
    · rw [if_pos hp, if_pos (by omega)]
    · rw [if_neg hp, if_neg (by omega)]

/-- With overflow checks it panics otherwise. -/
theorem wayOut_panics [Target] (hc : Target.checks = true) {T : PosTy} (hT : T.WF) {orig dest : P2} (ho : InGrid T orig) (hd : InGrid T dest)
    (h : ¬ WayFits T orig dest) (o : Option (List Dir)) : wayOut T orig dest o = .panic := by
  have hadd : ∀ a b : Int, IntTy.usize.add a b = if 0 ≤ a + b ∧ a + b ≤ limit then .ok (a + b) else .panic := by
    intro a b
    simp only [IntTy.add, IntTy.arith_checks hc, IntTy.usize_has]
  have hmul : ∀ a b : Int, IntTy.usize.mul a b = if 0 ≤ a * b ∧ a * b ≤ limit then .ok (a * b) else .panic := by
    intro a b
    simp only [IntTy.mul, IntTy.arith_checks hc, IntTy.usize_has]
  have hl : 0 ≤ l1 orig dest := by simp only [l1]; omega
  have hu : ∀ v : Int, PosTy.intoUsize T.X v = if 0 ≤ v ∧ v ≤ limit then .ok v else .panic := by
    intro v
    simp only [PosTy.intoUsize, BTy.toUsize, IntTy.tryFrom, IntTy.usize_has]
    split <;> rfl
  have hstart : wayStart T orig dest = if T.X.Valid (orig.1 - dest.1).natAbs ∧ T.Y.Valid (orig.2 - dest.2).natAbs ∧ 4 * l1 orig dest ≤ limit
      then .ok () else .panic := by
    unfold wayStart
    rw [C15_manhattan_exact hc T hT orig dest ho hd]
    simp only [Int.abs_eq_natAbs]
    by_cases h1 : T.X.Valid (orig.1 - dest.1).natAbs ∧ T.Y.Valid (orig.2 - dest.2).natAbs ∧ l1 orig dest ≤ limit
    · rw [if_pos h1, Out.ok_bind, hmul]
      by_cases h2 : 2 * l1 orig dest ≤ limit
      · rw [if_pos ⟨by omega, h2⟩, Out.ok_bind, withCapacity, IntTy.usize_hi]
        by_cases h3 : 4 * l1 orig dest ≤ limit
        · rw [if_pos (by omega), if_pos ⟨h1.1, h1.2.1, h3⟩]
        · rw [if_neg (by omega), if_neg (fun h => h3 h.2.2)]
      · rw [if_neg (fun h => h2 h.2), if_neg (fun h => h2 (by omega))]
        rfl
    · rw [if_neg h1, if_neg (fun h => h1 ⟨h.1, h.2.1, by omega⟩)]
      rfl
  have hsteps : waySteps T = if 0 ≤ T.X.MAX ∧ (T.X.MAX + 1) * (T.X.MAX + 1) + 1 ≤ limit
      then .ok ((T.X.MAX + 1) * (T.X.MAX + 1) + 1).toNat else .panic := by
    unfold waySteps PosTy.width
    rw [hu]
    by_cases h1 : 0 ≤ T.X.MAX
    · have hsq : T.X.MAX + 1 ≤ (T.X.MAX + 1) * (T.X.MAX + 1) := by nlinarith
      by_cases h2 : T.X.MAX + 1 ≤ limit
      · rw [if_pos ⟨h1, by omega⟩, Out.ok_bind, hadd, if_pos ⟨by omega, h2⟩, Out.ok_bind, Out.ok_bind, hmul]
        by_cases h3 : (T.X.MAX + 1) * (T.X.MAX + 1) ≤ limit
        · rw [if_pos ⟨by omega, h3⟩, Out.ok_bind, hadd]
          by_cases h4 : (T.X.MAX + 1) * (T.X.MAX + 1) + 1 ≤ limit
          · rw [if_pos ⟨by omega, h4⟩, if_pos ⟨h1, h4⟩, Out.ok_bind]
          · rw [if_neg (fun h => h4 h.2), if_neg (fun h => h4 h.2), Out.panic_bind]
        · rw [if_neg (fun h => h3 h.2), if_neg (fun h => h3 (by omega))]
          rfl
      · rw [if_neg (c := 0 ≤ T.X.MAX ∧ _ + 1 ≤ limit) (fun h => h2 (by omega))]
        by_cases h3 : T.X.MAX ≤ limit
        · rw [if_pos ⟨h1, h3⟩, Out.ok_bind, hadd, if_neg (fun h => h2 h.2)]
          rfl
        · rw [if_neg (fun h => h3 h.2)]
          rfl
    · rw [if_neg (c := 0 ≤ T.X.MAX ∧ _ + 1 ≤ limit) (fun h => h1 h.1), if_neg (fun h => h1 h.1)]
      rfl
  unfold wayOut
  rw [hstart, hsteps]
  by_cases hs : T.X.Valid (orig.1 - dest.1).natAbs ∧ T.Y.Valid (orig.2 - dest.2).natAbs ∧ 4 * l1 orig dest ≤ limit
  · rw [if_pos hs, Out.ok_bind, if_neg (fun h' => h ⟨hs.1, hs.2.1, hs.2.2, h'.1, h'.2⟩), Out.panic_bind]
  · rw [if_neg hs, Out.panic_bind]

theorem wayStart_cases [Target] {T : PosTy} (hT : T.WF) {orig dest : P2} (ho : InGrid T orig) (hd : InGrid T dest) :
    wayStart T orig dest = .ok () ∨ wayStart T orig dest = .panic := by
  have ha : ∀ v : Int, (∃ n, IntTy.usize.arith v = .ok n) ∨ IntTy.usize.arith v = .panic := by
    intro v
    unfold IntTy.arith
    repeat' split
    all_goals first | exact .inl ⟨_, rfl⟩ | exact .inr rfl
  unfold wayStart
  rw [manhattan_eq hT ho hd]
  split
  · rcases ha (|orig.1 - dest.1| + |orig.2 - dest.2|) with ⟨n, h⟩ | h
    · rw [IntTy.add, h, Out.ok_bind]
      rcases ha (2 * n) with ⟨m, h⟩ | h
      · rw [IntTy.mul, h, Out.ok_bind, withCapacity]
        split
        · exact .inl rfl
        · exact .inr rfl
      · rw [IntTy.mul, h]; exact .inr rfl
    · rw [IntTy.add, h]; exact .inr rfl
  · exact .inr rfl

theorem waySteps_cases [Target] (T : PosTy) : (∃ k, waySteps T = .ok k) ∨ waySteps T = .panic := by
  have ha : ∀ v : Int, (∃ n, IntTy.usize.arith v = .ok n) ∨ IntTy.usize.arith v = .panic := by
    intro v
    unfold IntTy.arith
    repeat' split
    all_goals first | exact .inl ⟨_, rfl⟩ | exact .inr rfl
  unfold waySteps PosTy.width PosTy.intoUsize BTy.toUsize IntTy.tryFrom
  split
  · rcases ha (T.X.MAX + 1) with ⟨n, h⟩ | h
    · rw [Out.unwrapRes_ok, Out.ok_bind, IntTy.add, h, Out.ok_bind, Out.ok_bind]
      rcases ha (n * n) with ⟨m, h⟩ | h
      · rw [IntTy.mul, h, Out.ok_bind]
        rcases ha (m + 1) with ⟨k, h⟩ | h
        · rw [IntTy.add, h]; exact .inl ⟨_, rfl⟩
        · rw [IntTy.add, h]; exact .inr rfl
      · rw [IntTy.mul, h]; exact .inr rfl
    · rw [Out.unwrapRes_ok, Out.ok_bind, IntTy.add, h]; exact .inr rfl
  · exact .inr rfl

theorem wayOut_cases [Target] {T : PosTy} (hT : T.WF) {orig dest : P2} (ho : InGrid T orig) (hd : InGrid T dest) (o : Option (List Dir)) :
    wayOut T orig dest o = .panic ∨ wayOut T orig dest o = .ok (.error .loop) ∨ ∃ path, o = some path ∧ wayOut T orig dest o = .ok (.ok path) := by
  unfold wayOut
  rcases wayStart_cases hT ho hd with h | h <;> rw [h]
  · rcases waySteps_cases T with ⟨k, h⟩ | h <;> rw [h]
    · right
      cases o with
      | none => exact .inl rfl
      | some path =>
        by_cases hk : path.length < k
        · exact .inr ⟨path, rfl, by simp only [Out.ok_bind, if_pos hk]⟩
        · exact .inl (by simp only [Out.ok_bind, if_neg hk])
    · exact .inl rfl
  · exact .inl rfl

theorem PosTy.Searchable.wayFits [Target] {T : PosTy} (hT : T.Searchable) {orig dest : P2} (ho : InGrid T orig) (hd : InGrid T dest) :
    WayFits T orig dest := by
  have hl := l1_le hT.toIsGrid ho hd
  have h1 := hT.valid_iff'.1 ho
  have h2 := hT.valid_iff'.1 hd
  have h3 := hT.alloc
  have hx := hT.x0
  have hy := hT.y0
  refine ⟨?_, ?_, by omega, hT.xmax0, hT.square⟩
  · simp only [BTy.Valid]; omega
  · simp only [BTy.Valid]; omega

theorem PosTy.IsGrid.sq_eq [Target] {T : PosTy} (hT : T.IsGrid) : ((T.nx * T.nx : Nat) : Int) = (T.X.MAX + 1) * (T.X.MAX + 1) := by
  push_cast
  rw [hT.nx_eq]

theorem wayOut_searchable [Target] {T : PosTy} (hT : T.Searchable) {orig dest : P2} (ho : InGrid T orig) (hd : InGrid T dest) (o : Option (List Dir)) :
    wayOut T orig dest o = .ok (match o with
      | some path => if path.length ≤ T.nx * T.nx then .ok path else .error .loop
      | none => .error .loop) := by
  rw [wayOut_fits hT.wf ho hd (hT.wayFits ho hd)]
  cases o with
  | none => rfl
  | some path =>
    have := hT.sq_eq
    simp only
    by_cases h : path.length ≤ T.nx * T.nx
    · rw [if_pos h, if_pos (by omega)]
    · rw [if_neg h, if_neg (by omega)]

theorem camefromIntoPath_eq [Target] (T : PosTy) (M : MapImpl (Option Dir)) (s : M.σ) (orig dest : P2) :
    camefromIntoPath T M s orig dest = (wayStart T orig dest >>= fun _ => M.get s dest >>= fun o => match o with
      | none => .ok (.error .destinationUnreachable)
      | some _ => waySteps T >>= fun k => camefromLoop T M s orig k dest []) := by
  unfold camefromIntoPath wayStart waySteps
  simp only [bind, Out.bind]
  repeat' (first | rfl | split)
  all_goals simp_all

theorem camefromLoop_congr {T : PosTy} (hT : T.WF) (M : MapImpl (Option Dir)) (s : M.σ) (map : P2 → Option Dir) (orig : P2)
    (hget : ∀ p, InGrid T p → M.get s p = .ok (map p)) (k : Nat) : ∀ (p : P2) (ret : List Dir), InGrid T p →
    camefromLoop T M s orig k p ret = camefromLoop T (MapImpl.ideal none) map orig k p ret := by
  induction k with
  | zero => intro p ret hp; rfl
  | succ k ih =>
    intro p ret hp
    rw [camefromLoop, camefromLoop]
    by_cases e : p = orig
    · rw [if_pos e, if_pos e]
    · rw [if_neg e, if_neg e, hget p hp, show (MapImpl.ideal none).get map p = .ok (map p) from rfl, Out.ok_bind, Out.ok_bind]
      cases map p with
      | none => rfl
      | some d =>
        simp only
        rw [Dir.flip_eq, Out.ok_bind, Out.ok_bind, PosTy.addDir_eq hT p hp d]
        by_cases hin : InGrid T (neighbour p d)
        · rw [if_pos (show T.Valid _ from hin)]
          exact ih _ _ hin
        · rw [if_neg (show ¬ T.Valid _ from hin)]

/-- On ideal maps. -/
theorem camefrom_ideal [Target] {T : PosTy} {M : MapImpl (Option Dir)} {R} (hM : M.Sim T none R) {s : M.σ} {map : P2 → Option Dir} (hR : R s map)
    (hT : T.WF) {orig dest : P2} (hdest : InGrid T dest) :
    camefromIntoPath T M s orig dest = camefromIntoPath T (MapImpl.ideal none) map orig dest := by
  rw [camefromIntoPath_eq, camefromIntoPath_eq, hM.get hR hdest, show (MapImpl.ideal none).get map dest = .ok (map dest) from rfl]
  congr 1
  funext _
  rw [Out.ok_bind, Out.ok_bind]
  cases map dest with
  | none => rfl
  | some d =>
    simp only
    congr 1
    funext k
    exact camefromLoop_congr hT M s map orig (fun p hp => hM.get hR hp) k dest [] hdest

/-- The way back from a position that has one. -/
theorem camefrom_arrives_out [Target] {T : PosTy} (hT : T.WF) {map : P2 → Option Dir} {orig dest : P2} (hdest : InGrid T dest) (hm : map dest ≠ none)
    {path : List Dir} (hA : Arrives T map orig dest path) :
    camefromIntoPath T (MapImpl.ideal none) map orig dest = wayOut T orig dest (some path) := by
  obtain ⟨d, hd⟩ := Option.ne_none_iff_exists'.1 hm
  rw [camefromIntoPath_eq, show (MapImpl.ideal none).get map dest = .ok (map dest) from rfl, hd]
  unfold wayOut
  congr 1
  funext _
  rw [Out.ok_bind]
  simp only
  congr 1
  funext k
  rcases camefromLoop_spec hT (MapImpl.ideal none) map map orig (fun p hp => rfl) k dest [] hdest with ⟨path', a1, a2, a3⟩ | ⟨n, a1, a2, a3⟩ | ⟨a1, a2, a3⟩
  · rw [a3, hA.unique a1, if_pos a2, List.append_nil]
  · exact absurd a1 (hA.not_stuck n)
  · rw [a3, if_neg (by have := a1 _ hA; omega)]

/-- A path that is returned is the way back of the map. -/
theorem camefrom_arrives [Target] {T : PosTy} (hT : T.WF) {map : P2 → Option Dir} {orig dest : P2} (hdest : InGrid T dest) {path : List Dir}
    (h : camefromIntoPath T (MapImpl.ideal none) map orig dest = .ok (.ok path)) : Arrives T map orig dest path := by
  rw [camefromIntoPath_eq, show (MapImpl.ideal none).get map dest = .ok (map dest) from rfl] at h
  cases h1 : wayStart T orig dest with
  | ok =>
    rw [h1, Out.ok_bind, Out.ok_bind] at h
    cases hm : map dest with
    | none => rw [hm] at h; injection h with h; cases h
    | some d =>
      rw [hm] at h
      simp only at h
      cases h2 : waySteps T with
      | ok k =>
        rw [h2, Out.ok_bind] at h
        rcases camefromLoop_spec hT (MapImpl.ideal none) map map orig (fun p hp => rfl) k dest [] hdest with ⟨path', a1, a2, a3⟩ | ⟨n, a1, a2, a3⟩ | ⟨a1, a2, a3⟩
        · rw [a3, List.append_nil] at h
          injection h with h
          injection h with h
          exact h ▸ a1
        · rw [a3] at h; injection h with h; cases h
        · rw [a3] at h; injection h with h; cases h
      | panic => rw [h2] at h; cases h
      | ub => rw [h2] at h; cases h
      | timeout => rw [h2] at h; cases h
  | panic => rw [h1] at h; cases h
  | ub => rw [h1] at h; cases h
  | timeout => rw [h1] at h; cases h

/-- Nothing recorded at the destination. -/
theorem camefrom_none [Target] {T : PosTy} {map : P2 → Option Dir} {orig dest : P2} (hm : map dest = none) {r : Res (List Dir)}
    (h : camefromIntoPath T (MapImpl.ideal none) map orig dest = .ok r) : r = .error .destinationUnreachable := by
  rw [camefromIntoPath_eq, show (MapImpl.ideal none).get map dest = .ok (map dest) from rfl, hm] at h
  cases h1 : wayStart T orig dest with
  | ok => rw [h1] at h; injection h with h; exact h.symm
  | panic => rw [h1] at h; cases h
  | ub => rw [h1] at h; cases h
  | timeout => rw [h1] at h; cases h

/-- A way back without an end. -/
theorem camefrom_circle_out [Target] {T : PosTy} (hT : T.WF) {map : P2 → Option Dir} {orig dest : P2} (hdest : InGrid T dest) (hm : map dest ≠ none)
    (hA : ∀ path, ¬ Arrives T map orig dest path) (hS : ∀ n, ¬ GetsStuck T map orig dest n) :
    camefromIntoPath T (MapImpl.ideal none) map orig dest = wayOut T orig dest none := by
  obtain ⟨d, hd⟩ := Option.ne_none_iff_exists'.1 hm
  rw [camefromIntoPath_eq, show (MapImpl.ideal none).get map dest = .ok (map dest) from rfl, hd]
  unfold wayOut
  congr 1
  funext _
  rw [Out.ok_bind]
  simp only
  congr 1
  funext k
  rcases camefromLoop_spec hT (MapImpl.ideal none) map map orig (fun p hp => rfl) k dest [] hdest with ⟨path', a1, a2, a3⟩ | ⟨n, a1, a2, a3⟩ | ⟨a1, a2, a3⟩
  · exact absurd a1 (hA _)
  · exact absurd a1 (hS _)
  · exact a3

end Sqrid
