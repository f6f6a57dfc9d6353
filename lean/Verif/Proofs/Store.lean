import Verif.Spec.Target
import Verif.Model.Grid
import Verif.Proofs.Pos
import Mathlib.Data.List.Nodup
/-! Loops that rearrange the values of a position-indexed store, at the level of functions. -/

namespace Sqrid

open Spec

abbrev P2 := Int × Int

/-! ### Loops -/

theorem foldlM_rel {σ τ α : Type _} (R : σ → τ → Prop) (step : σ → α → Out σ) (fstep : τ → α → τ) (l : List α)
    (h : ∀ s f a, a ∈ l → R s f → ∃ s', step s a = .ok s' ∧ R s' (fstep f a)) (s : σ) (f : τ) (hR : R s f) :
    ∃ s', l.foldlM step s = .ok s' ∧ R s' (l.foldl fstep f) := by
  induction l generalizing s f with
  | nil => exact ⟨s, rfl, hR⟩
  | cons a l ih =>
    obtain ⟨s1, h1, h2⟩ := h s f a (by simp) hR
    obtain ⟨s2, h3, h4⟩ := ih (fun s f a ha => h s f a (by simp [ha])) s1 (fstep f a) h2
    exact ⟨s2, by rw [List.foldlM_cons, h1, Out.ok_bind, h3], h4⟩

theorem foldlM_nested {σ : Type _} (st : σ → P2 → Out σ) (ys : List Int) (xs : Int → List Int) (s : σ) :
    ys.foldlM (fun s y => (xs y).foldlM (fun s x => st s (x, y)) s) s
      = (ys.flatMap fun y => (xs y).map fun x => (x, y)).foldlM st s := by
  induction ys generalizing s with
  | nil => rfl
  | cons y ys ih =>
    rw [List.foldlM_cons, List.flatMap_cons, List.foldlM_append, List.foldlM_map]
    congr 1
    funext s'
    exact ih s'

theorem nodup_nested (ys : List Int) (xs : Int → List Int) (hy : ys.Nodup) (hx : ∀ y, (xs y).Nodup) :
    (ys.flatMap fun y => (xs y).map fun x => (x, y)).Nodup := by
  rw [List.nodup_flatMap]
  refine ⟨fun y _ => (hx y).map (fun a b h => by cases h; rfl), ?_⟩
  refine List.Pairwise.imp ?_ hy
  intro a b hab p hp hq
  simp only [List.mem_map] at hp hq
  obtain ⟨_, _, rfl⟩ := hp
  obtain ⟨_, _, h⟩ := hq
  cases h
  exact hab rfl

theorem mem_nested {ys : List Int} {xs : Int → List Int} {p : P2} :
    p ∈ (ys.flatMap fun y => (xs y).map fun x => (x, y)) ↔ p.2 ∈ ys ∧ p.1 ∈ xs p.2 := by
  simp only [List.mem_flatMap, List.mem_map]
  constructor
  · rintro ⟨y, hy, x, hx, rfl⟩; exact ⟨hy, hx⟩
  · rintro ⟨h1, h2⟩; exact ⟨p.2, h1, p.1, h2, rfl⟩

theorem mem_rustRange {a b v : Int} : v ∈ rustRange a b ↔ a ≤ v ∧ v < b := by
  simp only [rustRange, List.mem_map, List.mem_range]
  constructor
  · rintro ⟨i, hi, rfl⟩; omega
  · rintro ⟨h1, h2⟩; exact ⟨(v - a).toNat, by omega, by omega⟩

theorem nodup_rustRange (a b : Int) : (rustRange a b).Nodup := by
  rw [rustRange]
  exact List.nodup_range.map (fun i j h => by omega)

theorem mem_intsFromTo {a b v : Int} : v ∈ intsFromTo a b ↔ a ≤ v ∧ v ≤ b := by
  simp only [intsFromTo, List.mem_map, List.mem_range]
  constructor
  · rintro ⟨i, hi, rfl⟩; omega
  · rintro ⟨h1, h2⟩; exact ⟨(v - a).toNat, by omega, by omega⟩

theorem nodup_intsFromTo (a b : Int) : (intsFromTo a b).Nodup := by
  rw [intsFromTo]
  exact List.nodup_range.map (fun i j h => by omega)

theorem BTy.toList_eq {B : BTy} (hB : B.WF) : B.toList = .ok (intsFromTo B.MIN B.MAX) := by
  have hle := hB.min_le_max
  have h := (B.machine hB).collect ((B.MAX - B.MIN).toNat + 2) (by
    show (B.MAX - B.MIN).toNat + 1 < _; omega)
  have e1 : (B.machine hB).st (some ((B.machine hB).P 0)) (some ((B.machine hB).P (B.machine hB).N))
      = BIter.iter B := by
    show (⟨some (B.MIN + ((0 : Nat) : Int)), some (B.MIN + (((B.MAX - B.MIN).toNat : Nat) : Int))⟩ : BIter) = _
    simp only [BIter.iter, BIter.new, BIter.mk.injEq, Option.some.injEq]; omega
  have e2 : seg (B.machine hB).P 0 ((B.machine hB).N + 1) = intsFromTo B.MIN B.MAX := by
    show seg (fun i : Nat => B.MIN + (i : Int)) 0 ((B.MAX - B.MIN).toNat + 1) = _
    simp only [seg, intsFromTo, Nat.zero_add]
    congr 2
    omega
  rw [e1, e2] at h
  exact h

theorem PosTy.newX_eq {T : PosTy} (hT : T.WF) {x y : Int} (hx : T.X.Valid x) : T.newX x y = .ok (x, y) := by
  rw [PosTy.newX, BTy.tryFrom_eq hT.1, if_pos hx]

theorem PosTy.newY_eq {T : PosTy} (hT : T.WF) {x y : Int} (hy : T.Y.Valid y) : T.newY x y = .ok (x, y) := by
  rw [PosTy.newY, BTy.tryFrom_eq hT.2, if_pos hy]

/-! ### Function-level operations -/

/-- Function update. -/
def upd (f : P2 → α) (p : P2) (v : α) : P2 → α := fun q => if q = p then v else f q

@[simp] theorem upd_same (f : P2 → α) (p : P2) (v : α) : upd f p v p = v := by simp [upd]
theorem upd_other (f : P2 → α) {p q : P2} (v : α) (h : q ≠ p) : upd f p v q = f q := by simp [upd, h]

/-- Exchange of two values. -/
def swapf (f : P2 → α) (p q : P2) : P2 → α := upd (upd f p (f q)) q (f p)

theorem swapf_eq (f : P2 → α) (p q r : P2) : swapf f p q r = if r = q then f p else if r = p then f q else f r := by
  simp [swapf, upd]

/-- A loop that processes disjoint orbits of a permutation `π`, one per list item. -/
theorem orbits_foldl (π : P2 → P2) (orb : P2 → P2 → Prop) (step : (P2 → α) → P2 → (P2 → α)) (l : List P2)
    (hstep : ∀ f p q, p ∈ l → (orb p q → step f p q = f (π q)) ∧ (¬ orb p q → step f p q = f q))
    (hπ : ∀ p q, p ∈ l → orb p q → orb p (π q))
    (hdis : l.Pairwise fun p p' => ∀ q, orb p q → ¬ orb p' q) (f : P2 → α) (q : P2) :
    ((∃ p ∈ l, orb p q) → l.foldl step f q = f (π q)) ∧ ((¬ ∃ p ∈ l, orb p q) → l.foldl step f q = f q) := by
  induction l generalizing f with
  | nil => exact ⟨fun ⟨p, hp, _⟩ => (by cases hp), fun _ => rfl⟩
  | cons p l ih =>
    rw [List.pairwise_cons] at hdis
    obtain ⟨ih1, ih2⟩ := ih (fun f p q hp => hstep f p q (by simp [hp])) (fun p q hp => hπ p q (by simp [hp]))
      hdis.2 (step f p)
    rw [List.foldl_cons]
    constructor
    · rintro ⟨p', hp', ho⟩
      by_cases hl : ∃ p'' ∈ l, orb p'' q
      · rw [ih1 hl]
        obtain ⟨p'', hp'', ho''⟩ := hl
        have h1 := hπ p'' q (by simp [hp'']) ho''
        exact (hstep f p (π q) (by simp)).2 (fun hc => hdis.1 p'' hp'' _ hc h1)
      · rw [ih2 hl]
        rcases List.mem_cons.1 hp' with rfl | hp'
        · exact (hstep f p' q (by simp)).1 ho
        · exact absurd ⟨p', hp', ho⟩ hl
    · intro hn
      rw [ih2 (fun ⟨p'', hp'', ho⟩ => hn ⟨p'', by simp [hp''], ho⟩)]
      exact (hstep f p q (by simp)).2 (fun ho => hn ⟨p, by simp, ho⟩)

/-! ### Flips -/

/-- The positions visited by `flip_h`. -/
def flipHList (T : PosTy) : List P2 :=
  (intsFromTo T.Y.MIN T.Y.MAX).flatMap fun y => (rustRange 0 ((T.X.MAX + 1) / 2)).map fun x => (x, y)

/-- The positions visited by `flip_v`. -/
def flipVList (T : PosTy) : List P2 :=
  (rustRange 0 ((T.Y.MAX + 1) / 2)).flatMap fun y => (intsFromTo T.X.MIN T.X.MAX).map fun x => (x, y)

theorem mem_flipHList {T : PosTy} {p : P2} :
    p ∈ flipHList T ↔ (T.Y.MIN ≤ p.2 ∧ p.2 ≤ T.Y.MAX) ∧ (0 ≤ p.1 ∧ p.1 < (T.X.MAX + 1) / 2) := by
  rw [flipHList, mem_nested, mem_intsFromTo, mem_rustRange]

theorem mem_flipVList {T : PosTy} {p : P2} :
    p ∈ flipVList T ↔ (0 ≤ p.2 ∧ p.2 < (T.Y.MAX + 1) / 2) ∧ (T.X.MIN ≤ p.1 ∧ p.1 ≤ T.X.MAX) := by
  rw [flipVList, mem_nested, mem_intsFromTo, mem_rustRange]

theorem flipH_foldl [Target] {T : PosTy} (hT : T.IsGrid) (f : P2 → α) (q : P2) (hq : T.Valid q) :
    (flipHList T).foldl (fun f p => swapf f p (T.X.MAX - p.1, p.2)) f q = f (T.X.MAX - q.1, q.2) := by
  have hq' := hT.valid_iff'.1 hq
  obtain ⟨h1, h2⟩ := orbits_foldl (fun q : P2 => (T.X.MAX - q.1, q.2))
    (fun p q => q = p ∨ q = (T.X.MAX - p.1, p.2)) (fun f p => swapf f p (T.X.MAX - p.1, p.2)) (flipHList T)
    (by
      intro f p q _
      simp only [swapf_eq]
      constructor
      · rintro (rfl | rfl)
        · by_cases h : q = (T.X.MAX - q.1, q.2)
          · rw [if_pos h, ← h]
          · rw [if_neg h, if_pos rfl]
        · rw [if_pos rfl]; simp only; congr 1; apply Prod.ext <;> simp
      · intro h; rw [not_or] at h; rw [if_neg h.2, if_neg h.1])
    (by
      rintro p q _ (rfl | rfl)
      · exact Or.inr rfl
      · left; apply Prod.ext <;> simp)
    (by
      refine List.Nodup.pairwise_of_forall_ne
        (nodup_nested _ _ (nodup_intsFromTo _ _) (fun _ => nodup_rustRange _ _)) ?_
      intro p hp p' hp' hne q h1 h2
      replace hp := mem_flipHList.1 hp; replace hp' := mem_flipHList.1 hp'
      have hne' : ¬ (p.1 = p'.1 ∧ p.2 = p'.2) := fun h => hne (Prod.ext h.1 h.2)
      simp only [Prod.ext_iff] at h1 h2
      omega)
    f q
  by_cases hl : ∃ p ∈ flipHList T, q = p ∨ q = (T.X.MAX - p.1, p.2)
  · exact h1 hl
  · rw [h2 hl]
    have hy0 := hT.y0
    have e : q.1 = T.X.MAX - q.1 := by
      by_contra hne
      rcases Int.lt_or_gt_of_ne hne with hlt | hgt
      · exact hl ⟨q, mem_flipHList.2 (by omega), Or.inl rfl⟩
      · exact hl ⟨(T.X.MAX - q.1, q.2), mem_flipHList.2 (by simp only; omega), Or.inr (by apply Prod.ext <;> simp)⟩
    congr 1
    exact Prod.ext e rfl

theorem flipV_foldl [Target] {T : PosTy} (hT : T.IsGrid) (f : P2 → α) (q : P2) (hq : T.Valid q) :
    (flipVList T).foldl (fun f p => swapf f p (p.1, T.Y.MAX - p.2)) f q = f (q.1, T.Y.MAX - q.2) := by
  have hq' := hT.valid_iff'.1 hq
  obtain ⟨h1, h2⟩ := orbits_foldl (fun q : P2 => (q.1, T.Y.MAX - q.2))
    (fun p q => q = p ∨ q = (p.1, T.Y.MAX - p.2)) (fun f p => swapf f p (p.1, T.Y.MAX - p.2)) (flipVList T)
    (by
      intro f p q _
      simp only [swapf_eq]
      constructor
      · rintro (rfl | rfl)
        · by_cases h : q = (q.1, T.Y.MAX - q.2)
          · rw [if_pos h, ← h]
          · rw [if_neg h, if_pos rfl]
        · rw [if_pos rfl]; simp only; congr 1; apply Prod.ext <;> simp
      · intro h; rw [not_or] at h; rw [if_neg h.2, if_neg h.1])
    (by
      rintro p q _ (rfl | rfl)
      · exact Or.inr rfl
      · left; apply Prod.ext <;> simp)
    (by
      refine List.Nodup.pairwise_of_forall_ne
        (nodup_nested _ _ (nodup_rustRange _ _) (fun _ => nodup_intsFromTo _ _)) ?_
      intro p hp p' hp' hne q h1 h2
      replace hp := mem_flipVList.1 hp; replace hp' := mem_flipVList.1 hp'
      have hne' : ¬ (p.1 = p'.1 ∧ p.2 = p'.2) := fun h => hne (Prod.ext h.1 h.2)
      simp only [Prod.ext_iff] at h1 h2
      omega)
    f q
  by_cases hl : ∃ p ∈ flipVList T, q = p ∨ q = (p.1, T.Y.MAX - p.2)
  · exact h1 hl
  · rw [h2 hl]
    have hx0 := hT.x0
    have e : q.2 = T.Y.MAX - q.2 := by
      by_contra hne
      rcases Int.lt_or_gt_of_ne hne with hlt | hgt
      · exact hl ⟨q, mem_flipVList.2 (by omega), Or.inl rfl⟩
      · exact hl ⟨(q.1, T.Y.MAX - q.2), mem_flipVList.2 (by simp only; omega), Or.inr (by apply Prod.ext <;> simp)⟩
    congr 1
    exact Prod.ext rfl e

/-! ### Rotations -/

/-- One clockwise quarter turn in the square `0..=M`. -/
def cw (M : Int) (p : P2) : P2 := (M - p.2, p.1)
/-- One counterclockwise quarter turn. -/
def cc (M : Int) (p : P2) : P2 := (p.2, M - p.1)

theorem cw_cc (M : Int) (p : P2) : cw M (cc M p) = p := by apply Prod.ext <;> simp [cw, cc]
theorem cc_cw (M : Int) (p : P2) : cc M (cw M p) = p := by apply Prod.ext <;> simp [cw, cc]

/-- The positions visited by the rotation loops: lines `0..rings`, columns `y..M-y`. -/
def rotList (M rings : Int) : List P2 :=
  (rustRange 0 rings).flatMap fun y => (rustRange y (M - y)).map fun x => (x, y)

theorem mem_rotList {M rings : Int} {p : P2} :
    p ∈ rotList M rings ↔ (0 ≤ p.2 ∧ p.2 < rings) ∧ (p.2 ≤ p.1 ∧ p.1 < M - p.2) := by
  rw [rotList, mem_nested, mem_rustRange, mem_rustRange]

/-- The orbit of a position under the rotation. -/
def rotOrb (M : Int) (p q : P2) : Prop :=
  q = p ∨ q = (M - p.2, p.1) ∨ q = (M - p.1, M - p.2) ∨ q = (p.2, M - p.1)

theorem rot_foldl (M rings : Int) (step : (P2 → α) → P2 → (P2 → α)) (π : P2 → P2)
    (hπ : π = cw M ∨ π = cc M)
    (hstep : ∀ f p q, p ∈ rotList M rings → (rotOrb M p q → step f p q = f (π q)) ∧ (¬ rotOrb M p q → step f p q = f q))
    (f : P2 → α) (q : P2) :
    ((∃ p ∈ rotList M rings, rotOrb M p q) → (rotList M rings).foldl step f q = f (π q)) ∧
    ((¬ ∃ p ∈ rotList M rings, rotOrb M p q) → (rotList M rings).foldl step f q = f q) := by
  refine orbits_foldl π (rotOrb M) step (rotList M rings) hstep ?_ ?_ f q
  · rintro p q _ ho
    simp only [rotOrb, Prod.ext_iff] at ho ⊢
    rcases hπ with rfl | rfl <;> simp only [cw, cc] <;> omega
  · refine List.Nodup.pairwise_of_forall_ne
      (nodup_nested _ _ (nodup_rustRange _ _) (fun _ => nodup_rustRange _ _)) ?_
    intro p hp p' hp' hne q h1 h2
    replace hp := mem_rotList.1 hp; replace hp' := mem_rotList.1 hp'
    have hne' : ¬ (p.1 = p'.1 ∧ p.2 = p'.2) := fun h => hne (Prod.ext h.1 h.2)
    simp only [rotOrb, Prod.ext_iff] at h1 h2
    omega

/-- Which positions of the square are reached: all those outside the central part. -/
theorem rotOrb_covers (M rings : Int) (q : P2) (hq : (0 ≤ q.1 ∧ q.1 ≤ M) ∧ (0 ≤ q.2 ∧ q.2 ≤ M)) :
    (∃ p ∈ rotList M rings, rotOrb M p q) ↔
      ¬ ((rings ≤ q.1 ∧ q.1 ≤ M - rings) ∧ (rings ≤ q.2 ∧ q.2 ≤ M - rings)) ∧ ¬ (2 * q.1 = M ∧ 2 * q.2 = M) := by
  constructor
  · rintro ⟨p, hp, ho⟩
    rw [mem_rotList] at hp
    simp only [rotOrb, Prod.ext_iff] at ho
    omega
  · intro h
    have key : ∀ p : P2, ((0 ≤ p.2 ∧ p.2 < rings) ∧ (p.2 ≤ p.1 ∧ p.1 < M - p.2)) → rotOrb M p q →
        ∃ p ∈ rotList M rings, rotOrb M p q := fun p h1 h2 => ⟨p, mem_rotList.2 h1, h2⟩
    have : ((0 ≤ q.2 ∧ q.2 < rings) ∧ (q.2 ≤ q.1 ∧ q.1 < M - q.2)) ∨
        ((0 ≤ M - q.1 ∧ M - q.1 < rings) ∧ (M - q.1 ≤ q.2 ∧ q.2 < M - (M - q.1))) ∨
        ((0 ≤ M - q.2 ∧ M - q.2 < rings) ∧ (M - q.2 ≤ M - q.1 ∧ M - q.1 < M - (M - q.2))) ∨
        ((0 ≤ q.1 ∧ q.1 < rings) ∧ (q.1 ≤ M - q.2 ∧ M - q.2 < M - q.1)) := by omega
    rcases this with h | h | h | h
    · exact key q h (Or.inl rfl)
    · exact key (q.2, M - q.1) h (Or.inr (Or.inl (by apply Prod.ext <;> simp)))
    · exact key (M - q.1, M - q.2) h (Or.inr (Or.inr (Or.inl (by apply Prod.ext <;> simp))))
    · exact key (M - q.2, q.1) h (Or.inr (Or.inr (Or.inr (by apply Prod.ext <;> simp))))

end Sqrid
