import Verif.Proofs.Store
import Verif.Props.Pos
/-! `Grid` as a function from positions to values. -/

namespace Sqrid

open Spec

/-- Array index of a position (reading order). -/
def PosTy.idx (T : PosTy) (p : P2) : Nat := (p.2 * (T.X.MAX + 1) + p.1).toNat

namespace PosTy.IsGrid

variable [Target] {T : PosTy} (hT : T.IsGrid)
include hT

theorem nx_eq : (T.nx : Int) = T.X.MAX + 1 := by
  have := hT.x0; have := hT.xmax0; simp only [PosTy.nx]; omega

theorem ny_eq : (T.ny : Int) = T.Y.MAX + 1 := by
  have := hT.y0; have := hT.ymax0; simp only [PosTy.ny]; omega

theorem cells_eq : ((T.nx * T.ny : Nat) : Int) = cols T * rows T := by
  rw [Nat.cast_mul, hT.nx_eq, hT.ny_eq]; simp only [cols, rows, hT.x0, hT.y0, Int.sub_zero]

theorem idx_cast {p : P2} (hp : T.Valid p) : ((T.idx p : Nat) : Int) = p.2 * (T.X.MAX + 1) + p.1 := by
  have := (hT.index_lt hp).1
  simp only [PosTy.idx]; omega

theorem toUsize_idx {p : P2} (hp : T.Valid p) : T.toUsize p = .ok (T.idx p : Int) := by
  rw [hT.idx_cast hp]; exact hT.toUsize_eq hp

theorem idx_lt {p : P2} (hp : T.Valid p) : T.idx p < T.nx * T.ny := by
  have h1 := (hT.index_lt hp).2
  rw [← hT.nx_eq, ← hT.ny_eq, ← Nat.cast_mul] at h1
  have h2 := hT.idx_cast hp
  rw [← hT.nx_eq] at h2
  omega

theorem idx_inj {p q : P2} (hp : T.Valid p) (hq : T.Valid q) (h : T.idx p = T.idx q) : p = q := by
  refine C07_to_usize_injective T hT p q hp hq ?_
  rw [hT.toUsize_idx hp, hT.toUsize_idx hq, h]

theorem idx_rowAt {i : Nat} (hi : i < T.nx * T.ny) : T.idx (T.rowAt i) = i := by
  have hv := PosTy.rowAt_valid hT.wf hi
  have h1 := hT.idx_cast hv
  rw [← hT.nx_eq] at h1
  simp only [PosTy.rowAt, hT.x0, hT.y0, Int.zero_add] at h1
  have h2 := Nat.div_add_mod i T.nx
  have h3 : ((i / T.nx : Nat) : Int) * (T.nx : Int) = ((T.nx * (i / T.nx) : Nat) : Int) := by
    rw [Nat.cast_mul, Int.mul_comm]
  rw [h3] at h1
  simp only [PosTy.rowAt, hT.x0, hT.y0, Int.zero_add]
  omega

theorem line_bounds {y : Int} (hy : T.Y.Valid y) :
    0 ≤ y ∧ 0 ≤ y * (T.X.MAX + 1) ∧ y * (T.X.MAX + 1) + (T.X.MAX + 1) ≤ (T.X.MAX + 1) * (T.Y.MAX + 1) := by
  have h0 := hT.y0; have hx := hT.xmax0
  obtain ⟨h1, h2⟩ := hy
  have hy0 : 0 ≤ y := by omega
  refine ⟨hy0, Int.mul_nonneg hy0 (by omega), ?_⟩
  have h3 : (y + 1) * (T.X.MAX + 1) ≤ (T.Y.MAX + 1) * (T.X.MAX + 1) :=
    Int.mul_le_mul_of_nonneg_right (by omega) (by omega)
  rw [Int.add_mul, Int.one_mul] at h3
  rw [Int.mul_comm (T.X.MAX + 1)]
  exact h3

end PosTy.IsGrid

namespace Grid

variable {T : PosTy}

/-- The grid `g` has one item per position, and reading at `p` gives `f p`. -/
def Rep (T : PosTy) (g : List α) (f : P2 → α) : Prop :=
  g.length = T.nx * T.ny ∧ ∀ p, T.Valid p → g[T.idx p]? = some (f p)

theorem get_idx [Target] (hT : T.IsGrid) (g : List α) {p : P2} (hp : T.Valid p) :
    get T g p = getUnchecked g (T.idx p) := by
  simp only [get, hT.toUsize_idx hp, Out.ok_bind]

theorem Rep.get [Target] (hT : T.IsGrid) {g : List α} {f : P2 → α} (h : Rep T g f) {p : P2} (hp : T.Valid p) :
    Grid.get T g p = .ok (f p) := by
  rw [get_idx hT g hp, getUnchecked, Int.toNat_natCast, h.2 p hp]

theorem rep_of_get [Target] (hT : T.IsGrid) {g : List α} {f : P2 → α} (hl : g.length = T.nx * T.ny)
    (h : ∀ p, T.Valid p → Grid.get T g p = .ok (f p)) : Rep T g f := by
  refine ⟨hl, fun p hp => ?_⟩
  have := h p hp
  rw [get_idx hT g hp, getUnchecked, Int.toNat_natCast] at this
  revert this
  cases g[T.idx p]? <;> simp

theorem exists_rep [Target] (hT : T.IsGrid) (g : List α) (hl : g.length = T.nx * T.ny) : ∃ f, Rep T g f := by
  have hpos : 0 < g.length := by rw [hl]; exact Nat.mul_pos hT.wf.nx_pos hT.wf.ny_pos
  refine ⟨fun p => (g[T.idx p]?).getD (g[0]'hpos), hl, fun p hp => ?_⟩
  have := hT.idx_lt hp
  rw [← hl] at this
  simp [List.getElem?_eq_getElem this]

/-- The length of a grid, as an integer equation. -/
theorem length_iff [Target] (hT : T.IsGrid) (g : List α) : (g.length : Int) = cols T * rows T ↔ g.length = T.nx * T.ny := by
  rw [← hT.cells_eq]; omega

theorem Rep.ext [Target] (hT : T.IsGrid) {g g' : List α} {f f' : P2 → α} (h : Rep T g f) (h' : Rep T g' f')
    (hf : ∀ p, T.Valid p → f p = f' p) : g = g' := by
  apply List.ext_getElem?
  intro i
  by_cases hi : i < T.nx * T.ny
  · have hv := PosTy.rowAt_valid hT.wf hi
    have e := hT.idx_rowAt hi
    have h1 := h.2 _ hv
    have h2 := h'.2 _ hv
    rw [e] at h1 h2
    rw [h1, h2, hf _ hv]
  · rw [List.getElem?_eq_none (by rw [h.1]; omega), List.getElem?_eq_none (by rw [h'.1]; omega)]

theorem Rep.set_idx [Target] (hT : T.IsGrid) {g : List α} {f : P2 → α} (h : Rep T g f) {p : P2} (hp : T.Valid p) (v : α) :
    Rep T (g.set (T.idx p) v) (upd f p v) := by
  refine ⟨by rw [List.length_set]; exact h.1, fun q hq => ?_⟩
  by_cases e : q = p
  · subst e
    rw [upd_same, List.getElem?_set_self (by rw [h.1]; exact hT.idx_lt hq)]
  · rw [upd_other f v e, List.getElem?_set_ne (fun hi => e (hT.idx_inj hq hp hi.symm)), h.2 q hq]

theorem Rep.set [Target] (hT : T.IsGrid) {g : List α} {f : P2 → α} (h : Rep T g f) {p : P2} (hp : T.Valid p) (v : α) :
    Grid.set T g p v = .ok (g.set (T.idx p) v) := by
  simp only [Grid.set, hT.toUsize_idx hp, Out.ok_bind, setUnchecked, Int.toNat_natCast]
  rw [if_pos (by rw [h.1]; exact hT.idx_lt hp)]

theorem Rep.set' [Target] (hT : T.IsGrid) {g : List α} {f : P2 → α} (h : Rep T g f) {p : P2} (hp : T.Valid p) (v : α) :
    ∃ g', Grid.set T g p v = .ok g' ∧ Rep T g' (upd f p v) :=
  ⟨_, h.set hT hp v, h.set_idx hT hp v⟩

theorem Rep.swap [Target] (hT : T.IsGrid) {g : List α} {f : P2 → α} (h : Rep T g f) {p q : P2} (hp : T.Valid p) (hq : T.Valid q) :
    ∃ g', Grid.swap g (T.idx p) (T.idx q) = .ok g' ∧ Rep T g' (swapf f p q) := by
  refine ⟨(g.set (T.idx p) (f q)).set (T.idx q) (f p), ?_, ?_⟩
  · simp only [Grid.swap, Int.toNat_natCast, h.2 p hp, h.2 q hq]
  · exact (h.set_idx hT hp (f q)).set_idx hT hq (f p)

theorem rep_repeat [Target] (hT : T.IsGrid) (SIZE : Nat) (hS : SIZE = T.nx * T.ny) (v : α) :
    Rep T («repeat» SIZE v) (fun _ => v) := by
  refine ⟨by simp [«repeat», hS], fun p hp => ?_⟩
  rw [«repeat», List.getElem?_replicate, if_pos (by rw [hS]; exact hT.idx_lt hp)]

/-! ### Flips and rotations -/

theorem flipH_rep [Target] (hT : T.IsGrid) {g : List α} {f : P2 → α} (h : Rep T g f) :
    ∃ g' f', flipH T g = .ok g' ∧ Rep T g' f' ∧ ∀ q, T.Valid q → f' q = f (T.X.MAX - q.1, q.2) := by
  have h1 := hT.xmax0
  have e : flipH T g = (flipHList T).foldlM (flipHStep T) g := by
    simp only [flipH]
    rw [BTy.toList_eq hT.wf.2, Out.ok_bind, hT.width_eq, Out.ok_bind, flipHList]
    exact foldlM_nested (flipHStep T) _ (fun _ => rustRange 0 ((T.X.MAX + 1) / 2)) g
  obtain ⟨g', h2, h3⟩ := foldlM_rel (Rep T) (flipHStep T) (fun f p => swapf f p (T.X.MAX - p.1, p.2)) (flipHList T)
    (by
      intro g f p hp hR
      rw [mem_flipHList] at hp
      have hx0 := hT.x0
      have hv : T.Valid p := by rw [PosTy.valid_iff]; omega
      obtain ⟨hf1, hf2⟩ := C17_flip_h_exact T hT p hv
      simp only [flipHStep]
      rw [PosTy.newX_eq hT.wf hv.1, Out.unwrapRes_ok, Out.ok_bind, hf1, Out.ok_bind, hT.toUsize_idx hv, Out.ok_bind,
        hT.toUsize_idx hf2, Out.ok_bind]
      exact hR.swap hT hv hf2) g f h
  exact ⟨g', _, by rw [e, h2], h3, fun q hq => flipH_foldl hT f q hq⟩

theorem flipV_rep [Target] (hT : T.IsGrid) {g : List α} {f : P2 → α} (h : Rep T g f) :
    ∃ g' f', flipV T g = .ok g' ∧ Rep T g' f' ∧ ∀ q, T.Valid q → f' q = f (q.1, T.Y.MAX - q.2) := by
  have h1 := hT.ymax0
  have e : flipV T g = (flipVList T).foldlM (flipVStep T) g := by
    simp only [flipV]
    rw [BTy.toList_eq hT.wf.1, hT.height_eq, Out.ok_bind, Out.ok_bind, flipVList]
    exact foldlM_nested (flipVStep T) _ (fun _ => intsFromTo T.X.MIN T.X.MAX) g
  obtain ⟨g', h2, h3⟩ := foldlM_rel (Rep T) (flipVStep T) (fun f p => swapf f p (p.1, T.Y.MAX - p.2)) (flipVList T)
    (by
      intro g f p hp hR
      rw [mem_flipVList] at hp
      have hy0 := hT.y0
      have hv : T.Valid p := by rw [PosTy.valid_iff]; omega
      obtain ⟨hf1, hf2⟩ := C17_flip_v_exact T hT p hv
      simp only [flipVStep]
      rw [PosTy.newY_eq hT.wf hv.2, Out.unwrapRes_ok, Out.ok_bind, hf1, Out.ok_bind, hT.toUsize_idx hv, Out.ok_bind,
        hT.toUsize_idx hf2, Out.ok_bind]
      exact hR.swap hT hv hf2) g f h
  exact ⟨g', _, by rw [e, h2], h3, fun q hq => flipV_foldl hT f q hq⟩

/-- The four positions of a rotation step. -/
theorem rot_positions [Target] {M : Int} (hM : 0 ≤ M ∧ M ≤ 65535) (hf : Fits M M) {p : P2} (hp : (PosTy.pos M M).Valid p) :
    Pos.new M M p.1 p.2 = .ok p ∧
    (PosTy.pos M M).rotateCw p = .ok (M - p.2, p.1) ∧ (PosTy.pos M M).Valid (M - p.2, p.1) ∧
    (PosTy.pos M M).rotateCw (M - p.2, p.1) = .ok (M - p.1, M - p.2) ∧ (PosTy.pos M M).Valid (M - p.1, M - p.2) ∧
    (PosTy.pos M M).rotateCw (M - p.1, M - p.2) = .ok (p.2, M - p.1) ∧ (PosTy.pos M M).Valid (p.2, M - p.1) := by
  have hT := PosTy.pos_isGrid hM hM hf
  have one : ∀ p : P2, (PosTy.pos M M).Valid p →
      (PosTy.pos M M).rotateCw p = .ok (M - p.2, p.1) ∧ (PosTy.pos M M).Valid (M - p.2, p.1) := fun p hp =>
    let h := C18_rotate_exact _ hT rfl p hp
    ⟨h.1, h.2.1⟩
  obtain ⟨a1, a2⟩ := one p hp
  obtain ⟨b1, b2⟩ := one _ a2
  obtain ⟨c1, c2⟩ := one _ b2
  simp only at b1 b2 c1 c2
  have e : M - (M - p.2) = p.2 := by omega
  rw [e] at c1 c2
  refine ⟨?_, a1, a2, b1, b2, c1, c2⟩
  simp only [Pos.new, BTy.new_eq]
  have v1 : (BTy.bounded IntTy.u16 0 M).Valid p.1 := hp.1
  have v2 : (BTy.bounded IntTy.u16 0 M).Valid p.2 := hp.2
  rw [if_pos v1, if_pos v2]

/-- Steps of `rotate_cw` in terms of functions. -/
def rotCwF (M : Int) (f : P2 → α) (p : P2) : P2 → α :=
  swapf (swapf (swapf f p (M - p.2, p.1)) p (M - p.1, M - p.2)) p (p.2, M - p.1)

/-- Steps of `rotate_cc` in terms of functions. -/
def rotCcF (M : Int) (f : P2 → α) (p : P2) : P2 → α :=
  swapf (swapf (swapf f p (p.2, M - p.1)) p (M - p.1, M - p.2)) p (M - p.2, p.1)

theorem rotStep_spec {M rings : Int} (f : P2 → α) (p q : P2) (hp : p ∈ rotList M rings) :
    ((rotOrb M p q → rotCwF M f p q = f (cc M q)) ∧ (¬ rotOrb M p q → rotCwF M f p q = f q)) ∧
    ((rotOrb M p q → rotCcF M f p q = f (cw M q)) ∧ (¬ rotOrb M p q → rotCcF M f p q = f q)) := by
  obtain ⟨x, y⟩ := p
  rw [mem_rotList] at hp
  simp only at hp
  have e1 : ¬ ((x, y) : P2) = (M - y, x) := by simp only [Prod.mk.injEq]; omega
  have e2 : ¬ ((x, y) : P2) = (M - x, M - y) := by simp only [Prod.mk.injEq]; omega
  have e3 : ¬ ((x, y) : P2) = (y, M - x) := by simp only [Prod.mk.injEq]; omega
  have e4 : ¬ ((M - y, x) : P2) = (M - x, M - y) := by simp only [Prod.mk.injEq]; omega
  have e5 : ¬ ((M - y, x) : P2) = (y, M - x) := by simp only [Prod.mk.injEq]; omega
  have e6 : ¬ ((M - x, M - y) : P2) = (y, M - x) := by simp only [Prod.mk.injEq]; omega
  have e1' : ¬ ((M - y, x) : P2) = (x, y) := fun h => e1 h.symm
  have e2' : ¬ ((M - x, M - y) : P2) = (x, y) := fun h => e2 h.symm
  have e3' : ¬ ((y, M - x) : P2) = (x, y) := fun h => e3 h.symm
  have e4' : ¬ ((M - x, M - y) : P2) = (M - y, x) := fun h => e4 h.symm
  have e5' : ¬ ((y, M - x) : P2) = (M - y, x) := fun h => e5 h.symm
  have e6' : ¬ ((y, M - x) : P2) = (M - x, M - y) := fun h => e6 h.symm
  have s1 : M - (M - y) = y := by omega
  have s2 : M - (M - x) = x := by omega
  refine ⟨⟨?_, ?_⟩, ?_, ?_⟩
  · rintro (rfl | rfl | rfl | rfl) <;> simp only [rotCwF, swapf_eq, cc, s1, s2, e1, e2, e3, e4, e5, e6, e1', e2', e3', e4', e5', e6', if_true, if_false]
  · intro h
    simp only [rotOrb, not_or] at h
    simp only [rotCwF, swapf_eq, h.1, h.2.1, h.2.2.1, h.2.2.2, if_false]
  · rintro (rfl | rfl | rfl | rfl) <;> simp only [rotCcF, swapf_eq, cw, s1, s2, e1, e2, e3, e4, e5, e6, e1', e2', e3', e4', e5', e6', if_true, if_false]
  · intro h
    simp only [rotOrb, not_or] at h
    simp only [rotCcF, swapf_eq, h.1, h.2.1, h.2.2.1, h.2.2.2, if_false]

theorem rotate_rep [Target] {M : Int} (hM : 0 ≤ M ∧ M ≤ 65535) (hf : Fits M M) {g : List α} {f : P2 → α} (h : Rep (PosTy.pos M M) g f) :
    (∃ g' f', rotateCw M g = .ok g' ∧ Rep (PosTy.pos M M) g' f' ∧
      ∀ q, (PosTy.pos M M).Valid q → f' q = f (cc M q)) ∧
    (∃ g' f', rotateCc M g = .ok g' ∧ Rep (PosTy.pos M M) g' f' ∧
      ∀ q, (PosTy.pos M M).Valid q → f' q = f (cw M q)) := by
  have hT := PosTy.pos_isGrid hM hM hf
  have hh : (PosTy.pos M M).height = .ok (M + 1) := hT.height_eq
  have eM : M + 1 - 1 = M := by omega
  have hv : ∀ p : P2, p ∈ rotList M ((M + 1) / 2) → (PosTy.pos M M).Valid p := by
    intro p hp
    rw [mem_rotList] at hp
    rw [hT.valid_iff']
    show (0 ≤ p.1 ∧ p.1 ≤ M) ∧ (0 ≤ p.2 ∧ p.2 ≤ M)
    omega
  have hu : ∀ p : P2, (PosTy.pos M M).Valid p → IntTy.u16.tryFrom p.1 = .ok p.1 ∧ IntTy.u16.tryFrom p.2 = .ok p.2 := by
    intro p hp
    have hp' : (0 ≤ p.1 ∧ p.1 ≤ M) ∧ (0 ≤ p.2 ∧ p.2 ≤ M) := hT.valid_iff'.1 hp
    exact ⟨if_pos ⟨by show (0 : Int) ≤ _; omega, by show _ ≤ (65535 : Int); omega⟩,
      if_pos ⟨by show (0 : Int) ≤ _; omega, by show _ ≤ (65535 : Int); omega⟩⟩
  have hfix : ∀ q, (PosTy.pos M M).Valid q → ∀ f' : P2 → α,
      (¬ ∃ p ∈ rotList M ((M + 1) / 2), rotOrb M p q) → cc M q = q ∧ cw M q = q := by
    intro q hq f' hn
    have hq' : (0 ≤ q.1 ∧ q.1 ≤ M) ∧ (0 ≤ q.2 ∧ q.2 ≤ M) := hT.valid_iff'.1 hq
    rw [rotOrb_covers M _ q hq'] at hn
    have : 2 * q.1 = M ∧ 2 * q.2 = M := by omega
    constructor <;> (apply Prod.ext <;> simp only [cc, cw] <;> omega)
  constructor
  · have e : rotateCw M g = (rotList M ((M + 1) / 2)).foldlM (rotateCwStep M) g := by
      simp only [rotateCw]
      rw [hh, Out.ok_bind, rotList]
      simp only [eM]
      exact foldlM_nested (rotateCwStep M) _ (fun y => rustRange y (M - y)) g
    obtain ⟨g', h2, h3⟩ := foldlM_rel (Rep (PosTy.pos M M)) (rotateCwStep M) (rotCwF M) (rotList M ((M + 1) / 2))
      (by
        intro g f p hp hR
        have hpv := hv p hp
        obtain ⟨a0, a1, b1, a2, b2, a3, b3⟩ := rot_positions hM hf hpv
        obtain ⟨u1, u2⟩ := hu p hpv
        simp only [rotateCwStep]
        rw [u1, u2, Out.unwrapRes_ok, Out.unwrapRes_ok, Out.ok_bind, Out.ok_bind, a0, Out.unwrapRes_ok, Out.ok_bind, a1,
          Out.ok_bind, a2, Out.ok_bind, a3, Out.ok_bind, hT.toUsize_idx hpv, Out.ok_bind, hT.toUsize_idx b1, Out.ok_bind,
          hT.toUsize_idx b2, Out.ok_bind, hT.toUsize_idx b3, Out.ok_bind]
        obtain ⟨g1, r1, r1'⟩ := hR.swap hT hpv b1
        obtain ⟨g2, r2, r2'⟩ := r1'.swap hT hpv b2
        obtain ⟨g3, r3, r3'⟩ := r2'.swap hT hpv b3
        exact ⟨g3, by rw [r1, Out.ok_bind, r2, Out.ok_bind, r3], r3'⟩) g f h
    refine ⟨g', _, by rw [e, h2], h3, fun q hq => ?_⟩
    obtain ⟨k1, k2⟩ := rot_foldl M ((M + 1) / 2) (rotCwF M) (cc M) (Or.inr rfl)
      (fun f p q hp => (rotStep_spec f p q hp).1) f q
    by_cases hl : ∃ p ∈ rotList M ((M + 1) / 2), rotOrb M p q
    · exact k1 hl
    · rw [k2 hl, (hfix q hq f hl).1]
  · have e : rotateCc M g = (rotList M ((M + 1) / 2)).foldlM (rotateCcStep M) g := by
      simp only [rotateCc]
      rw [hh, Out.ok_bind, rotList]
      simp only [eM]
      exact foldlM_nested (rotateCcStep M) _ (fun y => rustRange y (M - y)) g
    obtain ⟨g', h2, h3⟩ := foldlM_rel (Rep (PosTy.pos M M)) (rotateCcStep M) (rotCcF M) (rotList M ((M + 1) / 2))
      (by
        intro g f p hp hR
        have hpv := hv p hp
        obtain ⟨a0, a1, b1, a2, b2, a3, b3⟩ := rot_positions hM hf hpv
        obtain ⟨u1, u2⟩ := hu p hpv
        simp only [rotateCcStep]
        rw [u1, u2, Out.unwrapRes_ok, Out.unwrapRes_ok, Out.ok_bind, Out.ok_bind, a0, Out.unwrapRes_ok, Out.ok_bind, a1,
          Out.ok_bind, a2, Out.ok_bind, a3, Out.ok_bind, hT.toUsize_idx hpv, Out.ok_bind, hT.toUsize_idx b1, Out.ok_bind,
          hT.toUsize_idx b2, Out.ok_bind, hT.toUsize_idx b3, Out.ok_bind]
        obtain ⟨g1, r1, r1'⟩ := hR.swap hT hpv b3
        obtain ⟨g2, r2, r2'⟩ := r1'.swap hT hpv b2
        obtain ⟨g3, r3, r3'⟩ := r2'.swap hT hpv b1
        exact ⟨g3, by rw [r1, Out.ok_bind, r2, Out.ok_bind, r3], r3'⟩) g f h
    refine ⟨g', _, by rw [e, h2], h3, fun q hq => ?_⟩
    obtain ⟨k1, k2⟩ := rot_foldl M ((M + 1) / 2) (rotCcF M) (cw M) (Or.inl rfl)
      (fun f p q hp => (rotStep_spec f p q hp).2) f q
    by_cases hl : ∃ p ∈ rotList M ((M + 1) / 2), rotOrb M p q
    · exact k1 hl
    · rw [k2 hl, (hfix q hq f hl).2]

end Grid

end Sqrid
