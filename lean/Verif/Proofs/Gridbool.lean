import Verif.Model.Gridbool
import Verif.Proofs.Grid
/-! `Gridbool` as a function from positions to booleans. -/

namespace Sqrid

open Spec

namespace Gridbool

/-! ### Bits -/

theorem shift_bit (k : Nat) (hk : k < 32) : (0x80000000#32 >>> k) = BitVec.twoPow 32 (31 - k) := by
  have e : (0x80000000#32) = BitVec.twoPow 32 31 := by decide
  rw [e]
  ext i hi
  rw [← BitVec.getLsbD_eq_getElem, ← BitVec.getLsbD_eq_getElem, BitVec.getLsbD_ushiftRight, BitVec.getLsbD_twoPow,
    BitVec.getLsbD_twoPow]
  have e1 : (31 = k + i) ↔ (31 - k = i) := by omega
  have e2 : 31 - k < 32 := by omega
  simp [e1, e2]

theorem and_bit (w : BitVec 32) (j : Nat) (hj : j < 32) :
    decide (w &&& BitVec.twoPow 32 j ≠ 0#32) = w.getLsbD j := by
  rw [BitVec.and_twoPow]
  cases h : w.getLsbD j
  · simp
  · have : BitVec.twoPow 32 j ≠ 0#32 := by
      intro hc
      have := congrArg (fun b => b.getLsbD j) hc
      simp [hj] at this
    simp [this]

theorem and_shift_bit (w : BitVec 32) (k : Nat) (hk : k < 32) :
    decide (w &&& (0x80000000#32 >>> k) ≠ 0#32) = w.getLsbD (31 - k) := by
  rw [← and_bit w (31 - k) (by omega)]
  congr 1
  rw [shift_bit k hk]

theorem or_bit (w : BitVec 32) (j m : Nat) (hj : j < 32) :
    (w ||| BitVec.twoPow 32 j).getLsbD m = if m = j then true else w.getLsbD m := by
  rw [BitVec.getLsbD_or, BitVec.getLsbD_twoPow]
  by_cases h : m = j
  · subst h; simp [hj]
  · have : ¬ j = m := fun e => h e.symm
    simp [this, h]

theorem andNot_bit (w : BitVec 32) (j m : Nat) (hm : m < 32) :
    (w &&& ~~~ BitVec.twoPow 32 j).getLsbD m = if m = j then false else w.getLsbD m := by
  rw [BitVec.getLsbD_and, BitVec.getLsbD_not, BitVec.getLsbD_twoPow]
  by_cases h : m = j
  · subst h; simp [hm]
  · have : ¬ j = m := fun e => h e.symm
    simp [this, h, hm]

/-- Bit `i` of a gridbool: bit `31 - i % 32` of word `i / 32`. -/
def bit (gb : List (BitVec 32)) (i : Nat) : Bool := ((gb[i / 32]?).getD 0#32).getLsbD (31 - i % 32)

theorem bit_set (gb : List (BitVec 32)) (i m : Nat) (hi : i / 32 < gb.length) (w' : BitVec 32) (b : Bool)
    (hw : ∀ m, m < 32 → w'.getLsbD m = if m = 31 - i % 32 then b else ((gb[i / 32]?).getD 0#32).getLsbD m) :
    bit (gb.set (i / 32) w') m = if m = i then b else bit gb m := by
  simp only [bit]
  by_cases h : m / 32 = i / 32
  · rw [h, List.getElem?_set_self hi, Option.getD_some, hw _ (by omega)]
    by_cases hm : m = i
    · subst hm; simp
    · rw [if_neg hm, if_neg (by omega)]
  · rw [List.getElem?_set_ne (fun e => h e.symm), if_neg (fun e => h (by rw [e]))]

/-! ### Representation -/

variable {T : PosTy}

/-- The gridbool `gb` has `W` words, its bit at the index of `p` is `f p`, and `pad` gives the bits that belong to no position. -/
def Rep (T : PosTy) (W : Nat) (gb : List (BitVec 32)) (f : P2 → Bool) (pad : Nat → Bool) : Prop :=
  gb.length = W ∧ (∀ p, T.Valid p → bit gb (T.idx p) = f p) ∧
    ∀ i, T.nx * T.ny ≤ i → i < 32 * W → bit gb i = pad i

theorem exists_rep (T : PosTy) (gb : List (BitVec 32)) : Rep T gb.length gb (fun p => bit gb (T.idx p)) (bit gb) :=
  ⟨rfl, fun _ _ => rfl, fun _ _ _ => rfl⟩

theorem word_lt [Target] (hT : T.IsGrid) {W : Nat} (hW : T.nx * T.ny ≤ 32 * W) {p : P2} (hp : T.Valid p) : T.idx p / 32 < W := by
  have := hT.idx_lt hp; omega

theorem Rep.get [Target] (hT : T.IsGrid) {W : Nat} (hW : T.nx * T.ny ≤ 32 * W) {gb f pad} (h : Rep T W gb f pad) {p : P2}
    (hp : T.Valid p) : Gridbool.get T gb p = .ok (f p) := by
  have hlt : T.idx p / 32 < gb.length := by rw [h.1]; exact word_lt hT hW hp
  rw [Gridbool.get, hT.toUsize_idx hp, Out.ok_bind]
  simp only [byteBit, Int.toNat_natCast]
  rw [List.getElem?_eq_getElem hlt]
  simp only
  rw [← h.2.1 p hp, bit, List.getElem?_eq_getElem hlt, Option.getD_some]
  exact congrArg Out.ok (and_shift_bit _ _ (by omega))

theorem Rep.write [Target] (hT : T.IsGrid) {W : Nat} (hW : T.nx * T.ny ≤ 32 * W) {gb f pad} (h : Rep T W gb f pad) {p : P2}
    (hp : T.Valid p) (w' : BitVec 32) (b : Bool)
    (hw : ∀ m, m < 32 → w'.getLsbD m = if m = 31 - T.idx p % 32 then b else ((gb[T.idx p / 32]?).getD 0#32).getLsbD m) :
    Rep T W (gb.set (T.idx p / 32) w') (upd f p b) pad := by
  have hlt : T.idx p / 32 < gb.length := by rw [h.1]; exact word_lt hT hW hp
  refine ⟨by rw [List.length_set]; exact h.1, fun q hq => ?_, fun i h1 h2 => ?_⟩
  · rw [bit_set gb _ _ hlt w' b hw]
    by_cases e : q = p
    · subst e; rw [upd_same, if_pos rfl]
    · rw [upd_other _ _ e, if_neg (fun hi => e (hT.idx_inj hq hp hi)), h.2.1 q hq]
  · have := hT.idx_lt hp
    rw [bit_set gb _ _ hlt w' b hw, if_neg (by omega), h.2.2 i h1 h2]

theorem Rep.set [Target] (hT : T.IsGrid) {W : Nat} (hW : T.nx * T.ny ≤ 32 * W) {gb f pad} (h : Rep T W gb f pad) {p : P2}
    (hp : T.Valid p) (b : Bool) :
    ∃ gb', Gridbool.set T gb p b = .ok gb' ∧ Rep T W gb' (upd f p b) pad := by
  have hlt : T.idx p / 32 < gb.length := by rw [h.1]; exact word_lt hT hW hp
  have hget : (gb[T.idx p / 32]?).getD 0#32 = gb[T.idx p / 32] := by rw [List.getElem?_eq_getElem hlt, Option.getD_some]
  cases b
  · refine ⟨gb.set (T.idx p / 32) (gb[T.idx p / 32] &&& ~~~ BitVec.twoPow 32 (31 - T.idx p % 32)), ?_, ?_⟩
    · rw [Gridbool.set, if_neg (by simp), setF, hT.toUsize_idx hp, Out.ok_bind]
      simp only [byteBit, Int.toNat_natCast]
      rw [List.getElem?_eq_getElem hlt, shift_bit _ (by omega)]
    · refine h.write hT hW hp _ false (fun m hm => ?_)
      rw [andNot_bit _ _ _ hm, hget]
  · refine ⟨gb.set (T.idx p / 32) (gb[T.idx p / 32] ||| BitVec.twoPow 32 (31 - T.idx p % 32)), ?_, ?_⟩
    · rw [Gridbool.set, if_pos rfl, setT, hT.toUsize_idx hp, Out.ok_bind]
      simp only [byteBit, Int.toNat_natCast]
      rw [List.getElem?_eq_getElem hlt, shift_bit _ (by omega)]
    · refine h.write hT hW hp _ true (fun m hm => ?_)
      rw [or_bit _ _ _ (by omega), hget]

theorem bit_repeat (W : Nat) (b : Bool) (i : Nat) (hi : i < 32 * W) : bit («repeat» W b) i = b := by
  have h : 31 - i % 32 < 32 := by omega
  rw [bit, «repeat», List.getElem?_replicate, if_pos (by omega), Option.getD_some]
  cases b
  · simp
  · rw [if_pos rfl]
    have e : (0xFFFFFFFF#32) = BitVec.allOnes 32 := by decide
    rw [e, BitVec.getLsbD_allOnes]
    simpa using h

theorem rep_repeat [Target] (hT : T.IsGrid) {W : Nat} (hW : T.nx * T.ny ≤ 32 * W) (b : Bool) :
    Rep T W («repeat» W b) (fun _ => b) (fun _ => b) := by
  refine ⟨by simp [«repeat»], fun p hp => bit_repeat W b _ ?_, fun i _ h => bit_repeat W b i h⟩
  have := hT.idx_lt hp; omega

theorem bit_ext {a b : List (BitVec 32)} (hl : a.length = b.length) (h : ∀ i, i < 32 * a.length → bit a i = bit b i) :
    a = b := by
  apply List.ext_getElem hl
  intro i h1 h2
  apply BitVec.eq_of_getLsbD_eq
  intro j hj
  have := h (32 * i + (31 - j)) (by omega)
  simp only [bit] at this
  rw [show (32 * i + (31 - j)) / 32 = i by omega, show 31 - (32 * i + (31 - j)) % 32 = j by omega,
    List.getElem?_eq_getElem h1, List.getElem?_eq_getElem h2] at this
  exact this

theorem Rep.ext [Target] (hT : T.IsGrid) {W : Nat} {a b f f' pad pad'} (ha : Rep T W a f pad)
    (hb : Rep T W b f' pad') (hf : ∀ p, T.Valid p → f p = f' p)
    (hpad : ∀ i, T.nx * T.ny ≤ i → i < 32 * W → pad i = pad' i) : a = b := by
  refine bit_ext (by rw [ha.1, hb.1]) (fun i hi => ?_)
  rw [ha.1] at hi
  by_cases h : i < T.nx * T.ny
  · have hv := PosTy.rowAt_valid hT.wf h
    have e := hT.idx_rowAt h
    have h1 := ha.2.1 _ hv
    have h2 := hb.2.1 _ hv
    rw [e] at h1 h2
    rw [h1, h2, hf _ hv]
  · rw [ha.2.2 i (by omega) hi, hb.2.2 i (by omega) hi, hpad i (by omega) hi]

/-- Number of words, as an integer inequality. -/
theorem words_iff [Target] (hT : T.IsGrid) (W : Nat) : cols T * rows T ≤ 32 * (W : Int) ↔ T.nx * T.ny ≤ 32 * W := by
  rw [← hT.cells_eq]; omega

/-! ### Flips and rotations -/

theorem flipH_rep [Target] (hT : T.IsGrid) {W : Nat} (hW : T.nx * T.ny ≤ 32 * W) {gb f pad} (h : Rep T W gb f pad) :
    ∃ gb' f', flipH T gb = .ok gb' ∧ Rep T W gb' f' pad ∧ ∀ q, T.Valid q → f' q = f (T.X.MAX - q.1, q.2) := by
  have h1 := hT.xmax0
  have e : flipH T gb = (flipHList T).foldlM (flipHStep T) gb := by
    simp only [flipH]
    rw [BTy.toList_eq hT.wf.2, Out.ok_bind, hT.width_eq, Out.ok_bind, flipHList]
    exact foldlM_nested (flipHStep T) _ (fun _ => rustRange 0 ((T.X.MAX + 1) / 2)) gb
  obtain ⟨g', h2, h3⟩ := foldlM_rel (fun gb f => Rep T W gb f pad) (flipHStep T)
    (fun f p => swapf f p (T.X.MAX - p.1, p.2)) (flipHList T)
    (by
      intro g f p hp hR
      rw [mem_flipHList] at hp
      have hx0 := hT.x0
      have hv : T.Valid p := by rw [PosTy.valid_iff]; omega
      obtain ⟨hf1, hf2⟩ := C17_flip_h_exact T hT p hv
      simp only [flipHStep]
      rw [PosTy.newX_eq hT.wf hv.1, Out.unwrapRes_ok, Out.ok_bind, hf1, Out.ok_bind, hR.get hT hW hv, Out.ok_bind,
        hR.get hT hW hf2, Out.ok_bind]
      obtain ⟨g1, a1, a2⟩ := hR.set hT hW hv (f (T.X.MAX - p.1, p.2))
      rw [a1, Out.ok_bind]
      exact a2.set hT hW hf2 (f p)) gb f h
  exact ⟨g', _, by rw [e, h2], h3, fun q hq => flipH_foldl hT f q hq⟩

theorem flipV_rep [Target] (hT : T.IsGrid) {W : Nat} (hW : T.nx * T.ny ≤ 32 * W) {gb f pad} (h : Rep T W gb f pad) :
    ∃ gb' f', flipV T gb = .ok gb' ∧ Rep T W gb' f' pad ∧ ∀ q, T.Valid q → f' q = f (q.1, T.Y.MAX - q.2) := by
  have h1 := hT.ymax0
  have e : flipV T gb = (flipVList T).foldlM (flipVStep T) gb := by
    simp only [flipV]
    rw [BTy.toList_eq hT.wf.1, hT.height_eq, Out.ok_bind, Out.ok_bind, flipVList]
    exact foldlM_nested (flipVStep T) _ (fun _ => intsFromTo T.X.MIN T.X.MAX) gb
  obtain ⟨g', h2, h3⟩ := foldlM_rel (fun gb f => Rep T W gb f pad) (flipVStep T)
    (fun f p => swapf f p (p.1, T.Y.MAX - p.2)) (flipVList T)
    (by
      intro g f p hp hR
      rw [mem_flipVList] at hp
      have hy0 := hT.y0
      have hv : T.Valid p := by rw [PosTy.valid_iff]; omega
      obtain ⟨hf1, hf2⟩ := C17_flip_v_exact T hT p hv
      simp only [flipVStep]
      rw [PosTy.newY_eq hT.wf hv.2, Out.unwrapRes_ok, Out.ok_bind, hf1, Out.ok_bind, hR.get hT hW hv, Out.ok_bind,
        hR.get hT hW hf2, Out.ok_bind]
      obtain ⟨g1, a1, a2⟩ := hR.set hT hW hv (f (p.1, T.Y.MAX - p.2))
      rw [a1, Out.ok_bind]
      exact a2.set hT hW hf2 (f p)) gb f h
  exact ⟨g', _, by rw [e, h2], h3, fun q hq => flipV_foldl hT f q hq⟩

/-- Steps of `rotate_cw` in terms of functions. -/
def rotCwF (M : Int) (f : P2 → Bool) (p : P2) : P2 → Bool :=
  upd (upd (upd (upd f p (f (p.2, M - p.1))) (M - p.2, p.1) (f p)) (M - p.1, M - p.2) (f (M - p.2, p.1)))
    (p.2, M - p.1) (f (M - p.1, M - p.2))

/-- Steps of `rotate_cc` in terms of functions. -/
def rotCcF (M : Int) (f : P2 → Bool) (p : P2) : P2 → Bool :=
  upd (upd (upd (upd f p (f (M - p.2, p.1))) (M - p.2, p.1) (f (M - p.1, M - p.2))) (M - p.1, M - p.2) (f (p.2, M - p.1)))
    (p.2, M - p.1) (f p)

theorem rotStep_spec {M rings : Int} (f : P2 → Bool) (p q : P2) (hp : p ∈ rotList M rings) :
    ((rotOrb M p q → rotCwF M f p q = f (cc M q)) ∧ (¬ rotOrb M p q → rotCwF M f p q = f q)) ∧
    ((rotOrb M p q → rotCcF M f p q = f (cw M q)) ∧ (¬ rotOrb M p q → rotCcF M f p q = f q)) := by
  obtain ⟨x, y⟩ := p
  rw [mem_rotList] at hp
  simp only at hp
  have e1 : ¬ ((x, y) : P2) = (M - y, x) := by simp only [Prod.mk.injEq]; omega
  have e2 : ¬ ((x, y) : P2) = (M - x, M - y) := by simp only [Prod.mk.injEq]; omega
  have e3 : ¬ ((x, y) : P2) = (y, M - x) := by simp only [Prod.mk.injEq]; omega
  have e4 : ¬ ((M - y, x) : P2) = (M - x, M - y) := by simp only [Prod.mk.injEq]; omega
  have e5 : ¬ ((M - y, x) : P2) = (y, M - x) := by simp only [Prod.mk.injEq]; omega
  have e6 : ¬ ((M - x, M - y) : P2) = (y, M - x) := by simp only [Prod.mk.injEq]; omega
  have s1 : M - (M - y) = y := by omega
  have s2 : M - (M - x) = x := by omega
  refine ⟨⟨?_, ?_⟩, ?_, ?_⟩
  · rintro (rfl | rfl | rfl | rfl) <;> simp only [rotCwF, upd, cc, s1, s2, e1, e2, e3, e4, e5, e6, if_true, if_false]
  · intro h
    simp only [rotOrb, not_or] at h
    simp only [rotCwF, upd, h.1, h.2.1, h.2.2.1, h.2.2.2, if_false]
  · rintro (rfl | rfl | rfl | rfl) <;> simp only [rotCcF, upd, cw, s1, s2, e1, e2, e3, e4, e5, e6, if_true, if_false]
  · intro h
    simp only [rotOrb, not_or] at h
    simp only [rotCcF, upd, h.1, h.2.1, h.2.2.1, h.2.2.2, if_false]

/-- A position inside the central part that the loops never touch. -/
def Core (M : Int) (q : P2) : Prop :=
  (M / 2 ≤ q.1 ∧ q.1 ≤ M - M / 2) ∧ (M / 2 ≤ q.2 ∧ q.2 ≤ M - M / 2)

theorem rotate_rep [Target] {M : Int} (hM : 0 ≤ M ∧ M ≤ 65535) (hf : Fits M M) {W : Nat}
    (hW : (PosTy.pos M M).nx * (PosTy.pos M M).ny ≤ 32 * W) {gb f pad} (h : Rep (PosTy.pos M M) W gb f pad) :
    (∃ g' f', rotateCw M gb = .ok g' ∧ Rep (PosTy.pos M M) W g' f' pad ∧
      ∀ q, (PosTy.pos M M).Valid q → (¬ Core M q → f' q = f (cc M q)) ∧ (Core M q → f' q = f q)) ∧
    (∃ g' f', rotateCc M gb = .ok g' ∧ Rep (PosTy.pos M M) W g' f' pad ∧
      ∀ q, (PosTy.pos M M).Valid q → (¬ Core M q → f' q = f (cw M q)) ∧ (Core M q → f' q = f q)) := by
  have hT := PosTy.pos_isGrid hM hM hf
  have hv : ∀ p : P2, p ∈ rotList M (M / 2) → (PosTy.pos M M).Valid p := by
    intro p hp
    rw [mem_rotList] at hp
    rw [hT.valid_iff']
    show (0 ≤ p.1 ∧ p.1 ≤ M) ∧ (0 ≤ p.2 ∧ p.2 ≤ M)
    omega
  have hcov : ∀ q, (PosTy.pos M M).Valid q → ((∃ p ∈ rotList M (M / 2), rotOrb M p q) ↔ ¬ Core M q) := by
    intro q hq
    have hq' : (0 ≤ q.1 ∧ q.1 ≤ M) ∧ (0 ≤ q.2 ∧ q.2 ≤ M) := hT.valid_iff'.1 hq
    rw [rotOrb_covers M _ q hq', Core]
    omega
  constructor
  · have e : rotateCw M gb = (rotList M (M / 2)).foldlM (rotateCwStep M) gb := by
      rw [rotateCw, rotList]
      exact foldlM_nested (rotateCwStep M) _ (fun y => rustRange y (M - y)) gb
    obtain ⟨g', h2, h3⟩ := foldlM_rel (fun gb f => Rep (PosTy.pos M M) W gb f pad) (rotateCwStep M) (rotCwF M)
      (rotList M (M / 2))
      (by
        intro g f p hp hR
        have hpv := hv p hp
        obtain ⟨a0, a1, b1, a2, b2, a3, b3⟩ := Grid.rot_positions hM hf hpv
        simp only [rotateCwStep]
        rw [a0, Out.unwrapRes_ok, Out.ok_bind, a1, Out.ok_bind, a2, Out.ok_bind, a3, Out.ok_bind, hR.get hT hW hpv,
          Out.ok_bind, hR.get hT hW b1, Out.ok_bind, hR.get hT hW b2, Out.ok_bind, hR.get hT hW b3, Out.ok_bind]
        obtain ⟨g1, r1, r1'⟩ := hR.set hT hW hpv (f (p.2, M - p.1))
        obtain ⟨g2, r2, r2'⟩ := r1'.set hT hW b1 (f p)
        obtain ⟨g3, r3, r3'⟩ := r2'.set hT hW b2 (f (M - p.2, p.1))
        rw [r1, Out.ok_bind, r2, Out.ok_bind, r3, Out.ok_bind]
        exact r3'.set hT hW b3 (f (M - p.1, M - p.2))) gb f h
    refine ⟨g', _, by rw [e, h2], h3, fun q hq => ?_⟩
    obtain ⟨k1, k2⟩ := rot_foldl M (M / 2) (rotCwF M) (cc M) (Or.inr rfl)
      (fun f p q hp => (rotStep_spec f p q hp).1) f q
    rw [hcov q hq] at k1 k2
    exact ⟨k1, fun hc => k2 (not_not.2 hc)⟩
  · have e : rotateCc M gb = (rotList M (M / 2)).foldlM (rotateCcStep M) gb := by
      rw [rotateCc, rotList]
      exact foldlM_nested (rotateCcStep M) _ (fun y => rustRange y (M - y)) gb
    obtain ⟨g', h2, h3⟩ := foldlM_rel (fun gb f => Rep (PosTy.pos M M) W gb f pad) (rotateCcStep M) (rotCcF M)
      (rotList M (M / 2))
      (by
        intro g f p hp hR
        have hpv := hv p hp
        obtain ⟨a0, a1, b1, a2, b2, a3, b3⟩ := Grid.rot_positions hM hf hpv
        simp only [rotateCcStep]
        rw [a0, Out.unwrapRes_ok, Out.ok_bind, a1, Out.ok_bind, a2, Out.ok_bind, a3, Out.ok_bind, hR.get hT hW hpv,
          Out.ok_bind, hR.get hT hW b1, Out.ok_bind, hR.get hT hW b2, Out.ok_bind, hR.get hT hW b3, Out.ok_bind]
        obtain ⟨g1, r1, r1'⟩ := hR.set hT hW hpv (f (M - p.2, p.1))
        obtain ⟨g2, r2, r2'⟩ := r1'.set hT hW b1 (f (M - p.1, M - p.2))
        obtain ⟨g3, r3, r3'⟩ := r2'.set hT hW b2 (f (p.2, M - p.1))
        rw [r1, Out.ok_bind, r2, Out.ok_bind, r3, Out.ok_bind]
        exact r3'.set hT hW b3 (f p)) gb f h
    refine ⟨g', _, by rw [e, h2], h3, fun q hq => ?_⟩
    obtain ⟨k1, k2⟩ := rot_foldl M (M / 2) (rotCcF M) (cw M) (Or.inl rfl)
      (fun f p q hp => (rotStep_spec f p q hp).2) f q
    rw [hcov q hq] at k1 k2
    exact ⟨k1, fun hc => k2 (not_not.2 hc)⟩

end Gridbool

end Sqrid
