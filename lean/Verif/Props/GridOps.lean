import Verif.Spec.GridOps
import Verif.Props.Grid
import Verif.Props.Gridbool
/-! C123: `Grid` and `Gridbool` under histories of writes, flips and rotations. -/

namespace Sqrid

open Spec

attribute [local instance] debug64

/-- One operation on a `Grid` (`IndexMut`, `flip_h`, `flip_v`, `rotate_cw`, `rotate_cc`; grid.rs:308-313, 169-236). -/
def Grid.apply [Target] {α : Type} (T : PosTy) (g : List α) : GridOp α → Out (List α)
  | .set p v => Grid.set T g p v
  | .flipH => Grid.flipH T g
  | .flipV => Grid.flipV T g
  | .rotateCw => Grid.rotateCw T.X.MAX g
  | .rotateCc => Grid.rotateCc T.X.MAX g

/-- One operation on a `Gridbool` (`set`, `flip_h`, `flip_v`, `rotate_cw`, `rotate_cc`; gridbool.rs:116-122, 193-263). -/
def Gridbool.apply [Target] (T : PosTy) (gb : List (BitVec 32)) : GridOp Bool → Out (List (BitVec 32))
  | .set p v => Gridbool.set T gb p v
  | .flipH => Gridbool.flipH T gb
  | .flipV => Gridbool.flipV T gb
  | .rotateCw => Gridbool.rotateCw T.X.MAX gb
  | .rotateCc => Gridbool.rotateCc T.X.MAX gb

/-! ## C123 -/

theorem Grid.apply_rep [Target] {α : Type} {T : PosTy} (hT : T.IsGrid) {g : List α} {f : P2 → α} (h : Grid.Rep T g f) (op : GridOp α) (hp : op.inGrid T)
    (hsq : op.rotates = true → ∃ M, (0 ≤ M ∧ M ≤ 65535) ∧ Fits M M ∧ T = PosTy.pos M M) :
    ∃ g', Grid.apply T g op = .ok g' ∧ Grid.Rep T g' (op.paint T f) := by
  have hc : cols T - 1 = T.X.MAX := by rw [cols, hT.x0]; omega
  have hr : rows T - 1 = T.Y.MAX := by rw [rows, hT.y0]; omega
  cases op with
  | set p v =>
    obtain ⟨g', h1, h2⟩ := h.set' hT hp v
    refine ⟨g', h1, h2.1, fun q hq => ?_⟩
    rw [h2.2 q hq]
    rfl
  | flipH =>
    obtain ⟨g', f', h1, h2, h3⟩ := Grid.flipH_rep hT h
    refine ⟨g', h1, h2.1, fun q hq => ?_⟩
    rw [h2.2 q hq, h3 q hq]
    simp only [GridOp.paint, hc]
  | flipV =>
    obtain ⟨g', f', h1, h2, h3⟩ := Grid.flipV_rep hT h
    refine ⟨g', h1, h2.1, fun q hq => ?_⟩
    rw [h2.2 q hq, h3 q hq]
    simp only [GridOp.paint, hr]
  | rotateCw =>
    obtain ⟨M, hM, hf, rfl⟩ := hsq rfl
    obtain ⟨⟨g', f', h1, h2, h3⟩, -⟩ := Grid.rotate_rep hM hf h
    refine ⟨g', h1, h2.1, fun q hq => ?_⟩
    rw [h2.2 q hq, h3 q hq]
    simp only [GridOp.paint, hc]
    rfl
  | rotateCc =>
    obtain ⟨M, hM, hf, rfl⟩ := hsq rfl
    obtain ⟨-, ⟨g', f', h1, h2, h3⟩⟩ := Grid.rotate_rep hM hf h
    refine ⟨g', h1, h2.1, fun q hq => ?_⟩
    rw [h2.2 q hq, h3 q hq]
    simp only [GridOp.paint, hr]
    rfl

theorem Gridbool.apply_rep [Target] {T : PosTy} (hT : T.IsGrid) {W : Nat} (hW : T.nx * T.ny ≤ 32 * W) {gb : List (BitVec 32)} {f : P2 → Bool} {pad : Nat → Bool}
    (h : Gridbool.Rep T W gb f pad) (op : GridOp Bool) (hp : op.inGrid T)
    (hsq : op.rotates = true → ∃ M, (0 ≤ M ∧ M ≤ 65535) ∧ Fits M M ∧ T = PosTy.pos M M) :
    ∃ gb', Gridbool.apply T gb op = .ok gb' ∧ Gridbool.Rep T W gb' (op.paintAround T f) pad := by
  have hc : cols T - 1 = T.X.MAX := by rw [cols, hT.x0]; omega
  have hr : rows T - 1 = T.Y.MAX := by rw [rows, hT.y0]; omega
  have e : ∀ op : GridOp Bool, op.rotates = false → op.paintAround T f = op.paint T f := by
    intro op ho
    funext p
    simp [GridOp.paintAround, ho]
  cases op with
  | set p v =>
    obtain ⟨g', h1, h2⟩ := h.set hT hW hp v
    refine ⟨g', h1, h2.1, fun q hq => ?_, h2.2.2⟩
    rw [h2.2.1 q hq, e _ rfl]
    rfl
  | flipH =>
    obtain ⟨g', f', h1, h2, h3⟩ := Gridbool.flipH_rep hT hW h
    refine ⟨g', h1, h2.1, fun q hq => ?_, h2.2.2⟩
    rw [h2.2.1 q hq, h3 q hq, e _ rfl]
    simp only [GridOp.paint, hc]
  | flipV =>
    obtain ⟨g', f', h1, h2, h3⟩ := Gridbool.flipV_rep hT hW h
    refine ⟨g', h1, h2.1, fun q hq => ?_, h2.2.2⟩
    rw [h2.2.1 q hq, h3 q hq, e _ rfl]
    simp only [GridOp.paint, hr]
  | rotateCw =>
    obtain ⟨M, hM, hf, rfl⟩ := hsq rfl
    obtain ⟨⟨g', f', h1, h2, h3⟩, -⟩ := Gridbool.rotate_rep hM hf hW h
    refine ⟨g', h1, h2.1, fun q hq => ?_, h2.2.2⟩
    rw [h2.2.1 q hq]
    simp only [GridOp.paintAround, hc, GridOp.rotates, true_and]
    split
    · rename_i hcore
      exact (h3 q hq).2 hcore
    · rename_i hcore
      rw [(h3 q hq).1 hcore]
      simp only [GridOp.paint, hc]
      rfl
  | rotateCc =>
    obtain ⟨M, hM, hf, rfl⟩ := hsq rfl
    obtain ⟨-, ⟨g', f', h1, h2, h3⟩⟩ := Gridbool.rotate_rep hM hf hW h
    refine ⟨g', h1, h2.1, fun q hq => ?_, h2.2.2⟩
    rw [h2.2.1 q hq]
    simp only [GridOp.paintAround, hc, GridOp.rotates, true_and]
    split
    · rename_i hcore
      exact (h3 q hq).2 hcore
    · rename_i hcore
      rw [(h3 q hq).1 hcore]
      simp only [GridOp.paint, hr]
      rfl

/-- C123. After any history of writes, flips and rotations, a `Grid` reads as the picture that the history paints. -/
theorem C123_grid [Target] {α : Type} (T : PosTy) (hT : T.IsGrid) (g : List α) (hg : (g.length : Int) = cols T * rows T) (f : Int × Int → α)
    (hf : ∀ p, InGrid T p → Grid.get T g p = .ok (f p)) (ops : List (GridOp α)) (hops : ∀ op ∈ ops, op.inGrid T)
    (hsq : ∀ op ∈ ops, op.rotates = true → ∃ M, (0 ≤ M ∧ M ≤ 65535) ∧ Fits M M ∧ T = PosTy.pos M M) :
    ∃ g', ops.foldlM (Grid.apply T) g = .ok g' ∧ g'.length = g.length ∧ ∀ p, InGrid T p → Grid.get T g' p = .ok (ops.foldl (GridOp.paint T) f p) := by
  have hl := (Grid.length_iff hT g).1 hg
  obtain ⟨g', h1, h2⟩ := foldlM_rel (Grid.Rep T) (Grid.apply T) (GridOp.paint T) ops
    (fun g f op hop h => Grid.apply_rep hT h op (hops op hop) (hsq op hop)) g f (Grid.rep_of_get hT hl hf)
  exact ⟨g', h1, by rw [h2.1, hl], fun p hp => h2.get hT hp⟩

/-- C123. After any history of writes, flips and rotations, a `Gridbool` reads as the picture that the history paints, except that the rotations leave the
middle as it is. -/
theorem C123_gridbool_exact [Target] (T : PosTy) (hT : T.IsGrid) (gb : List (BitVec 32)) (hW : cols T * rows T ≤ 32 * (gb.length : Int))
    (f : Int × Int → Bool) (hf : ∀ p, InGrid T p → Gridbool.get T gb p = .ok (f p)) (ops : List (GridOp Bool)) (hops : ∀ op ∈ ops, op.inGrid T)
    (hsq : ∀ op ∈ ops, op.rotates = true → ∃ M, (0 ≤ M ∧ M ≤ 65535) ∧ Fits M M ∧ T = PosTy.pos M M) :
    ∃ gb', ops.foldlM (Gridbool.apply T) gb = .ok gb' ∧ gb'.length = gb.length ∧
      ∀ p, InGrid T p → Gridbool.get T gb' p = .ok (ops.foldl (GridOp.paintAround T) f p) := by
  have hW' := (Gridbool.words_iff hT _).1 hW
  have h0 : Gridbool.Rep T gb.length gb f (Gridbool.bit gb) := by
    refine ⟨rfl, fun p hp => ?_, fun _ _ _ => rfl⟩
    have := (Gridbool.exists_rep T gb).get hT hW' hp
    rw [hf p hp] at this
    injection this with this
    exact this.symm
  obtain ⟨gb', h1, h2⟩ := foldlM_rel (fun gb' f => Gridbool.Rep T gb.length gb' f (Gridbool.bit gb)) (Gridbool.apply T) (GridOp.paintAround T) ops
    (fun g f op hop h => Gridbool.apply_rep hT hW' h op (hops op hop) (hsq op hop)) gb f h0
  exact ⟨gb', h1, h2.1, fun p hp => h2.get hT hW' hp⟩

/-- C123, the full claim: under any history of writes, flips and rotations, a `Gridbool` reads as a `Grid` of `bool` that has read the same before. -/
def C123_claim [Target] (T : PosTy) : Prop :=
  ∀ (g : List Bool) (gb : List (BitVec 32)), (g.length : Int) = cols T * rows T → cols T * rows T ≤ 32 * (gb.length : Int) →
    (∀ p, InGrid T p → Gridbool.get T gb p = Grid.get T g p) → ∀ ops : List (GridOp Bool), (∀ op ∈ ops, op.inGrid T) →
    (∀ op ∈ ops, op.rotates = true → ∃ M, (0 ≤ M ∧ M ≤ 65535) ∧ Fits M M ∧ T = PosTy.pos M M) →
    ∃ g' gb', ops.foldlM (Grid.apply T) g = .ok g' ∧ ops.foldlM (Gridbool.apply T) gb = .ok gb' ∧
      ∀ p, InGrid T p → Gridbool.get T gb' p = Grid.get T g' p

theorem paintAround_eq {α : Type} {T : PosTy} (op : GridOp α) (f : P2 → α) (h : op.rotates = true → cols T % 2 = 1 ∧ rows T = cols T) :
    op.paintAround T f = op.paint T f := by
  funext p
  simp only [GridOp.paintAround]
  split
  · rename_i hc
    obtain ⟨h1, h2, h3⟩ := hc
    obtain ⟨h4, h5⟩ := h h1
    cases op with
    | rotateCw => simp only [GridOp.paint]; congr 1; apply Prod.ext <;> simp only <;> omega
    | rotateCc => simp only [GridOp.paint]; congr 1; apply Prod.ext <;> simp only <;> omega
    | set _ _ => cases h1
    | flipH => cases h1
    | flipV => cases h1
  · rfl

theorem paints_eq {α : Type} {T : PosTy} (ops : List (GridOp α)) (h : ∀ op ∈ ops, op.rotates = true → cols T % 2 = 1 ∧ rows T = cols T) :
    ∀ f : P2 → α, ops.foldl (GridOp.paintAround T) f = ops.foldl (GridOp.paint T) f := by
  induction ops with
  | nil => intro f; rfl
  | cons op ops ih =>
    intro f
    rw [List.foldl_cons, List.foldl_cons, paintAround_eq op f (h op (by simp)), ih fun op hop => h op (by simp [hop])]

/-- C123, when there are no rotations or the number of columns is odd. Missing: rotations of grids with an even number of columns, for which it is false
(`C123_refuted`); `C123_gridbool_exact` says what a `Gridbool` does then. -/
theorem C123_same_partial [Target] (T : PosTy) (hT : T.IsGrid) (g : List Bool) (gb : List (BitVec 32)) (hg : (g.length : Int) = cols T * rows T)
    (hW : cols T * rows T ≤ 32 * (gb.length : Int)) (hsame : ∀ p, InGrid T p → Gridbool.get T gb p = Grid.get T g p) (ops : List (GridOp Bool))
    (hops : ∀ op ∈ ops, op.inGrid T)
    (hsq : ∀ op ∈ ops, op.rotates = true → ∃ M, (0 ≤ M ∧ M ≤ 65535) ∧ Fits M M ∧ T = PosTy.pos M M)
    (hodd : (∀ op ∈ ops, op.rotates = false) ∨ cols T % 2 = 1) :
    ∃ g' gb', ops.foldlM (Grid.apply T) g = .ok g' ∧ ops.foldlM (Gridbool.apply T) gb = .ok gb' ∧
      ∀ p, InGrid T p → Gridbool.get T gb' p = Grid.get T g' p := by
  obtain ⟨f, hf⟩ := Grid.exists_rep hT g ((Grid.length_iff hT g).1 hg)
  have hget : ∀ p, InGrid T p → Grid.get T g p = .ok (f p) := fun p hp => hf.get hT hp
  obtain ⟨g', a1, -, a3⟩ := C123_grid T hT g hg f hget ops hops hsq
  obtain ⟨gb', b1, -, b3⟩ := C123_gridbool_exact T hT gb hW f (fun p hp => (hsame p hp).trans (hget p hp)) ops hops hsq
  refine ⟨g', gb', a1, b1, fun p hp => ?_⟩
  rw [a3 p hp, b3 p hp, paints_eq ops]
  intro op hop hr
  rcases hodd with h | h
  · rw [h op hop] at hr; cases hr
  · obtain ⟨M, -, -, rfl⟩ := hsq op hop hr
    exact ⟨h, rfl⟩

/-- C123 is false for a grid of 2x2. -/
theorem C123_refuted [Target] : ¬ C123_claim (PosTy.pos 1 1) := by
  intro h
  obtain ⟨g', gb', h1, h2, h3⟩ := h [true, false, false, false] [0x80000000#32] (by decide) (by decide) (by
    intro p hp
    obtain ⟨⟨a1, a2⟩, a3, a4⟩ := hp
    obtain ⟨x, y⟩ := p
    simp only [PosTy.pos, BTy.MIN, BTy.MAX] at a1 a2 a3 a4
    obtain rfl | rfl : x = 0 ∨ x = 1 := by omega
    all_goals obtain rfl | rfl : y = 0 ∨ y = 1 := by omega
    all_goals decide_target) [.rotateCw] (by simp [GridOp.inGrid]) (fun _ _ _ => ⟨1, by decide, by fits_small, rfl⟩)
  have e1 : [GridOp.rotateCw].foldlM (Grid.apply (PosTy.pos 1 1)) [true, false, false, false] = .ok [false, true, false, false] := by decide_target
  have e2 : [GridOp.rotateCw].foldlM (Gridbool.apply (PosTy.pos 1 1)) [0x80000000#32] = .ok [0x80000000#32] := by decide_target
  rw [e1] at h1
  rw [e2] at h2
  injection h1 with h1
  injection h2 with h2
  subst h1 h2
  exact absurd (h3 (0, 0) (by unfold InGrid; decide)) (by decide_target)

/-- C34. Turning twice is flipping both ways, and flipping before a turn is flipping after the opposite turn. -/
theorem C34_rotate_flips [Target] {α : Type} (M : Int) (hM : 0 ≤ M ∧ M ≤ 65535) (hfit : Fits M M) (g : List α)
    (hg : (g.length : Int) = (M + 1) * (M + 1)) :
    (Grid.rotateCw M g >>= Grid.rotateCw M) = (Grid.flipH (PosTy.pos M M) g >>= Grid.flipV (PosTy.pos M M)) ∧
    (Grid.flipH (PosTy.pos M M) g >>= Grid.rotateCw M) = (Grid.rotateCc M g >>= Grid.flipH (PosTy.pos M M)) ∧
    (Grid.flipV (PosTy.pos M M) g >>= Grid.rotateCw M) = (Grid.rotateCc M g >>= Grid.flipV (PosTy.pos M M)) := by
  have hT := PosTy.pos_isGrid hM hM hfit
  have hl := (Grid.length_iff hT g).1 (by rw [hg]; show _ = (M - 0 + 1) * (M - 0 + 1); rw [Int.sub_zero])
  obtain ⟨f, hf⟩ := Grid.exists_rep hT g hl
  have hc : cols (PosTy.pos M M) - 1 = M := by show M - 0 + 1 - 1 = M; omega
  have hr : rows (PosTy.pos M M) - 1 = M := by show M - 0 + 1 - 1 = M; omega
  have two : ∀ a b : GridOp α, a.inGrid (PosTy.pos M M) → b.inGrid (PosTy.pos M M) →
      ∃ g', (Grid.apply (PosTy.pos M M) g a >>= fun g => Grid.apply (PosTy.pos M M) g b) = .ok g' ∧
        Grid.Rep (PosTy.pos M M) g' (b.paint (PosTy.pos M M) (a.paint (PosTy.pos M M) f)) := by
    intro a b ha hb
    obtain ⟨g1, h1, h2⟩ := Grid.apply_rep hT hf a ha fun _ => ⟨M, hM, hfit, rfl⟩
    obtain ⟨g2, h3, h4⟩ := Grid.apply_rep hT h2 b hb fun _ => ⟨M, hM, hfit, rfl⟩
    exact ⟨g2, by rw [h1, Out.ok_bind, h3], h4⟩
  have same : ∀ a b c d : GridOp α, a.inGrid (PosTy.pos M M) → b.inGrid (PosTy.pos M M) → c.inGrid (PosTy.pos M M) → d.inGrid (PosTy.pos M M) →
      (∀ p, b.paint (PosTy.pos M M) (a.paint (PosTy.pos M M) f) p = d.paint (PosTy.pos M M) (c.paint (PosTy.pos M M) f) p) →
      (Grid.apply (PosTy.pos M M) g a >>= fun g => Grid.apply (PosTy.pos M M) g b) =
        (Grid.apply (PosTy.pos M M) g c >>= fun g => Grid.apply (PosTy.pos M M) g d) := by
    intro a b c d ha hb hc hd h
    obtain ⟨g1, h1, h2⟩ := two a b ha hb
    obtain ⟨g2, h3, h4⟩ := two c d hc hd
    rw [h1, h3, h2.ext hT h4 fun p _ => h p]
  refine ⟨same .rotateCw .rotateCw .flipH .flipV trivial trivial trivial trivial fun p => ?_,
    same .flipH .rotateCw .rotateCc .flipH trivial trivial trivial trivial fun p => ?_,
    same .flipV .rotateCw .rotateCc .flipV trivial trivial trivial trivial fun p => ?_⟩ <;> simp only [GridOp.paint, hc, hr, Int.sub_sub_self]

example : (Grid.rotateCw 1 [1, 2, 3, 4] >>= Grid.rotateCw 1) = .ok [4, 3, 2, 1] ∧
    (Grid.flipH (PosTy.pos 1 1) [1, 2, 3, 4] >>= Grid.rotateCw 1) = .ok [4, 2, 3, 1] := by decide

-- a history on a grid of 3x3
example : ([.set (0, 0) true, .rotateCw, .set (1, 1) true, .flipH, .flipV, .rotateCc, .set (1, 0) true] : List (GridOp Bool)).foldlM
    (Grid.apply (PosTy.pos 2 2)) (List.replicate 9 false) = .ok [false, true, false, false, true, false, false, false, true] := by decide +kernel
example : ([.set (0, 0) true, .rotateCw, .set (1, 1) true, .flipH, .flipV, .rotateCc, .set (1, 0) true] : List (GridOp Bool)).foldlM
    (Gridbool.apply (PosTy.pos 2 2)) [0x0#32] = .ok [0x48800000#32] := by decide +kernel
example : cols (PosTy.pos 2 2) % 2 = 1 ∧ (PosTy.pos 2 2).IsGrid := ⟨by decide, PosTy.pos_isGrid (by decide) (by decide) (.inl rfl)⟩

end Sqrid
