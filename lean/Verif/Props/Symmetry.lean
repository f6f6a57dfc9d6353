import Verif.Spec.Symmetry
import Verif.Props.GridOps
import Mathlib.Tactic.Ring
/-! C132: sequences of flips and rotations. -/

namespace Sqrid

open Spec

attribute [local instance] debug64

/-! ## Pictures -/

/-- A flip or rotation of a square after some quarter turns and perhaps a flip. -/
theorem turnFlip_step {α : Type} {T : PosTy} (hsq : rows T = cols T) (op : GridOp α) (hop : op.moves = true) (k : Nat) (hk : k < 4) (b : Bool) :
    ∃ k' b', k' < 4 ∧ ∀ f : P2 → α, op.paint T ((turnFlip k b).foldl (GridOp.paint T) f) = (turnFlip k' b').foldl (GridOp.paint T) f := by
  have key : ∀ k' : Nat, k' < 4 → ∀ b', (∀ (f : P2 → α) p, op.paint T ((turnFlip k b).foldl (GridOp.paint T) f) p = (turnFlip k' b').foldl (GridOp.paint T) f p) →
      ∃ k' b', k' < 4 ∧ ∀ f : P2 → α, op.paint T ((turnFlip k b).foldl (GridOp.paint T) f) = (turnFlip k' b').foldl (GridOp.paint T) f :=
    fun k' h1 b' h2 => ⟨k', b', h1, fun f => funext (h2 f)⟩
  obtain rfl | rfl | rfl | rfl : k = 0 ∨ k = 1 ∨ k = 2 ∨ k = 3 := by omega
  all_goals cases b <;> cases op
  all_goals first
    | exact (Bool.false_ne_true hop).elim
    | (refine key 0 (by omega) false fun f p => ?_; simp [turnFlip, GridOp.paint, hsq, List.replicate]; done)
    | (refine key 1 (by omega) false fun f p => ?_; simp [turnFlip, GridOp.paint, hsq, List.replicate]; done)
    | (refine key 2 (by omega) false fun f p => ?_; simp [turnFlip, GridOp.paint, hsq, List.replicate]; done)
    | (refine key 3 (by omega) false fun f p => ?_; simp [turnFlip, GridOp.paint, hsq, List.replicate]; done)
    | (refine key 0 (by omega) true fun f p => ?_; simp [turnFlip, GridOp.paint, hsq, List.replicate]; done)
    | (refine key 1 (by omega) true fun f p => ?_; simp [turnFlip, GridOp.paint, hsq, List.replicate]; done)
    | (refine key 2 (by omega) true fun f p => ?_; simp [turnFlip, GridOp.paint, hsq, List.replicate]; done)
    | (refine key 3 (by omega) true fun f p => ?_; simp [turnFlip, GridOp.paint, hsq, List.replicate]; done)

theorem paints_turnFlip {α : Type} {T : PosTy} (hsq : rows T = cols T) (ops : List (GridOp α)) (hops : ∀ op ∈ ops, op.moves = true) :
    ∃ k b, k < 4 ∧ ∀ f : P2 → α, ops.foldl (GridOp.paint T) f = (turnFlip k b).foldl (GridOp.paint T) f := by
  induction ops using List.reverseRecOn with
  | nil => exact ⟨0, false, by omega, fun _ => rfl⟩
  | append_singleton ops op ih =>
    obtain ⟨k, b, hk, h⟩ := ih fun op hop => hops op (by simp [hop])
    obtain ⟨k', b', hk', h'⟩ := turnFlip_step hsq op (hops op (by simp)) k hk b
    exact ⟨k', b', hk', fun f => by rw [List.foldl_append, h]; exact h' f⟩

/-- The positions that the rotations of a `Gridbool` leave as they are. -/
def core (T : PosTy) (p : P2) : Prop :=
  ((cols T - 1) / 2 ≤ p.1 ∧ p.1 ≤ cols T - 1 - (cols T - 1) / 2) ∧ ((cols T - 1) / 2 ≤ p.2 ∧ p.2 ≤ cols T - 1 - (cols T - 1) / 2)

instance (T : PosTy) (p : P2) : Decidable (core T p) := by unfold core; infer_instance

theorem core_h (T : PosTy) (x y : Int) : core T (cols T - 1 - x, y) ↔ core T (x, y) := by simp only [core]; omega
theorem core_v (T : PosTy) (x y : Int) : core T (x, cols T - 1 - y) ↔ core T (x, y) := by simp only [core]; omega
theorem core_swap (T : PosTy) (x y : Int) : core T (y, x) ↔ core T (x, y) := by simp only [core]; exact And.comm

theorem around_cw {α : Type} {T : PosTy} (f : P2 → α) : GridOp.paintAround T f .rotateCw = fun p => if core T p then f p else f (p.2, cols T - 1 - p.1) := by
  funext p; simp [GridOp.paintAround, GridOp.rotates, core, GridOp.paint]
theorem around_cc {α : Type} {T : PosTy} (f : P2 → α) : GridOp.paintAround T f .rotateCc = fun p => if core T p then f p else f (rows T - 1 - p.2, p.1) := by
  funext p; simp [GridOp.paintAround, GridOp.rotates, core, GridOp.paint]
theorem around_h {α : Type} {T : PosTy} (f : P2 → α) : GridOp.paintAround T f .flipH = fun p => f (cols T - 1 - p.1, p.2) := by
  funext p; simp [GridOp.paintAround, GridOp.rotates, GridOp.paint]
theorem around_v {α : Type} {T : PosTy} (f : P2 → α) : GridOp.paintAround T f .flipV = fun p => f (p.1, rows T - 1 - p.2) := by
  funext p; simp [GridOp.paintAround, GridOp.rotates, GridOp.paint]

/-- A rotation after some quarter turns and flips. -/
theorem around_turn {α : Type} {T : PosTy} (hsq : rows T = cols T) (op : GridOp α) (hop : op.rotates = true) (k : Nat) (hk : k < 4) (h v : Nat) :
    ∃ k', k' < 4 ∧ ∀ f : P2 → α, op.paintAround T ((turnFlips k h v).foldl (GridOp.paintAround T) f) = (turnFlips k' h v).foldl (GridOp.paintAround T) f := by
  have key : ∀ k' : Nat, k' < 4 → (∀ (f : P2 → α) (x y : Int), op.paintAround T ((turnFlips k h v).foldl (GridOp.paintAround T) f) (x, y) =
      (turnFlips k' h v).foldl (GridOp.paintAround T) f (x, y)) →
      ∃ k', k' < 4 ∧ ∀ f : P2 → α, op.paintAround T ((turnFlips k h v).foldl (GridOp.paintAround T) f) = (turnFlips k' h v).foldl (GridOp.paintAround T) f :=
    fun k' h1 h2 => ⟨k', h1, fun f => funext fun ⟨x, y⟩ => h2 f x y⟩
  obtain rfl | rfl | rfl | rfl : k = 0 ∨ k = 1 ∨ k = 2 ∨ k = 3 := by omega
  all_goals rcases Nat.mod_two_eq_zero_or_one h with eh | eh <;> rcases Nat.mod_two_eq_zero_or_one v with ev | ev
  all_goals cases op
  all_goals first
    | exact (Bool.false_ne_true hop).elim
    | (refine key 0 (by omega) fun f x y => ?_
       by_cases hc : core T (x, y) <;>
         simp [turnFlips, eh, ev, around_cw, around_cc, around_h, around_v, hsq, List.replicate, core_h, core_v, core_swap T x y, hc]; done)
    | (refine key 1 (by omega) fun f x y => ?_
       by_cases hc : core T (x, y) <;>
         simp [turnFlips, eh, ev, around_cw, around_cc, around_h, around_v, hsq, List.replicate, core_h, core_v, core_swap T x y, hc]; done)
    | (refine key 2 (by omega) fun f x y => ?_
       by_cases hc : core T (x, y) <;>
         simp [turnFlips, eh, ev, around_cw, around_cc, around_h, around_v, hsq, List.replicate, core_h, core_v, core_swap T x y, hc]; done)
    | (refine key 3 (by omega) fun f x y => ?_
       by_cases hc : core T (x, y) <;>
         simp [turnFlips, eh, ev, around_cw, around_cc, around_h, around_v, hsq, List.replicate, core_h, core_v, core_swap T x y, hc]; done)

/-- A flip after some quarter turns and flips. -/
theorem around_flipH {α : Type} {T : PosTy} (k h v : Nat) (f : P2 → α) :
    GridOp.paintAround T ((turnFlips k h v).foldl (GridOp.paintAround T) f) .flipH = (turnFlips k (h + 1) v).foldl (GridOp.paintAround T) f := by
  simp only [turnFlips, List.foldl_append]
  funext p
  rcases Nat.mod_two_eq_zero_or_one h with eh | eh <;> rcases Nat.mod_two_eq_zero_or_one v with ev | ev <;>
    simp [eh, ev, around_h, around_v, Nat.add_mod]

theorem around_flipV {α : Type} {T : PosTy} (k h v : Nat) (f : P2 → α) :
    GridOp.paintAround T ((turnFlips k h v).foldl (GridOp.paintAround T) f) .flipV = (turnFlips k h (v + 1)).foldl (GridOp.paintAround T) f := by
  simp only [turnFlips, List.foldl_append]
  funext p
  rcases Nat.mod_two_eq_zero_or_one h with eh | eh <;> rcases Nat.mod_two_eq_zero_or_one v with ev | ev <;>
    simp [eh, ev, around_h, around_v, Nat.add_mod]

theorem arounds_turnFlips {α : Type} {T : PosTy} (ops : List (GridOp α)) (hops : ∀ op ∈ ops, op.moves = true)
    (hsq : ∀ op ∈ ops, op.rotates = true → rows T = cols T) :
    ∃ k, k < 4 ∧ ((∀ op ∈ ops, op.rotates = false) → k = 0) ∧
      ∀ f : P2 → α, ops.foldl (GridOp.paintAround T) f = (turnFlips k (flipsH ops) (flipsV ops)).foldl (GridOp.paintAround T) f := by
  induction ops using List.reverseRecOn with
  | nil => exact ⟨0, by omega, fun _ => rfl, fun _ => rfl⟩
  | append_singleton ops op ih =>
    obtain ⟨k, hk, h0, h⟩ := ih (fun op hop => hops op (by simp [hop])) fun op hop => hsq op (by simp [hop])
    have hm := hops op (by simp)
    cases op with
    | set _ _ => cases hm
    | flipH =>
      refine ⟨k, hk, fun h => h0 fun op hop => h op (by simp [hop]), fun f => ?_⟩
      rw [List.foldl_append, h]
      simp only [List.foldl_cons, List.foldl_nil, around_flipH]
      simp [flipsH, flipsV]
    | flipV =>
      refine ⟨k, hk, fun h => h0 fun op hop => h op (by simp [hop]), fun f => ?_⟩
      rw [List.foldl_append, h]
      simp only [List.foldl_cons, List.foldl_nil, around_flipV]
      simp [flipsH, flipsV]
    | rotateCw =>
      obtain ⟨k', hk', h'⟩ := around_turn (hsq .rotateCw (by simp) rfl) (.rotateCw : GridOp α) rfl k hk (flipsH ops) (flipsV ops)
      refine ⟨k', hk', fun h => absurd (h .rotateCw (by simp)) (by simp [GridOp.rotates]), fun f => ?_⟩
      rw [List.foldl_append, h]
      simp only [List.foldl_cons, List.foldl_nil, h']
      simp [flipsH, flipsV]
    | rotateCc =>
      obtain ⟨k', hk', h'⟩ := around_turn (hsq .rotateCc (by simp) rfl) (.rotateCc : GridOp α) rfl k hk (flipsH ops) (flipsV ops)
      refine ⟨k', hk', fun h => absurd (h .rotateCc (by simp)) (by simp [GridOp.rotates]), fun f => ?_⟩
      rw [List.foldl_append, h]
      simp only [List.foldl_cons, List.foldl_nil, h']
      simp [flipsH, flipsV]

/-! ## C132 -/

theorem inGrid_of_moves {α : Type} {T : PosTy} {op : GridOp α} (h : op.moves = true) : op.inGrid T := by
  cases op with
  | set _ _ => cases h
  | _ => trivial

theorem turnFlip_moves {α : Type} (k : Nat) (b : Bool) : ∀ op ∈ (turnFlip k b : List (GridOp α)), op.moves = true := by
  intro op hop
  simp only [turnFlip, List.mem_append, List.mem_replicate] at hop
  rcases hop with ⟨-, rfl⟩ | hop
  · rfl
  · split at hop
    · rw [List.mem_singleton] at hop; subst hop; rfl
    · cases hop

theorem turnFlips_moves {α : Type} (k h v : Nat) : ∀ op ∈ (turnFlips k h v : List (GridOp α)), op.moves = true ∧ (op.rotates = true → k ≠ 0) := by
  intro op hop
  simp only [turnFlips, List.mem_append, List.mem_replicate] at hop
  rcases hop with ⟨hk, rfl⟩ | hop | hop
  · exact ⟨rfl, fun _ => hk⟩
  · split at hop
    · rw [List.mem_singleton] at hop; subst hop; exact ⟨rfl, nofun⟩
    · cases hop
  · split at hop
    · rw [List.mem_singleton] at hop; subst hop; exact ⟨rfl, nofun⟩
    · cases hop

/-- Two sequences of moves that paint the same leave the same `Grid`. -/
theorem Grid.applies_eq [Target] {α : Type} {T : PosTy} (hT : T.IsGrid) {g : List α} (hl : g.length = T.nx * T.ny) {ops ops' : List (GridOp α)}
    (hm : ∀ op ∈ ops, op.moves = true) (hm' : ∀ op ∈ ops', op.moves = true)
    (hsq : ∀ op ∈ ops, op.rotates = true → ∃ M, (0 ≤ M ∧ M ≤ 65535) ∧ Fits M M ∧ T = PosTy.pos M M)
    (hsq' : ∀ op ∈ ops', op.rotates = true → ∃ M, (0 ≤ M ∧ M ≤ 65535) ∧ Fits M M ∧ T = PosTy.pos M M)
    (h : ∀ f : P2 → α, ops.foldl (GridOp.paint T) f = ops'.foldl (GridOp.paint T) f) :
    ∃ g', ops.foldlM (Grid.apply T) g = .ok g' ∧ ops'.foldlM (Grid.apply T) g = .ok g' := by
  obtain ⟨f, hf⟩ := Grid.exists_rep hT g hl
  obtain ⟨g1, h1, h2⟩ := foldlM_rel (Grid.Rep T) (Grid.apply T) (GridOp.paint T) ops
    (fun g f op hop h => Grid.apply_rep hT h op (inGrid_of_moves (hm op hop)) (hsq op hop)) g f hf
  obtain ⟨g2, h3, h4⟩ := foldlM_rel (Grid.Rep T) (Grid.apply T) (GridOp.paint T) ops'
    (fun g f op hop h => Grid.apply_rep hT h op (inGrid_of_moves (hm' op hop)) (hsq' op hop)) g f hf
  refine ⟨g1, h1, ?_⟩
  rw [h3, h2.ext hT h4 fun p _ => by rw [h f]]

/-- C132. What a sequence of flips does to a `Grid` depends only on whether the numbers of horizontal and of vertical flips in it are even or odd. -/
theorem C132_grid_flips [Target] {α : Type} (T : PosTy) (hT : T.IsGrid) (ops : List (GridOp α)) (hops : ∀ op ∈ ops, op = .flipH ∨ op = .flipV) (g : List α)
    (hg : (g.length : Int) = cols T * rows T) :
    ∃ g', ops.foldlM (Grid.apply T) g = .ok g' ∧ (turnFlips 0 (flipsH ops) (flipsV ops)).foldlM (Grid.apply T) g = .ok g' := by
  have hm : ∀ op ∈ ops, op.moves = true ∧ op.rotates = false := fun op hop => by rcases hops op hop with rfl | rfl <;> exact ⟨rfl, rfl⟩
  have hr : ∀ op ∈ (turnFlips 0 (flipsH ops) (flipsV ops) : List (GridOp α)), op.rotates ≠ true := fun op hop h => (turnFlips_moves _ _ _ op hop).2 h rfl
  refine Grid.applies_eq hT ((Grid.length_iff hT g).1 hg) (fun op hop => (hm op hop).1) (fun op hop => (turnFlips_moves _ _ _ op hop).1)
    (fun op hop h => absurd h (by simp [(hm op hop).2])) (fun op hop h => absurd h (hr op hop)) fun f => ?_
  obtain ⟨k, -, hk, h⟩ := arounds_turnFlips (T := T) ops (fun op hop => (hm op hop).1) fun op hop h => absurd h (by simp [(hm op hop).2])
  obtain rfl := hk fun op hop => (hm op hop).2
  rw [← paints_eq ops (fun op hop h => absurd h (by simp [(hm op hop).2])) f, h f, paints_eq _ fun op hop h => absurd h (hr op hop)]

/-- C132. Whatever a sequence of flips and rotations does to a square `Grid`, at most three quarter turns and a horizontal flip do too. How many turns and
whether to flip depend on the sequence only. -/
theorem C132_grid_square [Target] {α : Type} (M : Int) (hM : 0 ≤ M ∧ M ≤ 65535) (hfit : Fits M M) (ops : List (GridOp α))
    (hops : ∀ op ∈ ops, op.moves = true) :
    ∃ k b, k < 4 ∧ ∀ g : List α, (g.length : Int) = (M + 1) * (M + 1) →
      ∃ g', ops.foldlM (Grid.apply (PosTy.pos M M)) g = .ok g' ∧ (turnFlip k b).foldlM (Grid.apply (PosTy.pos M M)) g = .ok g' := by
  have hT := PosTy.pos_isGrid hM hM hfit
  obtain ⟨k, b, hk, h⟩ := paints_turnFlip (T := PosTy.pos M M) rfl ops hops
  refine ⟨k, b, hk, fun g hg => ?_⟩
  have hl := (Grid.length_iff hT g).1 (by rw [hg]; show _ = (M - 0 + 1) * (M - 0 + 1); rw [Int.sub_zero])
  exact Grid.applies_eq hT hl hops (turnFlip_moves k b) (fun _ _ _ => ⟨M, hM, hfit, rfl⟩) (fun _ _ _ => ⟨M, hM, hfit, rfl⟩) h

/-- C132. These eight do different things, to any square `Grid` of different values with more than one of them. -/
theorem C132_grid_eight [Target] {α : Type} (M : Int) (hM : 1 ≤ M ∧ M ≤ 65535) (hfit : Fits M M) (g : List α) (hg : (g.length : Int) = (M + 1) * (M + 1))
    (hd : g.Nodup) (k k' : Nat) (b b' : Bool) (hk : k < 4) (hk' : k' < 4)
    (h : (turnFlip k b).foldlM (Grid.apply (PosTy.pos M M)) g = (turnFlip k' b').foldlM (Grid.apply (PosTy.pos M M)) g) : k = k' ∧ b = b' := by
  have hM0 : 0 ≤ M ∧ M ≤ 65535 := ⟨by omega, hM.2⟩
  have hT := PosTy.pos_isGrid hM0 hM0 hfit
  have hl := (Grid.length_iff hT g).1 (by rw [hg]; show _ = (M - 0 + 1) * (M - 0 + 1); rw [Int.sub_zero])
  obtain ⟨f, hf⟩ := Grid.exists_rep hT g hl
  obtain ⟨g1, h1, h2⟩ := foldlM_rel (Grid.Rep (PosTy.pos M M)) (Grid.apply (PosTy.pos M M)) (GridOp.paint (PosTy.pos M M)) (turnFlip k b)
    (fun g f op hop h => Grid.apply_rep hT h op (inGrid_of_moves (turnFlip_moves k b op hop)) fun _ => ⟨M, hM0, hfit, rfl⟩) g f hf
  obtain ⟨g2, h3, h4⟩ := foldlM_rel (Grid.Rep (PosTy.pos M M)) (Grid.apply (PosTy.pos M M)) (GridOp.paint (PosTy.pos M M)) (turnFlip k' b')
    (fun g f op hop h => Grid.apply_rep hT h op (inGrid_of_moves (turnFlip_moves k' b' op hop)) fun _ => ⟨M, hM0, hfit, rfl⟩) g f hf
  rw [h1, h3] at h
  injection h with h
  subst h
  have hc : cols (PosTy.pos M M) - 1 = M := by show M - 0 + 1 - 1 = M; omega
  have val : ∀ x y : Int, 0 ≤ x → x ≤ M → 0 ≤ y → y ≤ M → (PosTy.pos M M).Valid (x, y) := fun x y h1 h2 h3 h4 => ⟨⟨h1, h2⟩, h3, h4⟩
  have inj : ∀ p q : P2, (PosTy.pos M M).Valid p → (PosTy.pos M M).Valid q → f p = f q → p = q := by
    intro p q hp hq e
    have e1 := hf.2 p hp
    have e2 := hf.2 q hq
    rw [← e] at e2
    have hlt : (PosTy.pos M M).idx p < g.length := by rw [hl]; exact hT.idx_lt hp
    exact hT.idx_inj hp hq ((List.getElem?_inj hlt hd).1 (e1.trans e2.symm))
  have same : ∀ p : P2, (PosTy.pos M M).Valid p → (turnFlip k b).foldl (GridOp.paint (PosTy.pos M M)) f p = (turnFlip k' b').foldl (GridOp.paint (PosTy.pos M M)) f p :=
    fun p hp => Option.some.inj ((h2.2 p hp).symm.trans (h4.2 p hp))
  have s0 := same (0, 0) (val 0 0 (by omega) (by omega) (by omega) (by omega))
  have s1 := same (1, 0) (val 1 0 (by omega) (by omega) (by omega) (by omega))
  obtain rfl | rfl | rfl | rfl : k = 0 ∨ k = 1 ∨ k = 2 ∨ k = 3 := by omega
  all_goals obtain rfl | rfl | rfl | rfl : k' = 0 ∨ k' = 1 ∨ k' = 2 ∨ k' = 3 := by omega
  all_goals cases b <;> cases b'
  all_goals first
    | exact ⟨rfl, rfl⟩
    | (exfalso
       simp only [turnFlip, List.replicate, List.nil_append, List.cons_append, List.append_nil, if_true, Bool.false_eq_true, if_false, List.foldl_cons,
         List.foldl_nil, GridOp.paint, hc] at s0 s1
       have t0 := inj _ _ (val _ _ (by omega) (by omega) (by omega) (by omega)) (val _ _ (by omega) (by omega) (by omega) (by omega)) s0
       have t1 := inj _ _ (val _ _ (by omega) (by omega) (by omega) (by omega)) (val _ _ (by omega) (by omega) (by omega) (by omega)) s1
       simp only [Prod.mk.injEq] at t0 t1
       omega)

/-- C132. Flipping a `Grid` both ways is reversing its values, taken row by row. -/
theorem C132_grid_reverse [Target] {α : Type} (T : PosTy) (hT : T.IsGrid) (g : List α) (hg : (g.length : Int) = cols T * rows T) :
    (Grid.flipH T g >>= Grid.flipV T) = .ok g.reverse := by
  have hl := (Grid.length_iff hT g).1 hg
  obtain ⟨f, hf⟩ := Grid.exists_rep hT g hl
  obtain ⟨g1, h1, h2⟩ := foldlM_rel (Grid.Rep T) (Grid.apply T) (GridOp.paint T) [.flipH, .flipV]
    (fun g f op hop h => Grid.apply_rep hT h op (by simp at hop; rcases hop with rfl | rfl <;> trivial)
      (by simp at hop; rcases hop with rfl | rfl <;> exact nofun)) g f hf
  have hr : Grid.Rep T g.reverse ([GridOp.flipH, .flipV].foldl (GridOp.paint T) f) := by
    refine ⟨by rw [List.length_reverse, hl], fun p hp => ?_⟩
    have hq : T.Valid (cols T - 1 - p.1, rows T - 1 - p.2) := by
      obtain ⟨⟨a1, a2⟩, a3, a4⟩ := hp
      simp only [hT.x0, hT.y0] at a1 a3
      simp only [cols, rows, hT.x0, hT.y0]
      refine ⟨⟨?_, ?_⟩, ?_, ?_⟩ <;> simp only [hT.x0, hT.y0] <;> omega
    have hlt := hT.idx_lt hp
    rw [List.getElem?_reverse (by rw [hl]; exact hlt)]
    have e : g.length - 1 - T.idx p = T.idx (cols T - 1 - p.1, rows T - 1 - p.2) := by
      have e1 := hT.idx_cast hp
      have e2 := hT.idx_cast hq
      have e3 : (g.length : Int) = (T.X.MAX + 1) * (T.Y.MAX + 1) := by rw [hg, cols, rows, hT.x0, hT.y0]; simp
      have e4 : (T.idx p : Int) + T.idx (cols T - 1 - p.1, rows T - 1 - p.2) = g.length - 1 := by
        rw [e1, e2, e3]
        simp only [cols, rows, hT.x0, hT.y0]
        ring
      omega
    rw [e, hf.2 _ hq]
    rfl
  have : [GridOp.flipH, .flipV].foldlM (Grid.apply T) g = (Grid.flipH T g >>= Grid.flipV T) := by
    simp only [List.foldlM_cons, List.foldlM_nil, Grid.apply]
    cases Grid.flipH T g with
    | ok g1 => simp only [Out.ok_bind]; cases Grid.flipV T g1 <;> rfl
    | _ => rfl
  rw [← this, h1, h2.ext hT hr fun p _ => rfl]

/-- C132. Turning a square `Grid` twice, either way, is reversing its values, taken row by row. -/
theorem C132_grid_half_turn [Target] {α : Type} (M : Int) (hM : 0 ≤ M ∧ M ≤ 65535) (hfit : Fits M M) (g : List α)
    (hg : (g.length : Int) = (M + 1) * (M + 1)) :
    (Grid.rotateCw M g >>= Grid.rotateCw M) = .ok g.reverse ∧ (Grid.rotateCc M g >>= Grid.rotateCc M) = .ok g.reverse := by
  have hT := PosTy.pos_isGrid hM hM hfit
  have hg' : (g.length : Int) = cols (PosTy.pos M M) * rows (PosTy.pos M M) := by
    rw [hg]; show _ = (M - 0 + 1) * (M - 0 + 1); rw [Int.sub_zero]
  have h1 := (C34_rotate_flips M hM hfit g hg).1.trans (C132_grid_reverse _ hT g hg')
  refine ⟨h1, ?_⟩
  obtain ⟨g', a1, a2⟩ := Grid.applies_eq hT ((Grid.length_iff hT g).1 hg') (ops := [.rotateCc, .rotateCc]) (ops' := [.rotateCw, .rotateCw])
    (by simp [GridOp.moves]) (by simp [GridOp.moves]) (fun _ _ _ => ⟨M, hM, hfit, rfl⟩) (fun _ _ _ => ⟨M, hM, hfit, rfl⟩)
    (fun f => by funext p; simp [GridOp.paint, show rows (PosTy.pos M M) = cols (PosTy.pos M M) from rfl])
  have two : ∀ f : List α → Out (List α), (f g >>= fun g1 => f g1 >>= pure) = (f g >>= f) := by
    intro f
    cases f g with
    | ok g1 => simp only [Out.ok_bind]; cases f g1 <;> rfl
    | _ => rfl
  have b1 := two (Grid.rotateCc M)
  have b2 := two (Grid.rotateCw M)
  rw [← b1]
  rw [← b2] at h1
  rw [← h1]
  exact a1.trans a2.symm

/-- C132. What a sequence of flips and rotations does to a `Gridbool`, at most three quarter turns do too, followed by a horizontal and a vertical flip if the
numbers of those in the sequence are odd. The number of turns depends on the sequence only, and is 0 if it has no rotations. -/
theorem C132_gridbool [Target] (T : PosTy) (hT : T.IsGrid) (ops : List (GridOp Bool)) (hops : ∀ op ∈ ops, op.moves = true)
    (hsq : ∀ op ∈ ops, op.rotates = true → ∃ M, (0 ≤ M ∧ M ≤ 65535) ∧ Fits M M ∧ T = PosTy.pos M M) :
    ∃ k, k < 4 ∧ ((∀ op ∈ ops, op.rotates = false) → k = 0) ∧ ∀ gb : List (BitVec 32), cols T * rows T ≤ 32 * (gb.length : Int) →
      ∃ gb', ops.foldlM (Gridbool.apply T) gb = .ok gb' ∧ (turnFlips k (flipsH ops) (flipsV ops)).foldlM (Gridbool.apply T) gb = .ok gb' := by
  obtain ⟨k, hk, h0, h⟩ := arounds_turnFlips (T := T) ops hops fun op hop hr => by obtain ⟨M, -, -, rfl⟩ := hsq op hop hr; rfl
  refine ⟨k, hk, h0, fun gb hW => ?_⟩
  have hW' := (Gridbool.words_iff hT _).1 hW
  have hr := Gridbool.exists_rep T gb
  obtain ⟨g1, h1, h2⟩ := foldlM_rel (fun gb' f => Gridbool.Rep T gb.length gb' f (Gridbool.bit gb)) (Gridbool.apply T) (GridOp.paintAround T) ops
    (fun g f op hop h => Gridbool.apply_rep hT hW' h op (inGrid_of_moves (hops op hop)) (hsq op hop)) gb _ hr
  obtain ⟨g2, h3, h4⟩ := foldlM_rel (fun gb' f => Gridbool.Rep T gb.length gb' f (Gridbool.bit gb)) (Gridbool.apply T) (GridOp.paintAround T)
    (turnFlips k (flipsH ops) (flipsV ops))
    (fun g f op hop h => Gridbool.apply_rep hT hW' h op (inGrid_of_moves (turnFlips_moves _ _ _ op hop).1) fun hr => by
      have hk := (turnFlips_moves _ _ _ op hop).2 hr
      by_contra hne
      refine hk (h0 fun op hop => ?_)
      by_contra hr'
      exact hne (hsq op hop (by simpa using hr'))) gb _ hr
  exact ⟨g1, h1, by rw [h3, h2.ext hT h4 (fun p _ => by rw [h]) fun _ _ _ => rfl]⟩

/-- C132. On a square `Gridbool` with an odd number of columns, at most three quarter turns and a horizontal flip are enough. -/
theorem C132_gridbool_odd [Target] (M : Int) (hM : 0 ≤ M ∧ M ≤ 65535) (hfit : Fits M M) (hodd : M % 2 = 0) (ops : List (GridOp Bool))
    (hops : ∀ op ∈ ops, op.moves = true) :
    ∃ k b, k < 4 ∧ ∀ gb : List (BitVec 32), (M + 1) * (M + 1) ≤ 32 * (gb.length : Int) →
      ∃ gb', ops.foldlM (Gridbool.apply (PosTy.pos M M)) gb = .ok gb' ∧ (turnFlip k b).foldlM (Gridbool.apply (PosTy.pos M M)) gb = .ok gb' := by
  have hT := PosTy.pos_isGrid hM hM hfit
  obtain ⟨k, b, hk, h⟩ := paints_turnFlip (T := PosTy.pos M M) rfl ops hops
  have hc : cols (PosTy.pos M M) % 2 = 1 := by show (M - 0 + 1) % 2 = 1; omega
  refine ⟨k, b, hk, fun gb hW => ?_⟩
  have hW' := (Gridbool.words_iff hT _).1 (show cols (PosTy.pos M M) * rows (PosTy.pos M M) ≤ 32 * (gb.length : Int) by
    show (M - 0 + 1) * (M - 0 + 1) ≤ _; rw [Int.sub_zero]; exact hW)
  have hr := Gridbool.exists_rep (PosTy.pos M M) gb
  have go : ∀ ops : List (GridOp Bool), (∀ op ∈ ops, op.moves = true) → _ := fun ops hops =>
    foldlM_rel (fun gb' f => Gridbool.Rep (PosTy.pos M M) gb.length gb' f (Gridbool.bit gb)) (Gridbool.apply (PosTy.pos M M)) (GridOp.paintAround (PosTy.pos M M)) ops
      (fun g f op hop h => Gridbool.apply_rep hT hW' h op (inGrid_of_moves (hops op hop)) fun _ => ⟨M, hM, hfit, rfl⟩) gb _ hr
  obtain ⟨g1, h1, h2⟩ := go ops hops
  obtain ⟨g2, h3, h4⟩ := go (turnFlip k b) (turnFlip_moves k b)
  refine ⟨g1, h1, ?_⟩
  rw [h3, h2.ext hT h4 (fun p _ => ?_) fun _ _ _ => rfl]
  rw [paints_eq ops fun _ _ _ => ⟨hc, rfl⟩, paints_eq (turnFlip k b) fun _ _ _ => ⟨hc, rfl⟩, h]

/-- C132. With an even number of columns they are not: turning twice is then not flipping both ways. -/
theorem C132_gridbool_even [Target] : ([.rotateCw, .rotateCw] : List (GridOp Bool)).foldlM (Gridbool.apply (PosTy.pos 1 1)) [0x80000000#32] ≠
    ([.flipH, .flipV] : List (GridOp Bool)).foldlM (Gridbool.apply (PosTy.pos 1 1)) [0x80000000#32] := by decide_target

example : ([.flipV, .flipH, .flipV, .flipV] : List (GridOp Nat)).foldlM (Grid.apply (PosTy.pos 2 1)) [1, 2, 3, 4, 5, 6] = .ok [6, 5, 4, 3, 2, 1] ∧
    flipsH ([.flipV, .flipH, .flipV, .flipV] : List (GridOp Nat)) = 1 ∧ flipsV ([.flipV, .flipH, .flipV, .flipV] : List (GridOp Nat)) = 3 ∧
    (Grid.flipH (PosTy.pos 2 1) [1, 2, 3, 4, 5, 6] >>= Grid.flipV (PosTy.pos 2 1)) = .ok [6, 5, 4, 3, 2, 1] := by decide +kernel
-- a flip, a turn, a flip and a turn are nothing; a turn, a flip and another turn are a flip
example : ([.flipH, .rotateCw, .flipH, .rotateCw] : List (GridOp Nat)).foldlM (Grid.apply (PosTy.pos 1 1)) [1, 2, 3, 4] = .ok [1, 2, 3, 4] ∧
    ([.rotateCw, .flipV, .rotateCw] : List (GridOp Nat)).foldlM (Grid.apply (PosTy.pos 1 1)) [1, 2, 3, 4] =
      (turnFlip 2 true : List (GridOp Nat)).foldlM (Grid.apply (PosTy.pos 1 1)) [1, 2, 3, 4] ∧ [1, 2, 3, 4].Nodup := by decide +kernel
example : Fits 1 1 ∧ (PosTy.pos 2 1).IsGrid := ⟨by fits_small, PosTy.pos_isGrid (by decide) (by decide) (.inl rfl)⟩
-- on a `Gridbool` of 4x4, half a turn of the rim leaves the middle alone
example : ([.rotateCw, .rotateCw] : List (GridOp Bool)).foldlM (Gridbool.apply (PosTy.pos 3 3)) [0x84000000#32] = .ok [0x04010000#32] ∧
    ([.rotateCw, .flipV, .rotateCw] : List (GridOp Bool)).foldlM (Gridbool.apply (PosTy.pos 3 3)) [0x84000000#32] =
      (turnFlips 0 0 1 : List (GridOp Bool)).foldlM (Gridbool.apply (PosTy.pos 3 3)) [0x84000000#32] := by decide +kernel
example : ([.rotateCw, .flipH, .rotateCc] : List (GridOp Bool)).foldlM (Gridbool.apply (PosTy.pos 2 2)) [0xC0000000#32] =
    (turnFlip 2 true : List (GridOp Bool)).foldlM (Gridbool.apply (PosTy.pos 2 2)) [0xC0000000#32] := by decide +kernel

end Sqrid
