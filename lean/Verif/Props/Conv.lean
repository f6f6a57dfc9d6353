import Verif.Model.Conv
import Verif.Props.Pos
/-!
# Properties of the named positions, conversions, order and symmetries: C71 – C73, C76 – C78
-/

namespace Sqrid

-- Statements that do not mention a target are about a debug build for a 64-bit machine.
attribute [local instance] debug64

open Spec

instance (T : PosTy) (p : Int × Int) : Decidable (InGrid T p) := inferInstanceAs (Decidable (_ ∧ _))

/-! ## C71 -/

/-- C71. For every XMAX and YMAX the seven named positions compile and are positions of the grid. The positions that `is_corner` accepts are
exactly TOP_LEFT, TOP_RIGHT, BOTTOM_LEFT and BOTTOM_RIGHT, each where its name says; FIRST is TOP_LEFT and LAST is BOTTOM_RIGHT. On each axis
CENTER has as many positions before it as after it, or one less. -/
theorem C71_named_positions (xmax ymax : Int) (hx : IntTy.u16.Has xmax) (hy : IntTy.u16.Has ymax) :
    ∃ tl tr bl br c, Pos.FIRST xmax ymax = .ok tl ∧ Pos.TOP_RIGHT xmax ymax = .ok tr ∧ Pos.BOTTOM_LEFT xmax ymax = .ok bl ∧
      Pos.LAST xmax ymax = .ok br ∧ Pos.CENTER xmax ymax = .ok c ∧
      (∀ p ∈ [tl, tr, bl, br, c], InGrid (PosTy.pos xmax ymax) p) ∧
      (∀ p, (PosTy.pos xmax ymax).isCorner p = true ↔ p ∈ [tl, tr, bl, br]) ∧
      (∀ p, InGrid (PosTy.pos xmax ymax) p → (tl.1 ≤ p.1 ∧ tl.2 ≤ p.2) ∧ (p.1 ≤ tr.1 ∧ tr.2 ≤ p.2) ∧ (bl.1 ≤ p.1 ∧ p.2 ≤ bl.2) ∧
        (p.1 ≤ br.1 ∧ p.2 ≤ br.2)) ∧
      (c.1 - tl.1 ≤ br.1 - c.1 ∧ br.1 - c.1 ≤ c.1 - tl.1 + 1) ∧ (c.2 - tl.2 ≤ br.2 - c.2 ∧ br.2 - c.2 ≤ c.2 - tl.2 + 1) := by
  obtain ⟨h1, h2, h3, h4, h5, _⟩ := C05_pos_constants xmax ymax hx hy
  simp only [IntTy.Has, IntTy.u16] at hx hy
  have hX : (PosTy.pos xmax ymax).X.MIN = 0 ∧ (PosTy.pos xmax ymax).X.MAX = xmax ∧ (PosTy.pos xmax ymax).Y.MIN = 0 ∧
    (PosTy.pos xmax ymax).Y.MAX = ymax := ⟨rfl, rfl, rfl, rfl⟩
  obtain ⟨e1, e2, e3, e4⟩ := hX
  refine ⟨_, _, _, _, _, h1, h3, h4, h2, h5, ?_, ?_, ?_, ?_, ?_⟩
  · simp only [List.mem_cons, List.not_mem_nil, or_false, InGrid, e1, e2, e3, e4]
    rintro p (rfl | rfl | rfl | rfl | rfl) <;> simp only <;> omega
  · intro p
    rw [C19_is_corner_positions, e1, e2, e3, e4]
  · intro p hp
    simp only [InGrid, e1, e2, e3, e4] at hp
    simp only; omega
  · simp only; omega
  · simp only; omega

example : Pos.CENTER 4 3 = .ok (2, 1) ∧ Pos.TOP_RIGHT 4 3 = .ok (4, 0) ∧ (PosTy.pos 4 3).isCorner (4, 0) = true := by decide

/-- C71. When the constants WIDTH, HEIGHT and SIZE compile, they are the number of columns, lines and positions, SIZE is what `dimensions()`
returns and the number of positions that `iter()` yields. They do not compile (`panic` in a constant) exactly when XMAX or YMAX is 65535. -/
theorem C71_sizes [Target] (xmax ymax : Int) (hx : IntTy.u16.Has xmax) (hy : IntTy.u16.Has ymax) (hfit : Fits xmax ymax) :
    Pos.WIDTH xmax = (if xmax = 65535 then .panic else .ok (cols (PosTy.pos xmax ymax))) ∧
    Pos.HEIGHT ymax = (if ymax = 65535 then .panic else .ok (rows (PosTy.pos xmax ymax))) ∧
    Pos.SIZE xmax ymax = (if xmax = 65535 ∨ ymax = 65535 then .panic else (PosTy.pos xmax ymax).dimensions) ∧
    (PosTy.pos xmax ymax).dimensions = .ok ((allPositions (PosTy.pos xmax ymax) true).length : Int) := by
  have hG : (PosTy.pos xmax ymax).IsGrid := PosTy.pos_isGrid hx hy hfit
  simp only [IntTy.Has, IntTy.u16] at hx hy
  have add1 : ∀ v : Int, 0 ≤ v → v ≤ 65535 → IntTy.u16.const (v + 1) = if v = 65535 then .panic else .ok (v + 1) := by
    intro v h1 h2
    have hh : IntTy.u16.Has (v + 1) ↔ 0 ≤ v + 1 ∧ v + 1 ≤ 65535 := Iff.rfl
    rw [IntTy.const]
    by_cases h : v = 65535
    · rw [if_pos h, if_neg (by rw [hh]; omega)]
    · rw [if_neg h, if_pos (by rw [hh]; omega)]
  have hw : Pos.WIDTH xmax = (if xmax = 65535 then .panic else .ok (xmax + 1)) := add1 xmax hx.1 hx.2
  have hh : Pos.HEIGHT ymax = (if ymax = 65535 then .panic else .ok (ymax + 1)) := add1 ymax hy.1 hy.2
  have hd := hG.dimensions_eq
  have e : cols (PosTy.pos xmax ymax) = xmax + 1 ∧ rows (PosTy.pos xmax ymax) = ymax + 1 := by
    constructor <;> simp only [cols, rows, PosTy.pos, BTy.MAX, BTy.MIN] <;> omega
  refine ⟨by rw [hw, e.1], by rw [hh, e.2], ?_, ?_⟩
  · rw [Pos.SIZE, hw, hh]
    by_cases h1 : xmax = 65535
    · rw [if_pos h1, if_pos (Or.inl h1), Out.panic_bind]
    · rw [if_neg h1, Out.ok_bind]
      by_cases h2 : ymax = 65535
      · rw [if_pos h2, if_pos (Or.inr h2), Out.panic_bind]
      · rw [if_neg h2, Out.ok_bind, if_neg (by omega), hd]
        have hc : ∀ v : Int, 0 ≤ v → v ≤ 65536 → IntTy.usize.cast v = v := by
          intro v a b
          have := limit_pos
          exact IntTy.usize_cast ⟨a, by omega⟩
        rw [hc _ (by omega) (by omega), hc _ (by omega) (by omega)]
        refine if_pos (IntTy.usize_has.2 ⟨?_, hG.fits⟩)
        exact Int.mul_nonneg (show 0 ≤ xmax + 1 by omega) (show 0 ≤ ymax + 1 by omega)
  · rw [hd, (C09_iter_each_once _ hG.wf true).2.2, e.1, e.2]; rfl

example : Pos.SIZE 4 2 = .ok 15 ∧ (PosTy.pos 4 2).dimensions = .ok 15 ∧ Pos.SIZE 65535 2 = .panic := by decide

/-! ## C72 -/

/-- C72. `tryfrom_pos` into any position type gives the same coordinates if they are in the target grid, and OutOfBounds otherwise, whatever
type the position comes from. -/
theorem C72_tryfrom_pos (T : PosTy) (hT : T.WF) (p : Int × Int) :
    (InGrid T p → T.tryFromPos p = .ok p) ∧ (¬ InGrid T p → T.tryFromPos p = .error .outOfBounds) := by
  rw [PosTy.tryFromPos, PosTy.new_eq hT]
  exact ⟨fun h => if_pos h, fun h => if_neg h⟩

example : (PosTy.pos 3 3).tryFromPos (3, 2) = .ok (3, 2) ∧ (PosTy.pos 3 3).tryFromPos (-1, 2) = .error .outOfBounds ∧
    (PosTy.tuple .i8).tryFromPos (-1, 2) = .ok (-1, 2) := by decide

/-- C72. Converting a `Pos` into `(u16, u16)`, `(i32, i32)` or `usize` and back gives the same `Pos`; so does reading it with `x()` and
`y()`, with `tuple()` or with `inner_tuple()`. -/
theorem C72_pos_round_trips [Target] (xmax ymax : Int) (hx : IntTy.u16.Has xmax) (hy : IntTy.u16.Has ymax) (hfit : Fits xmax ymax) (p : Int × Int)
    (hp : InGrid (PosTy.pos xmax ymax) p) :
    Pos.ofU16 xmax ymax (Pos.intoU16 p) = .ok p ∧
    Pos.ofI32 xmax ymax (Pos.intoI32 p).1 (Pos.intoI32 p).2 = .ok p ∧
    (Pos.intoUsize xmax ymax p >>= Pos.ofUsize xmax ymax) = .ok (.ok p) ∧
    Pos.new xmax ymax (Pos.x p) (Pos.y p) = .ok p ∧
    Pos.new xmax ymax (Pos.tuple p).1 (Pos.tuple p).2 = .ok p ∧
    Pos.new xmax ymax (PosTy.innerTuple p).1 (PosTy.innerTuple p).2 = .ok p ∧
    Pos.ofBounded p = p := by
  have hG : (PosTy.pos xmax ymax).IsGrid := PosTy.pos_isGrid hx hy hfit
  have hv := hG.valid_iff'.1 hp
  have hM : (PosTy.pos xmax ymax).X.MAX = xmax ∧ (PosTy.pos xmax ymax).Y.MAX = ymax := ⟨rfl, rfl⟩
  rw [hM.1, hM.2] at hv
  have hn : Pos.new xmax ymax p.1 p.2 = .ok p := by
    simp only [Pos.new, BTy.new_eq]
    rw [if_pos (BTy.valid_bounded.2 ⟨by omega, by omega⟩), if_pos (BTy.valid_bounded.2 ⟨by omega, by omega⟩)]
  simp only [IntTy.Has, IntTy.u16] at hx hy
  have hc : ∀ v : Int, 0 ≤ v → v ≤ 65535 → IntTy.i32.cast v = v := by
    intro v a b; show (v - -2147483648) % 4294967296 + -2147483648 = v; omega
  refine ⟨hn, ?_, ?_, hn, hn, hn, rfl⟩
  · simp only [Pos.intoI32, Pos.x, Pos.y]
    rw [hc _ (by omega) (by omega), hc _ (by omega) (by omega)]
    exact (C06_try_from_i32_partial xmax ymax p.1 p.2 (by omega) (by omega) hx hy).1 (by omega)
  · obtain ⟨i, h1, h2⟩ := C07_from_to_usize _ hG p hp
    rw [Pos.intoUsize, h1, Out.ok_bind]; exact h2

example : Pos.intoI32 (3, 1) = (3, 1) ∧ Pos.ofI32 4 2 3 1 = .ok (3, 1) ∧ Pos.intoUsize 4 2 (3, 1) = .ok 8 ∧
    Pos.ofUsize 4 2 8 = .ok (.ok (3, 1)) := by decide

/-- C72. The coordinates of a `Pos` are those given to `new`, and they survive the conversions: the tuples hold exactly them. -/
theorem C72_accessors (xmax ymax : Int) (hx : IntTy.u16.Has xmax) (hy : IntTy.u16.Has ymax) (x y : Int) (p : Int × Int)
    (h : Pos.new xmax ymax x y = .ok p) :
    Pos.x p = x ∧ Pos.y p = y ∧ Pos.tuple p = (x, y) ∧ Pos.intoU16 p = (x, y) ∧ Pos.intoI32 p = (x, y) ∧ PosTy.innerTuple p = (x, y) := by
  simp only [IntTy.Has, IntTy.u16] at hx hy
  simp only [Pos.new, BTy.new_eq] at h
  by_cases h1 : (BTy.bounded .u16 0 xmax).Valid x
  · by_cases h2 : (BTy.bounded .u16 0 ymax).Valid y
    · rw [if_pos h1, if_pos h2] at h
      injection h with h
      subst h
      have h1 := BTy.valid_bounded.1 h1
      have h2 := BTy.valid_bounded.1 h2
      have hc : ∀ v : Int, 0 ≤ v → v ≤ 65535 → IntTy.i32.cast v = v := by
        intro v a b; show (v - -2147483648) % 4294967296 + -2147483648 = v; omega
      refine ⟨rfl, rfl, rfl, rfl, ?_, rfl⟩
      simp only [Pos.intoI32, Pos.x, Pos.y]
      rw [hc _ (by omega) (by omega), hc _ (by omega) (by omega)]
    · rw [if_pos h1, if_neg h2] at h; cases h
  · rw [if_neg h1] at h; cases h

example : Pos.new 4 2 3 1 = .ok (3, 1) ∧ Pos.x (3, 1) = 3 ∧ Pos.intoI32 (3, 1) = (3, 1) := by decide

/-- C72. `new_static` compiles exactly for the coordinates that `new` accepts, and gives the same position. -/
theorem C72_new_static (xmax ymax x y : Int) :
    (∀ p, Pos.newStatic xmax ymax x y = .ok p ↔ Pos.new xmax ymax x y = .ok p) ∧
    (Pos.newStatic xmax ymax x y = .panic ↔ Pos.new xmax ymax x y = .error .outOfBounds) := by
  simp only [Pos.newStatic, Pos.new, BTy.newUnwrap, BTy.new]
  by_cases h1 : 0 ≤ x ∧ x ≤ xmax <;> by_cases h2 : 0 ≤ y ∧ y ≤ ymax
  all_goals
    simp only [BTy.MIN, BTy.MAX, ge_iff_le, gt_iff_lt]
    first
      | rw [if_pos h1, if_neg (show ¬ (x < 0 ∨ xmax < x) by omega)]
      | rw [if_neg h1, if_pos (show (x < 0 ∨ xmax < x) by omega)]
    first
      | rw [if_pos h2, if_neg (show ¬ (y < 0 ∨ ymax < y) by omega)]
      | rw [if_neg h2, if_pos (show (y < 0 ∨ ymax < y) by omega)]
    simp

example : Pos.newStatic 5 5 3 3 = .ok (3, 3) ∧ Pos.newStatic 5 5 9 9 = .panic := by decide

/-! ## C73 -/

/-- C73. Comparing positions is a total order on coordinates: by x, and by y where x is the same. -/
theorem C73_order (a b : Int × Int) :
    (PosTy.cmp a b = .lt ↔ a.1 < b.1 ∨ (a.1 = b.1 ∧ a.2 < b.2)) ∧
    (PosTy.cmp a b = .eq ↔ a = b) ∧
    (PosTy.cmp a b = .gt ↔ b.1 < a.1 ∨ (b.1 = a.1 ∧ b.2 < a.2)) := by
  obtain ⟨a1, a2⟩ := a
  obtain ⟨b1, b2⟩ := b
  simp only [PosTy.cmp, Prod.mk.injEq]
  rcases lt_trichotomy a1 b1 with h1 | h1 | h1 <;> rcases lt_trichotomy a2 b2 with h2 | h2 | h2
  all_goals
    first
      | rw [compare_lt_iff_lt.2 h1]
      | rw [compare_gt_iff_gt.2 h1]
      | rw [compare_eq_iff_eq.2 h1]
    first
      | rw [compare_lt_iff_lt.2 h2]
      | rw [compare_gt_iff_gt.2 h2]
      | rw [compare_eq_iff_eq.2 h2]
    simp [Ordering.then]
    try omega

example : PosTy.cmp (1, 5) (2, 0) = .lt ∧ PosTy.cmp (2, 5) (2, 0) = .gt := by decide

theorem intsFromTo_sorted (lo hi : Int) : (intsFromTo lo hi).Pairwise (· < ·) := by
  rw [intsFromTo, List.pairwise_map]
  exact List.Pairwise.imp (fun h => by omega) List.pairwise_lt_range

/-- C73. In that order `iter_vertical()` is strictly increasing, `first()` is the least position and `last()` the greatest. -/
theorem C73_vertical_sorted (T : PosTy) (hT : T.WF) :
    (allPositions T false).Pairwise (fun a b => PosTy.cmp a b = .lt) ∧
    (∀ p, InGrid T p → PosTy.cmp T.first p ≠ .gt ∧ PosTy.cmp p T.last ≠ .gt) ∧ InGrid T T.first ∧ InGrid T T.last := by
  have h1 := hT.1.min_le_max
  have h2 := hT.2.min_le_max
  refine ⟨?_, ?_, ?_, ?_⟩
  · simp only [allPositions, Bool.false_eq_true, if_false, rectCols]
    rw [List.pairwise_flatMap]
    refine ⟨fun x _ => ?_, ?_⟩
    · rw [List.pairwise_map]
      exact (intsFromTo_sorted _ _).imp fun {y y'} h => (C73_order (x, y) (x, y')).1.2 (Or.inr ⟨rfl, h⟩)
    · refine (intsFromTo_sorted _ _).imp fun {x x'} h p hp q hq => ?_
      rw [List.mem_map] at hp hq
      obtain ⟨y, _, rfl⟩ := hp
      obtain ⟨y', _, rfl⟩ := hq
      exact (C73_order _ _).1.2 (Or.inl h)
  · intro p hp
    simp only [InGrid] at hp
    rw [Ne, (C73_order _ _).2.2, Ne, (C73_order _ _).2.2]
    simp only [PosTy.first, PosTy.last]
    omega
  · simp only [InGrid, PosTy.first]; omega
  · simp only [InGrid, PosTy.last]; omega

example : allPositions (PosTy.pos 1 1) false = [(0, 0), (0, 1), (1, 0), (1, 1)] := by decide

/-- C73. The order is not the reading order: `iter()` is increasing only on grids with one column or one line. -/
theorem C73_reading_order (T : PosTy) (hT : T.WF) :
    (allPositions T true).Pairwise (fun a b => PosTy.cmp a b = .lt) ↔ cols T = 1 ∨ rows T = 1 := by
  have h1 := hT.1.min_le_max
  have h2 := hT.2.min_le_max
  simp only [allPositions, if_true, rectRows]
  rw [List.pairwise_flatMap]
  constructor
  · rintro ⟨_, h⟩
    by_contra hc
    simp only [cols, rows] at hc
    have hy : intsFromTo T.Y.MIN T.Y.MAX = T.Y.MIN :: intsFromTo (T.Y.MIN + 1) T.Y.MAX := by
      have hk : (T.Y.MAX - T.Y.MIN + 1).toNat = (T.Y.MAX - (T.Y.MIN + 1) + 1).toNat + 1 := by omega
      simp only [intsFromTo, hk, List.range_succ_eq_map, List.map_cons, List.map_map]
      congr 1
      · omega
      · apply List.map_congr_left; intro i _; simp only [Function.comp]; omega
    rw [hy, List.pairwise_cons] at h
    have mem : ∀ lo hi v : Int, lo ≤ v → v ≤ hi → v ∈ intsFromTo lo hi := by
      intro lo hi v a b
      rw [intsFromTo, List.mem_map]
      exact ⟨(v - lo).toNat, by rw [List.mem_range]; omega, by omega⟩
    have := h.1 (T.Y.MIN + 1) (mem _ _ _ (by omega) (by omega)) (T.X.MAX, T.Y.MIN)
      (List.mem_map.2 ⟨_, mem _ _ _ (by omega) (by omega), rfl⟩) (T.X.MIN, T.Y.MIN + 1)
      (List.mem_map.2 ⟨_, mem _ _ _ (by omega) (by omega), rfl⟩)
    rw [(C73_order _ _).1] at this
    simp only at this
    omega
  · intro h
    refine ⟨fun y _ => ?_, ?_⟩
    · rw [List.pairwise_map]
      exact (intsFromTo_sorted _ _).imp fun {x x'} h => (C73_order (x, y) (x', y)).1.2 (Or.inl h)
    · have hm : ∀ lo hi v : Int, v ∈ intsFromTo lo hi → lo ≤ v ∧ v ≤ hi := by
        intro lo hi v hv
        rw [intsFromTo, List.mem_map] at hv
        obtain ⟨i, hi, rfl⟩ := hv
        rw [List.mem_range] at hi
        omega
      refine List.Pairwise.imp_of_mem (R := (· < ·)) ?_ (intsFromTo_sorted _ _)
      intro y y' hy hy' hlt p hp q hq
      rw [List.mem_map] at hp hq
      obtain ⟨x, hx, rfl⟩ := hp
      obtain ⟨x', hx', rfl⟩ := hq
      have a1 := hm _ _ _ hy; have a2 := hm _ _ _ hy'; have a3 := hm _ _ _ hx; have a4 := hm _ _ _ hx'
      simp only [cols, rows] at h
      exact (C73_order _ _).1.2 (Or.inr ⟨by simp only; omega, hlt⟩)

example : cols (PosTy.pos 4 0) = 5 ∧ rows (PosTy.pos 4 0) = 1 := by decide

/-! ## C76 -/

/-- What C76 claims: in every position type `to_usize` gives the rank of each position in reading order. -/
def C76_claim [Target] : Prop := ∀ (T : PosTy), T.WF → ∀ p, InGrid T p → T.toUsize p = .ok (rankRow T p)

/-- C76 does not hold: `(-1i8, 0i8).to_usize()` panics. -/
theorem C76_refuted [Target] : ¬ C76_claim := fun h =>
  absurd (h (PosTy.tuple .i8) (by decide_target) (-1, 0) (by unfold InGrid; decide_target)) (by decide_target)

theorem intoUsize_exact [Target] (B : BTy) (v : Int) :
    PosTy.intoUsize B v = if 0 ≤ v ∧ v ≤ limit then .ok v else .panic := by
  simp only [PosTy.intoUsize, BTy.toUsize, IntTy.tryFrom, IntTy.usize_has]
  split <;> rfl

theorem usize_add_exact [Target] (hc : Target.checks = true) (a b : Int) :
    IntTy.usize.add a b = if 0 ≤ a + b ∧ a + b ≤ limit then .ok (a + b) else .panic := by
  simp only [IntTy.add, IntTy.arith_checks hc, IntTy.usize_has]

/-- C76, exact: `width()` is MAX + 1 of the x coordinate (which is the number of columns only for types that start at 0), and it panics if MAX is
negative or MAX + 1 does not fit in `usize`; likewise `height()`. -/
theorem C76_width_height_exact [Target] (hc : Target.checks = true) (T : PosTy) :
    T.width = (if 0 ≤ T.X.MAX ∧ T.X.MAX + 1 ≤ limit then .ok (T.X.MAX + 1) else .panic) ∧
    T.height = (if 0 ≤ T.Y.MAX ∧ T.Y.MAX + 1 ≤ limit then .ok (T.Y.MAX + 1) else .panic) := by
  have key : ∀ (B : BTy) (v : Int), (do let m ← PosTy.intoUsize B v; IntTy.usize.add m 1) =
      (if 0 ≤ v ∧ v + 1 ≤ limit then .ok (v + 1) else .panic) := by
    intro B v
    rw [intoUsize_exact]
    by_cases h : 0 ≤ v ∧ v ≤ limit
    · rw [if_pos h, Out.ok_bind, usize_add_exact hc]
      by_cases h2 : v + 1 ≤ limit
      · rw [if_pos (by omega), if_pos (by omega)]
      · rw [if_neg (by omega), if_neg (by omega)]
    · rw [if_neg h, if_neg (by omega), Out.panic_bind]
  exact ⟨key _ _, key _ _⟩

example : (PosTy.tuple .i8).width = .ok 128 ∧ cols (PosTy.tuple .i8) = 256 ∧ (PosTy.tuple .u64).width = .panic := by decide

/-- C76, exact: in every position type `to_usize` of a position is y * (XMAX + 1) + x if no coordinate is negative and neither XMAX + 1 nor the
result exceeds `usize`; it panics otherwise. -/
theorem C76_to_usize_exact [Target] (hc : Target.checks = true) (T : PosTy) (p : Int × Int) (hp : InGrid T p) :
    T.toUsize p = if 0 ≤ p.1 ∧ 0 ≤ p.2 ∧ T.X.MAX + 1 ≤ limit ∧ p.2 * (T.X.MAX + 1) + p.1 ≤ limit
      then .ok (p.2 * (T.X.MAX + 1) + p.1) else .panic := by
  simp only [InGrid] at hp
  simp only [PosTy.toUsize]
  rw [intoUsize_exact, intoUsize_exact, (C76_width_height_exact hc T).1]
  by_cases hx : 0 ≤ p.1
  swap
  · rw [if_neg (c := 0 ≤ p.1 ∧ _ ∧ _ ∧ _) (by omega), if_neg (c := 0 ≤ p.1 ∧ _) (by omega)]
    split <;> rfl
  by_cases hy : 0 ≤ p.2
  swap
  · rw [if_neg (c := 0 ≤ p.1 ∧ _ ∧ _ ∧ _) (by omega), if_neg (c := 0 ≤ p.2 ∧ _) (by omega)]
    rfl
  by_cases hw : T.X.MAX + 1 ≤ limit
  swap
  · rw [if_neg (c := 0 ≤ p.1 ∧ _ ∧ _ ∧ _) (by omega), if_neg (c := 0 ≤ T.X.MAX ∧ _) (by omega)]
    split <;> split <;> rfl
  rw [if_pos (c := 0 ≤ T.X.MAX ∧ _) (by omega), if_pos (c := 0 ≤ p.1 ∧ p.1 ≤ _) (by omega)]
  have hm : 0 ≤ p.2 * (T.X.MAX + 1) := Int.mul_nonneg hy (by omega)
  have hge : p.2 ≤ p.2 * (T.X.MAX + 1) := by nlinarith
  by_cases hr : p.2 * (T.X.MAX + 1) + p.1 ≤ limit
  · rw [if_pos (c := 0 ≤ p.2 ∧ _) (by omega), if_pos (c := 0 ≤ p.1 ∧ _ ∧ _ ∧ _) ⟨hx, hy, hw, hr⟩]
    simp only [Out.ok_bind]
    rw [IntTy.usize_mul ⟨hm, by omega⟩, Out.ok_bind, IntTy.usize_add ⟨by omega, hr⟩]
  · rw [if_neg (c := 0 ≤ p.1 ∧ _ ∧ _ ∧ _) (fun h => hr h.2.2.2)]
    by_cases hy2 : p.2 ≤ limit
    · rw [if_pos (c := 0 ≤ p.2 ∧ _) (by omega)]
      simp only [Out.ok_bind]
      by_cases hm2 : p.2 * (T.X.MAX + 1) ≤ limit
      · rw [IntTy.usize_mul ⟨hm, hm2⟩, Out.ok_bind, usize_add_exact hc, if_neg (by omega)]
      · rw [IntTy.mul, IntTy.arith_checks hc, if_neg (by rw [IntTy.usize_has]; omega), Out.panic_bind]
    · rw [if_neg (c := 0 ≤ p.2 ∧ _) (by omega), Out.panic_bind]

example : (PosTy.tuple .i8).toUsize (5, 3) = .ok 389 ∧ (PosTy.tuple .i8).toUsize (5, -3) = .panic ∧
    (PosTy.tuple .u32).toUsize (4294967295, 4294967295) = .ok 18446744073709551615 := by decide

/-- C76. Wherever `to_usize` returns, in whatever position type, it is injective. -/
theorem C76_to_usize_injective [Target] (hc : Target.checks = true) (T : PosTy) (p q : Int × Int) (hp : InGrid T p) (hq : InGrid T q) (i : Int)
    (h1 : T.toUsize p = .ok i) (h2 : T.toUsize q = .ok i) : p = q := by
  rw [C76_to_usize_exact hc T p hp] at h1
  rw [C76_to_usize_exact hc T q hq] at h2
  split at h1
  · rename_i c1
    split at h2
    · rename_i c2
      simp only [Out.ok.injEq] at h1 h2
      simp only [InGrid] at hp hq
      have hw : 0 < T.X.MAX + 1 := by omega
      have e : (p.2 * (T.X.MAX + 1) + p.1) / (T.X.MAX + 1) = (q.2 * (T.X.MAX + 1) + q.1) / (T.X.MAX + 1) := by rw [h1, h2]
      rw [Int.add_comm, Int.add_mul_ediv_right _ _ (by omega), Int.add_comm (q.2 * _), Int.add_mul_ediv_right _ _ (by omega),
        Int.ediv_eq_zero_of_lt (by omega) (by omega), Int.ediv_eq_zero_of_lt (by omega) (by omega)] at e
      have e2 : p.2 = q.2 := by omega
      rw [e2] at h1
      exact Prod.ext (by omega) e2
    · cases h2
  · cases h1

example : InGrid (PosTy.tuple .i8) (5, 3) ∧ (PosTy.tuple .i8).toUsize (5, 3) = .ok 389 := by unfold InGrid; decide

/-- C76, exact: in every position type `tryfrom_usize(i)` panics if `width()` does; otherwise it is the position with x = i mod width and y = i div
width if there is one, and OutOfBounds if not. -/
theorem C76_tryfrom_usize_exact [Target] (hc : Target.checks = true) (T : PosTy) (hT : T.WF) (i : Int) :
    T.tryFromUsize i = if 0 ≤ T.X.MAX ∧ T.X.MAX + 1 ≤ limit then
      .ok (if T.Valid (i % (T.X.MAX + 1), i / (T.X.MAX + 1)) then .ok (i % (T.X.MAX + 1), i / (T.X.MAX + 1)) else .error .outOfBounds)
      else .panic := by
  rw [PosTy.tryFromUsize, (C76_width_height_exact hc T).1]
  by_cases h : 0 ≤ T.X.MAX ∧ T.X.MAX + 1 ≤ limit
  · rw [if_pos h, if_pos h, Out.ok_bind, IntTy.rem, IntTy.div, if_neg (by omega), if_neg (by omega), Out.ok_bind, Out.ok_bind, PosTy.new_eq hT]
  · rw [if_neg h, if_neg h, Out.panic_bind]

example : (PosTy.tuple .i8).tryFromUsize 16383 = .ok (.ok (127, 127)) ∧ (PosTy.tuple .i8).tryFromUsize 16384 = .ok (.error .outOfBounds) ∧
    (PosTy.tuple .u64).tryFromUsize 3 = .panic := by decide

/-- C76. Wherever `to_usize` returns, `tryfrom_usize` inverts it, in every position type. -/
theorem C76_from_to_usize [Target] (hc : Target.checks = true) (T : PosTy) (hT : T.WF) (p : Int × Int) (hp : InGrid T p) (i : Int) (h1 : T.toUsize p = .ok i) :
    T.tryFromUsize i = .ok (.ok p) := by
  rw [C76_to_usize_exact hc T p hp] at h1
  split at h1
  · rename_i c1
    simp only [Out.ok.injEq] at h1
    subst h1
    rw [C76_tryfrom_usize_exact hc T hT]
    have hp' := hp
    simp only [InGrid] at hp'
    have e1 : (p.2 * (T.X.MAX + 1) + p.1) / (T.X.MAX + 1) = p.2 := by
      rw [Int.add_comm, Int.add_mul_ediv_right _ _ (by omega), Int.ediv_eq_zero_of_lt (by omega) (by omega)]; omega
    have e2 : (p.2 * (T.X.MAX + 1) + p.1) % (T.X.MAX + 1) = p.1 := by
      rw [Int.add_comm, Int.add_mul_emod_self_right, Int.emod_eq_of_lt (by omega) (by omega)]
    rw [if_pos (by omega), e1, e2, if_pos (show T.Valid (p.1, p.2) from hp)]
  · cases h1

example : (PosTy.tuple .i8).tryFromUsize 389 = .ok (.ok (5, 3)) := by decide

/-- C76, the part that holds: for grids that start at (0, 0) and whose number of positions fits in `usize` (every `Pos`), `width()`, `height()` and
`dimensions()` are the number of columns, lines and positions, and `to_usize` is the rank in reading order. Missing: types with other bounds, for
which the exact behaviour is in the theorems above. -/
theorem C76_grids_partial [Target] (T : PosTy) (hT : T.IsGrid) :
    T.width = .ok (cols T) ∧ T.height = .ok (rows T) ∧ T.dimensions = .ok (cols T * rows T) ∧
    ∀ p, InGrid T p → T.toUsize p = .ok (rankRow T p) := by
  have e : cols T = T.X.MAX + 1 ∧ rows T = T.Y.MAX + 1 := by
    simp only [cols, rows, hT.x0, hT.y0, Int.sub_zero, and_self]
  refine ⟨by rw [hT.width_eq, e.1], by rw [hT.height_eq, e.2], by rw [hT.dimensions_eq, e.1, e.2], fun p hp => ?_⟩
  rw [hT.toUsize_eq hp, rankRow, e.1, hT.x0, hT.y0, Int.sub_zero, Int.sub_zero]

example : (PosTy.pos 4 2).IsGrid ∧ InGrid (PosTy.pos 4 2) (3, 1) ∧ (PosTy.pos 4 2).toUsize (3, 1) = .ok 8 :=
  ⟨PosTy.pos_isGrid (by decide) (by decide) (.inl rfl), by unfold InGrid; decide, by decide⟩

/-! ## C77 -/

/-- What C77 claims: in every position type `flip_h` and `flip_v` mirror the columns and the lines, without panicking. -/
def C77_claim : Prop := ∀ (T : PosTy), T.WF → ∀ p, InGrid T p →
  T.flipH p = .ok (T.X.MIN + T.X.MAX - p.1, p.2) ∧ T.flipV p = .ok (p.1, T.Y.MIN + T.Y.MAX - p.2)

/-- C77, exact: in every position type `flip_h` sends x to MAX - x if that value is in the bounds, and panics otherwise. -/
theorem C77_flip_exact (T : PosTy) (hT : T.WF) (p : Int × Int) :
    T.flipH p = (if T.X.MIN ≤ T.X.MAX - p.1 ∧ T.X.MAX - p.1 ≤ T.X.MAX then .ok (T.X.MAX - p.1, p.2) else .panic) ∧
    T.flipV p = (if T.Y.MIN ≤ T.Y.MAX - p.2 ∧ T.Y.MAX - p.2 ≤ T.Y.MAX then .ok (p.1, T.Y.MAX - p.2) else .panic) := by
  constructor
  · rw [PosTy.flipH, BTy.checkedSub_eq hT.1]
    by_cases h : T.X.Valid (T.X.MAX - p.1)
    · rw [if_pos h, if_pos (show _ ∧ _ from h)]; rfl
    · rw [if_neg h, if_neg (show ¬ (_ ∧ _) from h)]; rfl
  · rw [PosTy.flipV, BTy.checkedSub_eq hT.2]
    by_cases h : T.Y.Valid (T.Y.MAX - p.2)
    · rw [if_pos h, if_pos (show _ ∧ _ from h)]; rfl
    · rw [if_neg h, if_neg (show ¬ (_ ∧ _) from h)]; rfl

example : (PosTy.tuple .i8).flipH (3, 7) = .ok (124, 7) ∧ (PosTy.tuple .i8).flipH (-3, 7) = .panic := by decide

/-- C77. `flip_h` mirrors the columns of a position type exactly when x starts at 0, and `flip_v` the lines exactly when y starts at 0. -/
theorem C77_flip_correct_iff (T : PosTy) (hT : T.WF) :
    ((∀ p, InGrid T p → T.flipH p = .ok (T.X.MIN + T.X.MAX - p.1, p.2)) ↔ T.X.MIN = 0) ∧
    ((∀ p, InGrid T p → T.flipV p = .ok (p.1, T.Y.MIN + T.Y.MAX - p.2)) ↔ T.Y.MIN = 0) := by
  have hX := hT.1.min_le_max
  have hY := hT.2.min_le_max
  have hl : InGrid T (T.X.MAX, T.Y.MAX) := by simp only [InGrid]; omega
  refine ⟨⟨fun h => ?_, fun h p hp => ?_⟩, ⟨fun h => ?_, fun h p hp => ?_⟩⟩
  · have := h _ hl
    rw [(C77_flip_exact T hT _).1] at this
    split at this
    · simp only [Out.ok.injEq, Prod.mk.injEq] at this; omega
    · cases this
  · simp only [InGrid] at hp
    rw [(C77_flip_exact T hT _).1, if_pos (by omega), h, Int.zero_add]
  · have := h _ hl
    rw [(C77_flip_exact T hT _).2] at this
    split at this
    · simp only [Out.ok.injEq, Prod.mk.injEq] at this; omega
    · cases this
  · simp only [InGrid] at hp
    rw [(C77_flip_exact T hT _).2, if_pos (by omega), h, Int.zero_add]

/-- C77 does not hold: `(127i8, 0i8).flip_h()` is `(0, 0)`, not `(-128, 0)`. -/
theorem C77_refuted : ¬ C77_claim := fun h =>
  absurd (h (PosTy.tuple .i8) (by decide_target) (127, 0) (by unfold InGrid; decide_target)).1 (by decide_target)

/-- C77, the part that holds: the claim, for the types whose coordinates start at 0. -/
theorem C77_flip_partial (T : PosTy) (hT : T.WF) (hx : T.X.MIN = 0) (hy : T.Y.MIN = 0) (p : Int × Int) (hp : InGrid T p) :
    T.flipH p = .ok (T.X.MIN + T.X.MAX - p.1, p.2) ∧ T.flipV p = .ok (p.1, T.Y.MIN + T.Y.MAX - p.2) :=
  ⟨(C77_flip_correct_iff T hT).1.2 hx p hp, (C77_flip_correct_iff T hT).2.2 hy p hp⟩

example : (PosTy.tuple .u64).WF ∧ (PosTy.tuple .u64).X.MIN = 0 ∧ (PosTy.tuple .u64).flipH (3, 7) = .ok (18446744073709551612, 7) := by decide

/-- C77, exact: in every position type, also for values outside of the bounds (C79), `rotate_cw` sends (x, y) to (YMAX - y, x) and `rotate_cc` sends it to (y, XMAX - x) when those are
positions, and they panic otherwise. -/
theorem C77_rotate_exact [Target] (hc : Target.checks = true) (T : PosTy) (hT : T.WF) (p : Int × Int) :
    T.rotateCw p = (if T.Y.base.Has (T.Y.MAX - p.2) ∧ InGrid T (T.Y.MAX - p.2, p.1) then .ok (T.Y.MAX - p.2, p.1) else .panic) ∧
    T.rotateCc p = (if T.X.base.Has (T.X.MAX - p.1) ∧ InGrid T (p.2, T.X.MAX - p.1) then .ok (p.2, T.X.MAX - p.1) else .panic) := by
  constructor
  · rw [PosTy.rotateCw, IntTy.sub, IntTy.arith_checks hc, BTy.tryFrom_eq hT.2]
    by_cases h1 : T.Y.base.Has (T.Y.MAX - p.2)
    · rw [if_pos h1, Out.ok_bind, BTy.tryFrom_eq hT.1]
      by_cases h2 : T.X.Valid (T.Y.MAX - p.2)
      · rw [if_pos h2, Out.unwrapRes_ok, Out.ok_bind]
        by_cases h3 : T.Y.Valid p.1
        · rw [if_pos h3, if_pos ⟨h1, h2, h3⟩]; rfl
        · rw [if_neg h3, if_neg (c := T.Y.base.Has (T.Y.MAX - p.2) ∧ InGrid T (T.Y.MAX - p.2, p.1)) (fun h => h3 h.2.2)]; rfl
      · rw [if_neg h2, if_neg (c := T.Y.base.Has (T.Y.MAX - p.2) ∧ InGrid T (T.Y.MAX - p.2, p.1)) (fun h => h2 h.2.1)]; rfl
    · rw [if_neg h1, if_neg (c := T.Y.base.Has (T.Y.MAX - p.2) ∧ InGrid T (T.Y.MAX - p.2, p.1)) (fun h => h1 h.1)]; rfl
  · rw [PosTy.rotateCc, IntTy.sub, IntTy.arith_checks hc, BTy.tryFrom_eq hT.1]
    by_cases h2 : T.X.Valid p.2
    · rw [if_pos h2, Out.unwrapRes_ok, Out.ok_bind]
      by_cases h1 : T.X.base.Has (T.X.MAX - p.1)
      · rw [if_pos h1, Out.ok_bind, BTy.tryFrom_eq hT.2]
        by_cases h3 : T.Y.Valid (T.X.MAX - p.1)
        · rw [if_pos h3, if_pos ⟨h1, h2, h3⟩]; rfl
        · rw [if_neg h3, if_neg (c := T.X.base.Has (T.X.MAX - p.1) ∧ InGrid T (p.2, T.X.MAX - p.1)) (fun h => h3 h.2.2)]; rfl
      · rw [if_neg h1, if_neg (c := T.X.base.Has (T.X.MAX - p.1) ∧ InGrid T (p.2, T.X.MAX - p.1)) (fun h => h1 h.1)]; rfl
    · rw [if_neg h2, if_neg (c := T.X.base.Has (T.X.MAX - p.1) ∧ InGrid T (p.2, T.X.MAX - p.1)) (fun h => h2 h.2.1)]; rfl

example : (PosTy.pos 4 2).rotateCw (1, 0) = .ok (2, 1) ∧ (PosTy.pos 4 2).rotateCw (3, 0) = .panic := by decide

/-- C77. `rotate_cw` never panics exactly for the square grids that start at (0, 0); the same for `rotate_cc`. On any other position type some
position makes it panic. -/
theorem C77_rotate_total_iff [Target] (hc : Target.checks = true) (T : PosTy) (hT : T.WF) :
    ((∀ p, InGrid T p → T.rotateCw p ≠ .panic) ↔ T.X.MIN = 0 ∧ T.Y.MIN = 0 ∧ T.X.MAX = T.Y.MAX) ∧
    ((∀ p, InGrid T p → T.rotateCc p ≠ .panic) ↔ T.X.MIN = 0 ∧ T.Y.MIN = 0 ∧ T.X.MAX = T.Y.MAX) := by
  have hX := hT.1.min_le_max
  have hY := hT.2.min_le_max
  have hl : InGrid T (T.X.MAX, T.Y.MAX) := by simp only [InGrid]; omega
  have hf : InGrid T (T.X.MIN, T.Y.MIN) := by simp only [InGrid]; omega
  have ne : ∀ (c : Prop) [Decidable c] (v : Int × Int), (if c then Out.ok v else Out.panic) ≠ Out.panic → c := by
    intro c _ v h
    by_contra hc
    rw [if_neg hc] at h
    exact h rfl
  refine ⟨⟨fun h => ?_, fun h p hp => ?_⟩, ⟨fun h => ?_, fun h p hp => ?_⟩⟩
  · have a := h _ hl
    have b := h _ hf
    rw [(C77_rotate_exact hc T hT _).1] at a
    rw [(C77_rotate_exact hc T hT _).1] at b
    have a := (ne _ _ a).2
    have b := (ne _ _ b).2
    simp only [InGrid] at a b
    omega
  · rw [(C77_rotate_exact hc T hT _).1, if_pos]
    · exact fun h => by cases h
    · have hp' := hp
      simp only [InGrid] at hp'
      refine ⟨hT.2.valid_rep ⟨?_, ?_⟩, ?_⟩
      · omega
      · omega
      · simp only [InGrid]; omega
  · have a := h _ hl
    have b := h _ hf
    rw [(C77_rotate_exact hc T hT _).2] at a
    rw [(C77_rotate_exact hc T hT _).2] at b
    have a := (ne _ _ a).2
    have b := (ne _ _ b).2
    simp only [InGrid] at a b
    omega
  · rw [(C77_rotate_exact hc T hT _).2, if_pos]
    · exact fun h => by cases h
    · have hp' := hp
      simp only [InGrid] at hp'
      refine ⟨hT.1.valid_rep ⟨?_, ?_⟩, ?_⟩
      · omega
      · omega
      · simp only [InGrid]; omega

example : (PosTy.tuple .u64).WF ∧ (PosTy.tuple .u64).X.MIN = 0 ∧ (PosTy.tuple .u64).rotateCw (3, 7) = .ok (18446744073709551608, 3) := by decide

/-! ## C78 -/

/-- C78. Every error prints a non-empty text, and different errors print different texts. -/
theorem C78_error_texts (e f : Error) : e.text ≠ "" ∧ (e.text = f.text ↔ e = f) := by
  cases e <;> cases f <;> decide

example : Error.text .loop = "unexpected loop detected" ∧ Error.loop ≠ Error.empty := by decide

end Sqrid
