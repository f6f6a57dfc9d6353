import Verif.Proofs.PosIter
/-!
# Properties C20-C26: directions
-/

namespace Sqrid

open Spec

theorem PosTy.addDir_eq {T : PosTy} (hT : T.WF) (p : Int × Int) (hp : InGrid T p) (d : Dir) :
    T.addDir p d = if T.Valid (neighbour p d) then .ok (neighbour p d) else .error .outOfBounds := by
  have hp' : (T.X.MIN ≤ p.1 ∧ p.1 ≤ T.X.MAX) ∧ (T.Y.MIN ≤ p.2 ∧ p.2 ≤ T.Y.MAX) := hp
  have xi : T.X.inc p.1 = none ∧ p.1 = T.X.MAX ∨ T.X.inc p.1 = some (p.1 + 1) ∧ p.1 < T.X.MAX := by
    rcases Int.lt_or_le p.1 T.X.MAX with h | h
    · exact Or.inr ⟨BTy.inc_some hT.1 (by omega) (by omega), h⟩
    · exact Or.inl ⟨BTy.inc_none hT.1 (by omega), by omega⟩
  have xd : T.X.dec p.1 = none ∧ p.1 = T.X.MIN ∨ T.X.dec p.1 = some (p.1 - 1) ∧ T.X.MIN < p.1 := by
    rcases Int.lt_or_le T.X.MIN p.1 with h | h
    · exact Or.inr ⟨BTy.dec_some hT.1 (by omega) (by omega), h⟩
    · exact Or.inl ⟨BTy.dec_none hT.1 (by omega), by omega⟩
  have yi : T.Y.inc p.2 = none ∧ p.2 = T.Y.MAX ∨ T.Y.inc p.2 = some (p.2 + 1) ∧ p.2 < T.Y.MAX := by
    rcases Int.lt_or_le p.2 T.Y.MAX with h | h
    · exact Or.inr ⟨BTy.inc_some hT.2 (by omega) (by omega), h⟩
    · exact Or.inl ⟨BTy.inc_none hT.2 (by omega), by omega⟩
  have yd : T.Y.dec p.2 = none ∧ p.2 = T.Y.MIN ∨ T.Y.dec p.2 = some (p.2 - 1) ∧ T.Y.MIN < p.2 := by
    rcases Int.lt_or_le T.Y.MIN p.2 with h | h
    · exact Or.inr ⟨BTy.dec_some hT.2 (by omega) (by omega), h⟩
    · exact Or.inl ⟨BTy.dec_none hT.2 (by omega), by omega⟩
  have pos : ∀ {r : Res (Int × Int)}, T.Valid (neighbour p d) → r = .ok (neighbour p d) →
      r = if T.Valid (neighbour p d) then .ok (neighbour p d) else .error .outOfBounds :=
    fun h e => by rw [if_pos h]; exact e
  have neg : ∀ {r : Res (Int × Int)}, ¬ T.Valid (neighbour p d) → r = .error .outOfBounds →
      r = if T.Valid (neighbour p d) then .ok (neighbour p d) else .error .outOfBounds :=
    fun h e => by rw [if_neg h]; exact e
  cases d <;> rcases xi with ⟨xi, xi'⟩ | ⟨xi, xi'⟩ <;> rcases xd with ⟨xd, xd'⟩ | ⟨xd, xd'⟩ <;>
    rcases yi with ⟨yi, yi'⟩ | ⟨yi, yi'⟩ <;> rcases yd with ⟨yd, yd'⟩ | ⟨yd, yd'⟩ <;>
    first
      | exact pos (by rw [PosTy.valid_iff]; simp only [neighbour, unit]; omega)
          (by simp [PosTy.addDir, tupleAddDir, neighbour, unit, xi, xd, yi, yd, Int.sub_eq_add_neg])
      | exact neg (by rw [PosTy.valid_iff]; simp only [neighbour, unit]; omega)
          (by simp [PosTy.addDir, tupleAddDir, xi, xd, yi, yd])

/-! ## C20 -/

/-- C20. Adding a direction gives the neighbouring position if it exists, and `OutOfBounds` otherwise. -/
theorem C20_add_dir_exact (T : PosTy) (hT : T.WF) (p : Int × Int) (hp : InGrid T p) (d : Dir) :
    (InGrid T (neighbour p d) → T.addDir p d = .ok (neighbour p d)) ∧
    (¬ InGrid T (neighbour p d) → T.addDir p d = .error .outOfBounds) := by
  rw [PosTy.addDir_eq hT p hp d]
  exact ⟨fun h => if_pos h, fun h => if_neg h⟩

/-- C20. A successful step is undone by the step in the opposite direction (`-dir`). -/
theorem C20_add_dir_inverse (T : PosTy) (hT : T.WF) (p q : Int × Int) (hp : InGrid T p) (d : Dir)
    (h : T.addDir p d = .ok q) :
    InGrid T q ∧ ∃ d', d.flip = .ok d' ∧ T.addDir q d' = .ok p := by
  rw [PosTy.addDir_eq hT p hp d] at h
  by_cases hv : T.Valid (neighbour p d)
  · rw [if_pos hv] at h
    cases h
    refine ⟨hv, opposite d, by cases d <;> rfl, ?_⟩
    rw [PosTy.addDir_eq hT _ hv]
    have e : neighbour (neighbour p d) (opposite d) = p := by
      cases d <;> simp [neighbour, unit, opposite]
    rw [e]; exact if_pos hp
  · rw [if_neg hv] at h; cases h

/-- C20. Distinct directions lead to distinct neighbours. -/
theorem C20_add_dir_injective (T : PosTy) (hT : T.WF) (p q : Int × Int) (hp : InGrid T p) (d e : Dir)
    (h1 : T.addDir p d = .ok q) (h2 : T.addDir p e = .ok q) : d = e := by
  have key : ∀ d, T.addDir p d = .ok q → q = neighbour p d := by
    intro d h
    rw [PosTy.addDir_eq hT p hp d] at h
    split at h
    · cases h; rfl
    · cases h
  have := (key d h1).symm.trans (key e h2)
  simp only [neighbour, Prod.mk.injEq] at this
  revert this
  cases d <;> cases e <;> simp [unit] <;> omega

example : (PosTy.pos 6 4).WF ∧ InGrid (PosTy.pos 6 4) (6, 0) ∧ InGrid (PosTy.pos 6 4) (neighbour (6, 0) .SW) ∧
    ¬ InGrid (PosTy.pos 6 4) (neighbour (6, 0) .SE) ∧ (PosTy.pos 6 4).addDir (6, 0) .SW = .ok (5, 1) := by
  unfold InGrid; decide

/-! ## C21 -/

/-- Walk from `p` towards `dst` for `n` steps, at each step asking `direction_to` and adding the direction. `none` if the walk
leaves the grid or `direction_to` answers `None` before the `n` steps are done. -/
def followTo (T : PosTy) (D : Bool) (dst : Int × Int) : Nat → Int × Int → Option (Int × Int)
  | 0, p => some p
  | n + 1, p =>
    match PosTy.directionTo D p dst with
    | none => none
    | some d =>
      match T.addDir p d with
      | .error _ => none
      | .ok q => followTo T D dst n q

theorem compare_cases (a c : Int) :
    a < c ∧ compare a c = .lt ∨ a = c ∧ compare a c = .eq ∨ c < a ∧ compare a c = .gt := by
  rcases Int.lt_trichotomy a c with h | h | h
  · exact Or.inl ⟨h, by simp [compare, compareOfLessAndEq, h]⟩
  · exact Or.inr (Or.inl ⟨h, by simp [compare, compareOfLessAndEq, h]⟩)
  · refine Or.inr (Or.inr ⟨h, ?_⟩)
    simp only [compare, compareOfLessAndEq]
    rw [if_neg (by omega), if_neg (by omega)]

/-- C21. `direction_to` answers `None` exactly when the two positions are the same. -/
theorem C21_none_iff_same (D : Bool) (p q : Int × Int) : PosTy.directionTo D p q = none ↔ p = q := by
  obtain ⟨a, b⟩ := p
  obtain ⟨c, d⟩ := q
  cases D <;> rcases compare_cases a c with ⟨h1, h1'⟩ | ⟨h1, h1'⟩ | ⟨h1, h1'⟩ <;>
    rcases compare_cases b d with ⟨h2, h2'⟩ | ⟨h2, h2'⟩ | ⟨h2, h2'⟩ <;>
    simp [PosTy.directionTo, h1', h2'] <;> omega

/-- C21. Without diagonals the answer is never a diagonal. -/
theorem C21_no_diagonal (p q : Int × Int) (d : Dir) (h : PosTy.directionTo false p q = some d) :
    (unit d).1 = 0 ∨ (unit d).2 = 0 := by
  obtain ⟨a, b⟩ := p
  obtain ⟨c, e⟩ := q
  revert h
  rcases compare_cases a c with ⟨h1, h1'⟩ | ⟨h1, h1'⟩ | ⟨h1, h1'⟩ <;>
    rcases compare_cases b e with ⟨h2, h2'⟩ | ⟨h2, h2'⟩ | ⟨h2, h2'⟩ <;>
    simp [PosTy.directionTo, h1', h2'] <;> rintro rfl <;> simp [unit]

/-- The distance that a walk with or without diagonals has to cover. -/
def dirDist (D : Bool) (p q : Int × Int) : Int := if D then linf p q else l1 p q

theorem directionTo_step (T : PosTy) (hT : T.WF) (D : Bool) (p q : Int × Int) (hp : InGrid T p) (hq : InGrid T q)
    (hne : p ≠ q) : ∃ d r, PosTy.directionTo D p q = some d ∧ T.addDir p d = .ok r ∧ InGrid T r ∧
      dirDist D r q = dirDist D p q - 1 := by
  obtain ⟨a, b⟩ := p
  obtain ⟨c, e⟩ := q
  have hp' : (T.X.MIN ≤ a ∧ a ≤ T.X.MAX) ∧ (T.Y.MIN ≤ b ∧ b ≤ T.Y.MAX) := hp
  have hq' : (T.X.MIN ≤ c ∧ c ≤ T.X.MAX) ∧ (T.Y.MIN ≤ e ∧ e ≤ T.Y.MAX) := hq
  have key : ∀ d, PosTy.directionTo D (a, b) (c, e) = some d → InGrid T (neighbour (a, b) d) →
      dirDist D (neighbour (a, b) d) (c, e) = dirDist D (a, b) (c, e) - 1 →
      ∃ d r, PosTy.directionTo D (a, b) (c, e) = some d ∧ T.addDir (a, b) d = .ok r ∧ InGrid T r ∧
      dirDist D r (c, e) = dirDist D (a, b) (c, e) - 1 := fun d h1 h2 h3 =>
    ⟨d, _, h1, (C20_add_dir_exact T hT _ hp d).1 h2, h2, h3⟩
  have ca := compare_cases a c
  have cb := compare_cases b e
  have hne' : ¬ (a = c ∧ b = e) := fun ⟨h1, h2⟩ => hne (by rw [h1, h2])
  rcases D with _ | _ <;> rcases ca with ⟨ca, ca'⟩ | ⟨ca, ca'⟩ | ⟨ca, ca'⟩ <;> rcases cb with ⟨cb, cb'⟩ | ⟨cb, cb'⟩ | ⟨cb, cb'⟩ <;>
    first
      | (refine key .N ?_ ?_ ?_
         · simp [PosTy.directionTo, ca', cb']; done
         · simp only [InGrid, neighbour, unit]; omega
         · simp only [dirDist, l1, linf, neighbour, unit, if_true, if_false, Bool.false_eq_true]; omega)
      | (refine key .NE ?_ ?_ ?_
         · simp [PosTy.directionTo, ca', cb']; done
         · simp only [InGrid, neighbour, unit]; omega
         · simp only [dirDist, l1, linf, neighbour, unit, if_true, if_false, Bool.false_eq_true]; omega)
      | (refine key .E ?_ ?_ ?_
         · simp [PosTy.directionTo, ca', cb']; done
         · simp only [InGrid, neighbour, unit]; omega
         · simp only [dirDist, l1, linf, neighbour, unit, if_true, if_false, Bool.false_eq_true]; omega)
      | (refine key .SE ?_ ?_ ?_
         · simp [PosTy.directionTo, ca', cb']; done
         · simp only [InGrid, neighbour, unit]; omega
         · simp only [dirDist, l1, linf, neighbour, unit, if_true, if_false, Bool.false_eq_true]; omega)
      | (refine key .S ?_ ?_ ?_
         · simp [PosTy.directionTo, ca', cb']; done
         · simp only [InGrid, neighbour, unit]; omega
         · simp only [dirDist, l1, linf, neighbour, unit, if_true, if_false, Bool.false_eq_true]; omega)
      | (refine key .SW ?_ ?_ ?_
         · simp [PosTy.directionTo, ca', cb']; done
         · simp only [InGrid, neighbour, unit]; omega
         · simp only [dirDist, l1, linf, neighbour, unit, if_true, if_false, Bool.false_eq_true]; omega)
      | (refine key .W ?_ ?_ ?_
         · simp [PosTy.directionTo, ca', cb']; done
         · simp only [InGrid, neighbour, unit]; omega
         · simp only [dirDist, l1, linf, neighbour, unit, if_true, if_false, Bool.false_eq_true]; omega)
      | (refine key .NW ?_ ?_ ?_
         · simp [PosTy.directionTo, ca', cb']; done
         · simp only [InGrid, neighbour, unit]; omega
         · simp only [dirDist, l1, linf, neighbour, unit, if_true, if_false, Bool.false_eq_true]; omega)
      | exact absurd ⟨ca, cb⟩ hne'

/-- C21. Following `direction_to` always stays in the grid and reaches the destination in exactly the L1 distance (no
diagonals) or the Chebyshev distance (diagonals) — which no walk can beat. -/
theorem C21_follow_arrives (T : PosTy) (hT : T.WF) (D : Bool) (p q : Int × Int) (hp : InGrid T p) (hq : InGrid T q) :
    followTo T D q (if D then linf p q else l1 p q).toNat p = some q := by
  change followTo T D q (dirDist D p q).toNat p = some q
  generalize hn : (dirDist D p q).toNat = n
  have h0 : 0 ≤ dirDist D p q := by simp only [dirDist, linf, l1]; split <;> omega
  induction n generalizing p with
  | zero =>
    simp only [followTo, Option.some.injEq]
    have : dirDist D p q = 0 := by omega
    apply Prod.ext <;> (simp only [dirDist, linf, l1] at this; split at this <;> omega)
  | succ n ih =>
    have hne : p ≠ q := by
      rintro rfl
      simp only [dirDist, linf, l1] at hn
      split at hn <;> omega
    obtain ⟨d, r, h1, h2, h3, h4⟩ := directionTo_step T hT D p q hp hq hne
    simp only [followTo, h1, h2]
    exact ih r h3 (by omega) (by omega)

/-- C21. One step along any permitted direction changes the distance by at most one, so the walk of `C21_follow_arrives` is a
shortest one. -/
theorem C21_shortest (D : Bool) (p q : Int × Int) (d : Dir) (hd : D = true ∨ (unit d).1 = 0 ∨ (unit d).2 = 0) :
    (if D then linf p q else l1 p q) ≤ (if D then linf (neighbour p d) q else l1 (neighbour p d) q) + 1 := by
  cases D <;> cases d <;> simp [unit] at hd <;> simp only [linf, l1, neighbour, unit, if_true, if_false, Bool.false_eq_true] <;> omega

example : (PosTy.pos 6 4).WF ∧ InGrid (PosTy.pos 6 4) (6, 0) ∧ InGrid (PosTy.pos 6 4) (1, 3) ∧
    followTo (PosTy.pos 6 4) false (1, 3) 8 (6, 0) = some (1, 3) ∧
    followTo (PosTy.pos 6 4) true (1, 3) 5 (6, 0) = some (1, 3) := by unfold InGrid; decide

/-! ## C22 -/

/-- C22. `flip` and unary minus never panic and give the opposite direction; flipping twice is the identity. -/
theorem C22_flip (d : Dir) :
    d.flip = .ok (opposite d) ∧ (opposite d).flip = .ok d ∧ unit (opposite d) = (-(unit d).1, -(unit d).2) := by
  cases d <;> exact ⟨rfl, rfl, rfl⟩

/-- The direction obtained by turning clockwise `n` times by 45 degrees from north. -/
def compass (n : Nat) : Dir :=
  match n % 8 with
  | 0 => .N | 1 => .NE | 2 => .E | 3 => .SE | 4 => .S | 5 => .SW | 6 => .W | _ => .NW

/-- Number of 45 degree clockwise turns from north. -/
def turns : Dir → Nat
  | .N => 0 | .NE => 1 | .E => 2 | .SE => 3 | .S => 4 | .SW => 5 | .W => 6 | .NW => 7

/-- C22. Adding directions adds their turns modulo a full circle; it never panics. -/
theorem C22_rotate (a b : Dir) : a.rotate b = .ok (compass (turns a + turns b)) ∧ a.addAssign b = a.rotate b := by
  cases a <;> cases b <;> exact ⟨rfl, rfl⟩

theorem compass_turns (d : Dir) : compass (turns d) = d := by cases d <;> rfl

theorem turns_compass (n : Nat) : turns (compass n) = n % 8 := by
  unfold compass
  have : n % 8 < 8 := Nat.mod_lt _ (by decide)
  have : n % 8 = 0 ∨ n % 8 = 1 ∨ n % 8 = 2 ∨ n % 8 = 3 ∨ n % 8 = 4 ∨ n % 8 = 5 ∨ n % 8 = 6 ∨ n % 8 = 7 := by omega
  rcases this with h | h | h | h | h | h | h | h <;> simp [h, turns]

/-- C22. Any sequence of rotations, of any length, amounts to the sum of the turns. -/
theorem C22_rotate_many (d : Dir) (ds : List Dir) :
    ds.foldlM Dir.rotate d = .ok (compass (turns d + (ds.map turns).sum)) := by
  induction ds generalizing d with
  | nil => simp [compass_turns]
  | cons e ds ih =>
    rw [List.foldlM_cons, (C22_rotate d e).1, Out.ok_bind, ih, turns_compass]
    simp only [List.map_cons, List.sum_cons]
    congr 1
    unfold compass
    rw [show ((turns d + turns e) % 8 + (ds.map turns).sum) % 8 = (turns d + (turns e + (ds.map turns).sum)) % 8 by omega]

/-- C22. Rotation is a commutative group: associative, commutative, north is neutral, and `d + (-d)` is half a turn twice. -/
theorem C22_group (a b c : Dir) :
    (a.rotate b >>= fun x => x.rotate c) = (b.rotate c >>= fun x => a.rotate x) ∧
    a.rotate b = b.rotate a ∧ a.rotate .N = .ok a ∧ (∃ i, a.rotate i = .ok .N) ∧ a.rotate .S = a.flip := by
  refine ⟨by cases a <;> cases b <;> cases c <;> rfl, by cases a <;> cases b <;> rfl, by cases a <;> rfl, ?_,
    by cases a <;> rfl⟩
  cases a
  exacts [⟨.N, rfl⟩, ⟨.NW, rfl⟩, ⟨.W, rfl⟩, ⟨.SW, rfl⟩, ⟨.S, rfl⟩, ⟨.SE, rfl⟩, ⟨.E, rfl⟩, ⟨.NE, rfl⟩]

/-- C22. Geometry: adding east turns the unit vector a quarter clockwise (y grows to the south). -/
theorem C22_quarter_turn (d : Dir) : ∃ e, d.rotate .E = .ok e ∧ unit e = (-(unit d).2, (unit d).1) := by
  cases d <;> exact ⟨_, rfl, rfl⟩

/-- C22. `is_diagonal` holds exactly when both coordinates change, and rotating by a non-diagonal keeps it. -/
theorem C22_is_diagonal (d e : Dir) :
    (d.isDiagonal = true ↔ (unit d).1 ≠ 0 ∧ (unit d).2 ≠ 0) ∧
    ∃ r, d.rotate e = .ok r ∧ r.isDiagonal = (d.isDiagonal != e.isDiagonal) := by
  cases d <;> cases e <;> exact ⟨by decide, _, rfl, rfl⟩

example : [Dir.E, .SE, .NW, .S].foldlM Dir.rotate Dir.N = .ok Dir.N := rfl

/-! ## C23 -/

/-- C23. A direction becomes its unit vector. -/
theorem C23_to_tuple (d : Dir) : d.toTuple = unit d := by cases d <;> rfl

/-- C23. A pair of numbers is accepted exactly when it is the unit vector of a direction, and the answer is that direction. -/
theorem C23_of_tuple (xy : Int × Int) (d : Dir) : Dir.ofTuple xy = .ok d ↔ xy = unit d := by
  obtain ⟨x, y⟩ := xy
  constructor
  · intro h
    unfold Dir.ofTuple at h
    repeat' split at h
    all_goals first | (cases h; assumption) | cases h
  · rintro h
    rw [h]
    cases d <;> rfl

/-- C23. Every other pair is rejected with `InvalidDirection`. -/
theorem C23_of_tuple_rejects (x y : Int) :
    Dir.ofTuple (x, y) = .error .invalidDirection ↔ ¬ (-1 ≤ x ∧ x ≤ 1 ∧ -1 ≤ y ∧ y ≤ 1 ∧ ¬ (x = 0 ∧ y = 0)) := by
  unfold Dir.ofTuple
  repeat' split
  all_goals simp_all
  all_goals omega

/-- C23. Round trips. -/
theorem C23_round_trip (d : Dir) : Dir.ofTuple d.toTuple = .ok d := by cases d <;> rfl

example : Dir.ofTuple (-1, 1) = .ok .SW ∧ Dir.ofTuple (2, 0) = .error .invalidDirection := by decide

/-! ## C24 -/

/-- The documented one-character spellings of a direction: cardinal letter in both cases (non-diagonals only), arrow, ASCII art. -/
def spellings : Dir → List Char
  | .N => ['N', 'n', '↑', '^']
  | .NE => ['↗', '7']
  | .E => ['E', 'e', '→', '>']
  | .SE => ['↘', '\\']
  | .S => ['S', 's', '↓', 'v']
  | .SW => ['↙', 'L']
  | .W => ['W', 'w', '←', '<']
  | .NW => ['↖', '`']

theorem ofChar_step {c k : Char} {d d' : Dir} {rest : Res Dir} (h : (if c = k then .ok d' else rest) = .ok d) :
    (c = k ∧ d' = d) ∨ rest = .ok d := by
  by_cases hc : c = k
  · rw [if_pos hc] at h; cases h; exact Or.inl ⟨hc, rfl⟩
  · rw [if_neg hc] at h; exact Or.inr h

theorem ofChar_step_error {c k : Char} {e : Error} {d' : Dir} {rest : Res Dir}
    (h : (if c = k then .ok d' else rest) = .error e) : rest = .error e := by
  by_cases hc : c = k
  · rw [if_pos hc] at h; cases h
  · rw [if_neg hc] at h; exact h

/-- C24. A character is accepted as direction `d` exactly when it is one of its spellings. -/
theorem C24_try_from_char (c : Char) (d : Dir) : Dir.ofChar c = .ok d ↔ c ∈ spellings d := by
  constructor
  · intro h
    unfold Dir.ofChar at h
    iterate 24 (rcases ofChar_step h with ⟨rfl, rfl⟩ | h; · decide)
    cases h
  · intro h
    cases d <;> simp only [spellings, List.mem_cons, List.not_mem_nil, or_false] at h <;>
      (rcases h with rfl | rfl | rfl | rfl) <;> rfl

/-- C24. Parsing accepts exactly the one-character strings, and fails with the parse error for every other string. -/
theorem C24_parse (s : List Char) :
    (∀ d, Dir.fromStr s = .ok d ↔ ∃ c, s = [c] ∧ c ∈ spellings d) ∧
    ((¬ ∃ d c, s = [c] ∧ c ∈ spellings d) → Dir.fromStr s = .error .dirParseError) := by
  have err : ∀ c, (∀ d, c ∉ spellings d) → Dir.ofChar c = .error .dirParseError := by
    intro c hc
    rcases h : Dir.ofChar c with e | d
    · unfold Dir.ofChar at h
      iterate 24 (replace h := ofChar_step_error h)
      cases h; rfl
    · exact absurd ((C24_try_from_char c d).1 h) (hc d)
  match s with
  | [] => exact ⟨fun d => ⟨fun h => (by cases h), fun ⟨c, h, _⟩ => (by cases h)⟩, fun _ => rfl⟩
  | [c] =>
    refine ⟨fun d => ?_, fun h => err c fun d hd => h ⟨d, c, rfl, hd⟩⟩
    show Dir.ofChar c = .ok d ↔ _
    rw [C24_try_from_char]
    exact ⟨fun h => ⟨c, rfl, h⟩, fun ⟨c', h1, h2⟩ => by cases h1; exact h2⟩
  | a :: b :: r => exact ⟨fun d => ⟨fun h => (by cases h), fun ⟨c, h, _⟩ => (by cases h)⟩, fun _ => rfl⟩

/-- C24. The character names all parse back: UTF-8 and ASCII, for all eight directions. -/
theorem C24_char_names_parse (d : Dir) :
    (∃ c, d.nameUtf8Char = .ok c ∧ Dir.ofChar c = .ok d) ∧ (∃ c, d.nameAsciiChar = .ok c ∧ Dir.ofChar c = .ok d) ∧
    (∃ s, d.nameUtf8 = .ok s ∧ Dir.fromStr s = .ok d) ∧ (∃ s, d.nameAscii = .ok s ∧ Dir.fromStr s = .ok d) := by
  cases d <;> exact ⟨⟨_, rfl, rfl⟩, ⟨_, rfl, rfl⟩, ⟨_, rfl, rfl⟩, ⟨_, rfl, rfl⟩⟩

example : Dir.fromStr ['v'] = .ok .S ∧ Dir.fromStr ['N', 'E'] = .error .dirParseError := by decide

/-! ## C25 -/

/-- C25, full statement (false of the code): what `Display` prints parses back to the same direction. -/
def C25_statement : Prop := ∀ d : Dir, ∃ s, d.display = .ok s ∧ Dir.fromStr s = .ok d

/-- C25 is violated by every diagonal: they print as two letters. -/
theorem C25_display_parse_refuted : ¬ C25_statement := by
  intro h
  obtain ⟨s, h1, h2⟩ := h .NE
  cases h1
  revert h2
  decide

/-- C25, the exact picture. -/
theorem C25_display_parse_exact (d : Dir) :
    ∃ s, d.display = .ok s ∧
      Dir.fromStr s = if (unit d).1 = 0 ∨ (unit d).2 = 0 then .ok d else .error .dirParseError := by
  cases d <;> exact ⟨_, rfl, rfl⟩

/-- C25, partial: the round trip holds for the four non-diagonals. Missing: the four diagonals. -/
theorem C25_display_parse_partial (d : Dir) (hd : d.isDiagonal = false) :
    ∃ s, d.display = .ok s ∧ Dir.fromStr s = .ok d := by
  cases d <;> first | exact ⟨_, rfl, rfl⟩ | cases hd

/-- C25. Distinct directions never print alike. -/
theorem C25_display_injective (d e : Dir) (h : d.display = e.display) : d = e := by
  cases d <;> cases e <;> first | rfl | (revert h; decide)

example : Dir.isDiagonal .W = false := rfl

/-! ## C26 -/

/-- C26. `Dir::iter` visits the directions of its mode clockwise from north, each once, and never panics. -/
theorem C26_iter (D : Bool) (fuel : Nat) (hf : (clockwise D).length < fuel) :
    collectWith (DirIter.next D) fuel DirIter.default = .ok (clockwise D) := by
  cases D
  · obtain ⟨k, rfl⟩ : ∃ k, fuel = k + 5 := ⟨fuel - 5, by simp [clockwise] at hf; omega⟩
    rfl
  · obtain ⟨k, rfl⟩ : ∃ k, fuel = k + 9 := ⟨fuel - 9, by simp [clockwise] at hf; omega⟩
    rfl

/-- C26. The list contains exactly the permitted directions, without repetition; an exhausted iterator stays exhausted;
the size hint is exact at the start. -/
theorem C26_iter_complete (D : Bool) :
    (∀ d, d ∈ clockwise D ↔ (D = true ∨ d.isDiagonal = false)) ∧ (clockwise D).Nodup ∧
    DirIter.next D none = .ok (none, none) ∧
    DirIter.sizeHint D DirIter.default = (((clockwise D).length : Int), some ((clockwise D).length : Int)) := by
  refine ⟨?_, ?_, rfl, ?_⟩
  · intro d; cases D <;> cases d <;> decide
  · cases D <;> decide
  · cases D <;> rfl

/-- C26. `next` on a permitted direction gives the following one, `None` after the last. -/
theorem C26_next (D : Bool) (d : Dir) (hd : D = true ∨ d.isDiagonal = false) :
    ∃ r, d.next D = .ok r ∧ (∀ e, r = some e → turns e = turns d + (if D then 1 else 2)) ∧
      (r = none ↔ ((if D then Dir.NW else Dir.W) = d)) := by
  cases D <;> cases d <;> simp [Dir.isDiagonal, Dir.toIdx] at hd <;>
    exact ⟨_, rfl, by rintro e ⟨⟩ <;> rfl, by decide⟩

/-- C26, full statement of "`next` never panics" (false of the code). -/
def C26_total_statement : Prop := ∀ (D : Bool) (d : Dir), ∃ r, d.next D = .ok r

/-- C26: asking for the non-diagonal successor of `NW` panics (index out of range). -/
theorem C26_total_refuted : ¬ C26_total_statement := by
  intro h
  obtain ⟨r, hr⟩ := h false .NW
  cases hr

/-- C26: that is the only panic. -/
theorem C26_total_partial (D : Bool) (d : Dir) (h : ¬ (D = false ∧ d = .NW)) : ∃ r, d.next D = .ok r := by
  cases D <;> cases d <;> first | exact ⟨_, rfl⟩ | exact absurd ⟨rfl, rfl⟩ h

example : (clockwise true).length < 9 ∧ (Dir.S).next false = .ok (some .W) := by decide

end Sqrid
