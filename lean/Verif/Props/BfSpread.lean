import Verif.Props.BfStraight
import Verif.Props.OpenGrid
import Verif.Props.Quadratic
/-!
# The way of the breadth-first search with diagonals: C144

With diagonals the breadth-first search does not go straight: it goes off sideways as far as it can, to the north on the way east, to the east on the way south and to the
south on the way west, and comes back.
-/

namespace Sqrid

-- Statements that do not mention a target are about a debug build for a 64-bit machine.
attribute [local instance] debug64

open Spec

/-- To the north: first straight, then diagonally. To the east: first to the north east, as far as the number of steps and the edge of the grid allow; then straight; then
back to the south east. In the same way to the south, where it is first to the south east, and to the west, first to the south west. -/
def spreadWay (T : PosTy) (orig dest : Int × Int) : List Dir :=
  let dx := dest.1 - orig.1
  let dy := dest.2 - orig.2
  if (dx.natAbs : Int) ≤ -dy then
    List.replicate (-dy - dx.natAbs).toNat Dir.N ++ List.replicate dx.toNat Dir.NE ++ List.replicate (-dx).toNat Dir.NW
  else if (dy.natAbs : Int) ≤ dx then
    let a := min ((dx - dy) / 2) (orig.2 - T.Y.MIN)
    List.replicate a.toNat Dir.NE ++ List.replicate (dx - dy - 2 * a).toNat Dir.E ++ List.replicate (a + dy).toNat Dir.SE
  else if (dx.natAbs : Int) ≤ dy then
    let a := min ((dy + dx) / 2) (T.X.MAX - orig.1)
    List.replicate a.toNat Dir.SE ++ List.replicate (dy + dx - 2 * a).toNat Dir.S ++ List.replicate (a - dx).toNat Dir.SW
  else
    let a := min ((dy - dx) / 2) (T.Y.MAX - orig.2)
    List.replicate a.toNat Dir.SW ++ List.replicate (dy - dx - 2 * a).toNat Dir.W ++ List.replicate (a - dy).toNat Dir.NW

theorem spread_length {T : PosTy} {orig dest : P2} (ho : InGrid T orig) (hd : InGrid T dest) : ((spreadWay T orig dest).length : Int) = linf orig dest := by
  unfold InGrid at ho hd
  simp only [spreadWay, linf]
  split_ifs <;> simp only [List.length_append, List.length_replicate] <;> omega

theorem pairwise_three {a b c : Nat} {x y z : Dir} (h1 : (clockwise true).idxOf x ≤ (clockwise true).idxOf y) (h2 : (clockwise true).idxOf y ≤ (clockwise true).idxOf z) :
    (List.replicate a x ++ List.replicate b y ++ List.replicate c z).Pairwise fun a b => (clockwise true).idxOf a ≤ (clockwise true).idxOf b := by
  have h : ∀ n d, (List.replicate n d).Pairwise fun a b => (clockwise true).idxOf a ≤ (clockwise true).idxOf b := fun n d =>
    List.pairwise_replicate.2 (.inr (Nat.le_refl _))
  simp only [List.pairwise_append, h, true_and, List.mem_append, List.mem_replicate]
  refine ⟨?_, ?_⟩
  · rintro a ⟨-, rfl⟩ b ⟨-, rfl⟩; exact h1
  · rintro a (⟨-, rfl⟩ | ⟨-, rfl⟩) b ⟨-, rfl⟩ <;> omega

theorem spread_pairwise (T : PosTy) (orig dest : P2) :
    (spreadWay T orig dest).Pairwise fun a b => (clockwise true).idxOf a ≤ (clockwise true).idxOf b := by
  simp only [spreadWay]
  split_ifs <;> exact pairwise_three (by decide) (by decide)

theorem foldl_count8 (ds : List Dir) : ∀ p : P2,
    (ds.foldl neighbour p).1 = p.1 + ds.count .E + ds.count .NE + ds.count .SE - ds.count .W - ds.count .NW - ds.count .SW ∧
    (ds.foldl neighbour p).2 = p.2 + ds.count .S + ds.count .SE + ds.count .SW - ds.count .N - ds.count .NE - ds.count .NW ∧
    ds.length = ds.count .N + ds.count .NE + ds.count .E + ds.count .SE + ds.count .S + ds.count .SW + ds.count .W + ds.count .NW := by
  induction ds with
  | nil => intro p; simp
  | cons d ds ih =>
    intro p
    obtain ⟨a1, a2, a3⟩ := ih (neighbour p d)
    simp only [List.foldl_cons, List.length_cons, List.count_cons, a1, a2]
    cases d <;> simp only [neighbour, unit, beq_self_eq_true, reduceIte, reduceCtorEq, beq_iff_eq] <;> omega

/-- In a sorted list, what is before comes before, all of it. -/
theorem count_split {pre bs : List Dir} {y : Dir} (h : (pre ++ y :: bs).Pairwise fun a b => (clockwise true).idxOf a ≤ (clockwise true).idxOf b) (d : Dir) :
    ((clockwise true).idxOf d < (clockwise true).idxOf y → pre.count d = (pre ++ y :: bs).count d) ∧
    ((clockwise true).idxOf y < (clockwise true).idxOf d → pre.count d = 0) ∧ pre.count d ≤ (pre ++ y :: bs).count d ∧ pre.count y < (pre ++ y :: bs).count y := by
  obtain ⟨-, h2, h3⟩ := List.pairwise_append.1 h
  have h4 := (List.pairwise_cons.1 h2).1
  simp only [List.count_append]
  refine ⟨fun hlt => ?_, fun hlt => ?_, by omega, by simp⟩
  · have : (y :: bs).count d = 0 := List.count_eq_zero.2 fun hm => by
      rcases List.mem_cons.1 hm with rfl | hm
      · omega
      · have := h4 d hm
        omega
    omega
  · exact List.count_eq_zero.2 fun hm => by
      have := h3 d hm y (by simp)
      omega

theorem spread_count {T : PosTy} {orig dest : P2} (ho : InGrid T orig) (hd : InGrid T dest) (d : Dir) : ((spreadWay T orig dest).count d : Int) =
    let dx := dest.1 - orig.1
    let dy := dest.2 - orig.2
    if (dx.natAbs : Int) ≤ -dy then match d with | .N => -dy - dx.natAbs | .NE => max 0 dx | .NW => max 0 (-dx) | _ => 0
    else if (dy.natAbs : Int) ≤ dx then
      let a := min ((dx - dy) / 2) (orig.2 - T.Y.MIN)
      match d with | .NE => a | .E => dx - dy - 2 * a | .SE => a + dy | _ => 0
    else if (dx.natAbs : Int) ≤ dy then
      let a := min ((dy + dx) / 2) (T.X.MAX - orig.1)
      match d with | .SE => a | .S => dy + dx - 2 * a | .SW => a - dx | _ => 0
    else
      let a := min ((dy - dx) / 2) (T.Y.MAX - orig.2)
      match d with | .SW => a | .W => dy - dx - 2 * a | .NW => a - dy | _ => 0 := by
  unfold InGrid at ho hd
  simp only [spreadWay]
  split_ifs <;> simp only [List.count_append, List.count_replicate] <;>
    cases d <;> simp only [beq_self_eq_true, reduceIte, reduceCtorEq, beq_iff_eq, Nat.add_zero, Nat.zero_add] <;> omega

/-- Where the direction comes in the order. -/
def place : Dir → Nat
  | .N => 0 | .NE => 1 | .E => 2 | .SE => 3 | .S => 4 | .SW => 5 | .W => 6 | .NW => 7

theorem idxOf_place (d : Dir) : (clockwise true).idxOf d = place d := by cases d <;> rfl

theorem mem_of_count {l : List Dir} {d d1 d2 d3 : Dir} (h : ∀ d, d ≠ d1 → d ≠ d2 → d ≠ d3 → l.count d = 0) (hd : l.count d ≠ 0) : d = d1 ∨ d = d2 ∨ d = d3 := by
  by_contra hno
  exact hd (h d (fun e => hno (.inl e)) (fun e => hno (.inr (.inl e))) fun e => hno (.inr (.inr e)))

/-- How a path with steps in three directions can come before a sorted one. -/
theorem before_cases {pre as bs : List Dir} {x y d1 d2 d3 : Dir} (hW : ∀ d, d ≠ d1 → d ≠ d2 → d ≠ d3 → (pre ++ y :: bs).count d = 0)
    (hP : ∀ d, d ≠ d1 → d ≠ d2 → d ≠ d3 → (pre ++ x :: as).count d = 0)
    (hs : (pre ++ y :: bs).Pairwise fun a b => (clockwise true).idxOf a ≤ (clockwise true).idxOf b) (hlt : place x < place y) (h12 : place d1 < place d2)
    (h23 : place d2 < place d3) :
    (x = d1 ∧ pre.count d1 = (pre ++ y :: bs).count d1 ∧ pre.count d3 = 0 ∧ (pre ++ y :: bs).count d1 + 1 ≤ (pre ++ x :: as).count d1) ∨
    ((pre ++ y :: bs).count d1 + 1 ≤ (pre ++ x :: as).count d1 ∧ (pre ++ y :: bs).count d2 ≤ (pre ++ x :: as).count d2) ∨
    ((pre ++ y :: bs).count d1 ≤ (pre ++ x :: as).count d1 ∧ (pre ++ y :: bs).count d2 + 1 ≤ (pre ++ x :: as).count d2) := by
  have C := count_split hs
  simp only [idxOf_place] at C
  have hy := mem_of_count (d := y) hW (by simp)
  have hx := mem_of_count (d := x) hP (by simp)
  have hp : ∀ d, (pre ++ x :: as).count d = pre.count d + (if x = d then 1 else 0) + as.count d := fun d => by
    rw [List.count_append, List.count_cons]
    simp only [beq_iff_eq]
    omega
  rw [hp, hp]
  rcases hx with rfl | rfl | rfl
  · have h13 : x ≠ d2 := by rintro rfl; omega
    rw [if_pos rfl, if_neg h13]
    rcases hy with rfl | rfl | rfl
    · omega
    · have h1 := (C x).1 (by omega)
      exact .inl ⟨rfl, h1, (C d3).2.1 (by omega), by omega⟩
    · have h1 := (C x).1 (by omega)
      have h2 := (C d2).1 (by omega)
      exact .inr (.inl ⟨by omega, by omega⟩)
  · have h13 : x ≠ d1 := by rintro rfl; omega
    rw [if_pos rfl, if_neg h13]
    rcases hy with rfl | rfl | rfl
    · omega
    · omega
    · have h1 := (C x).1 (by omega)
      have h2 := (C d1).1 (by omega)
      exact .inr (.inr ⟨by omega, by omega⟩)
  · rcases hy with rfl | rfl | rfl <;> omega

theorem only_three {l : List Dir} {d1 d2 d3 : Dir} (h : l.length = l.count d1 + l.count d2 + l.count d3) (h12 : d1 ≠ d2) (h13 : d1 ≠ d3) (h23 : d2 ≠ d3) :
    ∀ d, d ≠ d1 → d ≠ d2 → d ≠ d3 → l.count d = 0 := by
  have h1 : ∀ l : List Dir, l.count d1 + l.count d2 + l.count d3 ≤ l.length := by
    intro l
    induction l with
    | nil => simp
    | cons d l ih =>
      simp only [List.count_cons, List.length_cons, beq_iff_eq]
      split_ifs <;> first | omega | (subst_vars; contradiction)
  intro d e1 e2 e3
  rw [List.count_eq_zero]
  intro hm
  obtain ⟨as, bs, rfl⟩ := List.append_of_mem hm
  have h2 := h1 as
  have h3 := h1 bs
  simp only [List.length_append, List.length_cons, List.count_append, List.count_cons, beq_iff_eq, e1, e2, e3, if_false] at h
  omega

/-- No path with as few steps comes before. -/
theorem spread_first {T : PosTy} {go : GoFn} (hgo : Adjacent T go) {orig dest : P2} (ho : InGrid T orig) (hd : InGrid T dest) {path : List Dir}
    (hpath : IsPath go true orig path dest) (hlen : (path.length : Int) = linf orig dest) : ¬ ComesBefore path (spreadWay T orig dest) := by
  rintro ⟨pre, x, as, y, bs, h1, h2, hlt⟩
  have hs := spread_pairwise T orig dest
  have hc := spread_count ho hd
  have hl := spread_length ho hd
  rw [h2] at hs hc hl
  obtain ⟨c1, c2, c3⟩ := foldl_count8 path orig
  rw [← follow_foldl hgo _ ho hpath.2] at c1 c2
  have hq : ∃ q, follow go orig (pre ++ [x]) = some q := by
    have h3 := hpath.2
    rw [h1, show pre ++ x :: as = (pre ++ [x]) ++ as by simp, follow_append] at h3
    cases h4 : follow go orig (pre ++ [x]) with
    | none => rw [h4] at h3; cases h3
    | some q => exact ⟨q, rfl⟩
  obtain ⟨q, hq⟩ := hq
  have hqin := follow_inGrid hgo.staysIn _ ho hq
  obtain ⟨e1, e2, -⟩ := foldl_count8 (pre ++ [x]) orig
  rw [← follow_foldl hgo _ ho hq] at e1 e2
  have hpx : ∀ d, (pre ++ [x]).count d = pre.count d + if x = d then 1 else 0 := fun d => by
    rw [List.count_append, List.count_singleton]
    simp only [beq_iff_eq]
  simp only [hpx] at e1 e2
  have hle : ∀ d, pre.count d ≤ (pre ++ y :: bs).count d := fun d => by rw [List.count_append]; omega
  simp only [idxOf_place] at hlt
  unfold linf at hlen hl
  unfold InGrid at ho hd hqin
  rw [h1] at c1 c2 c3 hlen
  clear hpx h1 h2 hq hpath hgo
  by_cases r1 : ((dest.1 - orig.1).natAbs : Int) ≤ -(dest.2 - orig.2)
  · simp only [if_pos r1] at hc
    have kN := hc .N; have kNE := hc .NE; have kNW := hc .NW
    clear hc e1 e2 hqin
    simp only at kN kNE kNW
    have hP := only_three (l := pre ++ x :: as) (d1 := .N) (d2 := .NE) (d3 := .NW) (by omega) (by decide) (by decide) (by decide)
    have hW := only_three (l := pre ++ y :: bs) (d1 := .N) (d2 := .NE) (d3 := .NW) (by omega) (by decide) (by decide) (by decide)
    have h := before_cases hW hP hs hlt (by decide) (by decide)
    omega
  by_cases r2 : ((dest.2 - orig.2).natAbs : Int) ≤ dest.1 - orig.1
  · simp only [if_neg r1, if_pos r2] at hc
    have k1 := hc .NE; have k2 := hc .E; have k3 := hc .SE
    simp only at k1 k2 k3
    clear hc
    have hmax : (dest.1 - orig.1 - (dest.2 - orig.2)) - 2 * min ((dest.1 - orig.1 - (dest.2 - orig.2)) / 2) (orig.2 - T.Y.MIN) ≤ 1 ∨ min ((dest.1 - orig.1 - (dest.2 - orig.2)) / 2) (orig.2 - T.Y.MIN) = orig.2 - T.Y.MIN := by clear * -; omega
    have hlen' : ((pre ++ x :: as).length : Int) = dest.1 - orig.1 := by clear * - hlen r1 r2; omega
    have hl' : ((pre ++ y :: bs).length : Int) = dest.1 - orig.1 := by clear * - hl r1 r2; omega
    generalize min ((dest.1 - orig.1 - (dest.2 - orig.2)) / 2) (orig.2 - T.Y.MIN) = m at k1 k2 k3 hmax
    have hP := only_three (l := pre ++ x :: as) (d1 := .NE) (d2 := .E) (d3 := .SE) (by clear * - c1 c2 c3 hlen'; omega) (by decide) (by decide) (by decide)
    have hW := only_three (l := pre ++ y :: bs) (d1 := .NE) (d2 := .E) (d3 := .SE) (by clear * - k1 k2 k3 hl'; omega) (by decide) (by decide) (by decide)
    have hsum : (pre ++ x :: as).length = (pre ++ x :: as).count .NE + (pre ++ x :: as).count .E + (pre ++ x :: as).count .SE := by clear * - c1 c2 c3 hlen'; omega
    have hcase := before_cases hW hP hs hlt (by decide) (by decide)
    have zS := hP .S (by decide) (by decide) (by decide)
    have wS := hW .S (by decide) (by decide) (by decide)
    have vS := hle .S
    have zSW := hP .SW (by decide) (by decide) (by decide)
    have wSW := hW .SW (by decide) (by decide) (by decide)
    have vSW := hle .SW
    have zN := hP .N (by decide) (by decide) (by decide)
    have wN := hW .N (by decide) (by decide) (by decide)
    have vN := hle .N
    have zNW := hP .NW (by decide) (by decide) (by decide)
    have wNW := hW .NW (by decide) (by decide) (by decide)
    have vNW := hle .NW
    rcases hcase with ⟨rfl, h3, h4, h5⟩ | h | h
    · simp only [reduceIte, reduceCtorEq] at e2
      clear e1
      clear * - e2 c2 hsum hlen' k1 k2 k3 hmax h3 h4 h5 zS wS vS zSW wSW vSW zN wN vN zNW wNW vNW hqin
      omega
    · clear * - c2 hsum hlen' k1 k2 k3 h zS zSW zN zNW
      omega
    · clear * - c2 hsum hlen' k1 k2 k3 h zS zSW zN zNW
      omega
  by_cases r3 : ((dest.1 - orig.1).natAbs : Int) ≤ dest.2 - orig.2
  · simp only [if_neg r1, if_neg r2, if_pos r3] at hc
    have k1 := hc .SE; have k2 := hc .S; have k3 := hc .SW
    simp only at k1 k2 k3
    clear hc
    have hmax : (dest.2 - orig.2 + (dest.1 - orig.1)) - 2 * min ((dest.2 - orig.2 + (dest.1 - orig.1)) / 2) (T.X.MAX - orig.1) ≤ 1 ∨ min ((dest.2 - orig.2 + (dest.1 - orig.1)) / 2) (T.X.MAX - orig.1) = T.X.MAX - orig.1 := by clear * -; omega
    have hlen' : ((pre ++ x :: as).length : Int) = dest.2 - orig.2 := by clear * - hlen r1 r2 r3; omega
    have hl' : ((pre ++ y :: bs).length : Int) = dest.2 - orig.2 := by clear * - hl r1 r2 r3; omega
    generalize min ((dest.2 - orig.2 + (dest.1 - orig.1)) / 2) (T.X.MAX - orig.1) = m at k1 k2 k3 hmax
    have hP := only_three (l := pre ++ x :: as) (d1 := .SE) (d2 := .S) (d3 := .SW) (by clear * - c1 c2 c3 hlen'; omega) (by decide) (by decide) (by decide)
    have hW := only_three (l := pre ++ y :: bs) (d1 := .SE) (d2 := .S) (d3 := .SW) (by clear * - k1 k2 k3 hl'; omega) (by decide) (by decide) (by decide)
    have hsum : (pre ++ x :: as).length = (pre ++ x :: as).count .SE + (pre ++ x :: as).count .S + (pre ++ x :: as).count .SW := by clear * - c1 c2 c3 hlen'; omega
    have hcase := before_cases hW hP hs hlt (by decide) (by decide)
    have zE := hP .E (by decide) (by decide) (by decide)
    have wE := hW .E (by decide) (by decide) (by decide)
    have vE := hle .E
    have zNE := hP .NE (by decide) (by decide) (by decide)
    have wNE := hW .NE (by decide) (by decide) (by decide)
    have vNE := hle .NE
    have zW := hP .W (by decide) (by decide) (by decide)
    have wW := hW .W (by decide) (by decide) (by decide)
    have vW := hle .W
    have zNW := hP .NW (by decide) (by decide) (by decide)
    have wNW := hW .NW (by decide) (by decide) (by decide)
    have vNW := hle .NW
    rcases hcase with ⟨rfl, h3, h4, h5⟩ | h | h
    · simp only [reduceIte, reduceCtorEq] at e1
      clear e2
      clear * - e1 c1 hsum hlen' k1 k2 k3 hmax h3 h4 h5 zE wE vE zNE wNE vNE zW wW vW zNW wNW vNW hqin
      omega
    · clear * - c1 hsum hlen' k1 k2 k3 h zE zNE zW zNW
      omega
    · clear * - c1 hsum hlen' k1 k2 k3 h zE zNE zW zNW
      omega
  · simp only [if_neg r1, if_neg r2, if_neg r3] at hc
    have k1 := hc .SW; have k2 := hc .W; have k3 := hc .NW
    simp only at k1 k2 k3
    clear hc
    have hmax : (dest.2 - orig.2 - (dest.1 - orig.1)) - 2 * min ((dest.2 - orig.2 - (dest.1 - orig.1)) / 2) (T.Y.MAX - orig.2) ≤ 1 ∨ min ((dest.2 - orig.2 - (dest.1 - orig.1)) / 2) (T.Y.MAX - orig.2) = T.Y.MAX - orig.2 := by clear * -; omega
    have hlen' : ((pre ++ x :: as).length : Int) = -(dest.1 - orig.1) := by clear * - hlen r1 r2 r3; omega
    have hl' : ((pre ++ y :: bs).length : Int) = -(dest.1 - orig.1) := by clear * - hl r1 r2 r3; omega
    generalize min ((dest.2 - orig.2 - (dest.1 - orig.1)) / 2) (T.Y.MAX - orig.2) = m at k1 k2 k3 hmax
    have hP := only_three (l := pre ++ x :: as) (d1 := .SW) (d2 := .W) (d3 := .NW) (by clear * - c1 c2 c3 hlen'; omega) (by decide) (by decide) (by decide)
    have hW := only_three (l := pre ++ y :: bs) (d1 := .SW) (d2 := .W) (d3 := .NW) (by clear * - k1 k2 k3 hl'; omega) (by decide) (by decide) (by decide)
    have hsum : (pre ++ x :: as).length = (pre ++ x :: as).count .SW + (pre ++ x :: as).count .W + (pre ++ x :: as).count .NW := by clear * - c1 c2 c3 hlen'; omega
    have hcase := before_cases hW hP hs hlt (by decide) (by decide)
    have zS := hP .S (by decide) (by decide) (by decide)
    have wS := hW .S (by decide) (by decide) (by decide)
    have vS := hle .S
    have zSE := hP .SE (by decide) (by decide) (by decide)
    have wSE := hW .SE (by decide) (by decide) (by decide)
    have vSE := hle .SE
    have zN := hP .N (by decide) (by decide) (by decide)
    have wN := hW .N (by decide) (by decide) (by decide)
    have vN := hle .N
    have zNE := hP .NE (by decide) (by decide) (by decide)
    have wNE := hW .NE (by decide) (by decide) (by decide)
    have vNE := hle .NE
    rcases hcase with ⟨rfl, h3, h4, h5⟩ | h | h
    · simp only [reduceIte, reduceCtorEq] at e2
      clear e1
      clear * - e2 c2 hsum hlen' k1 k2 k3 hmax h3 h4 h5 zS wS vS zSE wSE vSE zN wN vN zNE wNE vNE hqin
      omega
    · clear * - c2 hsum hlen' k1 k2 k3 h zS zSE zN zNE
      omega
    · clear * - c2 hsum hlen' k1 k2 k3 h zS zSE zN zNE
      omega

theorem three_free {T : PosTy} {p q : P2} (hp : InGrid T p) (a b c : Nat) (x y z : Dir)
    (h1 : InGrid T (p.1 + a * (unit x).1, p.2 + a * (unit x).2))
    (h2 : InGrid T (p.1 + a * (unit x).1 + b * (unit y).1, p.2 + a * (unit x).2 + b * (unit y).2))
    (h3 : InGrid T (p.1 + a * (unit x).1 + b * (unit y).1 + c * (unit z).1, p.2 + a * (unit x).2 + b * (unit y).2 + c * (unit z).2))
    (e1 : p.1 + a * (unit x).1 + b * (unit y).1 + c * (unit z).1 = q.1) (e2 : p.2 + a * (unit x).2 + b * (unit y).2 + c * (unit z).2 = q.2) :
    IsPath (aroundWalls T []) true p (List.replicate a x ++ List.replicate b y ++ List.replicate c z) q := by
  have ha : ∀ d, Allowed true d := fun d => by simp [Allowed]
  have k1 := replicate_free (T := T) a x p (ha x) hp h1
  have k2 := replicate_free (T := T) b y _ (ha y) h1 h2
  have k3 := replicate_free (T := T) c z _ (ha z) h2 h3
  rw [show q = (q.1, q.2) from rfl, ← e1, ← e2]
  exact isPath_append (isPath_append k1 k2) k3

/-- In a grid without walls the way is free. -/
theorem spread_free (T : PosTy) (orig dest : Int × Int) (ho : InGrid T orig) (hd : InGrid T dest) :
    IsPath (aroundWalls T []) true orig (spreadWay T orig dest) dest := by
  have ho' := ho
  unfold InGrid at ho hd
  simp only [spreadWay]
  split_ifs with r1 r2 r3
  · refine three_free ho' _ _ _ _ _ _ ?_ ?_ ?_ ?_ ?_ <;> unfold InGrid at * <;> simp only [unit] <;> omega
  · generalize hm : min ((dest.1 - orig.1 - (dest.2 - orig.2)) / 2) (orig.2 - T.Y.MIN) = m
    refine three_free ho' _ _ _ _ _ _ ?_ ?_ ?_ ?_ ?_ <;> unfold InGrid at * <;> simp only [unit] <;> omega
  · generalize hm : min ((dest.2 - orig.2 + (dest.1 - orig.1)) / 2) (T.X.MAX - orig.1) = m
    refine three_free ho' _ _ _ _ _ _ ?_ ?_ ?_ ?_ ?_ <;> unfold InGrid at * <;> simp only [unit] <;> omega
  · generalize hm : min ((dest.2 - orig.2 - (dest.1 - orig.1)) / 2) (T.Y.MAX - orig.2) = m
    refine three_free ho' _ _ _ _ _ _ ?_ ?_ ?_ ?_ ?_ <;> unfold InGrid at * <;> simp only [unit] <;> omega

/-! ## C144 -/

/-- C144. With diagonals, if this way is free, then the breadth-first search for a position returns it, or `Loop` if it has more steps than the square of the number of
columns. -/
theorem C144_bfs [Target] (T : PosTy) (hT : T.Searchable) (bfs) (hbfs : Bf.IsSearch T bfs) (go : Int × Int → Dir → Option (Int × Int)) (hgo : Adjacent T go)
    (orig dest : Int × Int) (ho : InGrid T orig) (hne : dest ≠ orig) (hway : IsPath go true orig (spreadWay T orig dest) dest) (fuel : Nat)
    (hfuel : cols T * rows T < (fuel : Int)) :
    (linf orig dest ≤ cols T * cols T → bfs true go orig (fun p => p == dest) fuel = .ok (.ok (dest, spreadWay T orig dest))) ∧
    (cols T * cols T < linf orig dest → bfs true go orig (fun p => p == dest) fuel = .ok (.error .loop)) := by
  have hd := isPath_inGrid hgo.staysIn ho hway
  have hl := spread_length ho hd
  have hdist : IsDist go true orig dest (spreadWay T orig dest).length := ⟨⟨_, hway, rfl⟩, fun ds hds => by
    have := linf_le_path hgo ho hds
    omega⟩
  obtain ⟨h1, h2⟩ := (C53_exact T hT bfs hbfs true go hgo orig ho (fun p => p == dest) fuel hfuel).2 dest _ (by simp) hne hdist (by
    intro q' m hq' _ hm
    simp only [beq_iff_eq] at hq'
    subst hq'
    exact Nat.le_of_eq (isDist_unique hdist hm))
  refine ⟨fun h => ?_, fun h => h2 (by omega)⟩
  obtain ⟨dest', path, h3⟩ := h1 (by omega)
  obtain ⟨h4, h5⟩ := C51_valid_path T hT bfs hbfs true go hgo orig ho _ fuel dest' path h3
  simp only [beq_iff_eq] at h4
  subst h4
  rcases C142_first T hT bfs hbfs true go hgo orig ho _ fuel dest' path h3 dest' (by simp) hne _ hway with h6 | ⟨h6, h7 | h7⟩
  · exact absurd (hdist.2 path h5) (by omega)
  · rw [h3, h7]
  · exact absurd h7 (spread_first hgo ho hd h5 (by omega))

/-- C144. In a grid without walls this is the path from everywhere to everywhere else. -/
theorem C144_open [Target] (T : PosTy) (hT : T.Searchable) (bfs) (hbfs : Bf.IsSearch T bfs) (orig dest : Int × Int) (ho : InGrid T orig) (hd : InGrid T dest)
    (hne : dest ≠ orig) (hcols : linf orig dest ≤ cols T * cols T) (fuel : Nat) (hfuel : cols T * rows T < (fuel : Int)) :
    bfs true (aroundWalls T []) orig (fun p => p == dest) fuel = .ok (.ok (dest, spreadWay T orig dest)) :=
  (C144_bfs T hT bfs hbfs _ (aroundWalls_adjacent T []) orig dest ho hne (spread_free T orig dest ho hd) fuel hfuel).1 hcols

/-- C144. So in a grid without walls the way to a position `2 * n` columns to the east, in the same row, goes `n` rows up and down again, if there are as many. -/
theorem C144_hill [Target] (T : PosTy) (hT : T.Searchable) (bfs) (hbfs : Bf.IsSearch T bfs) (x y : Int) (n : Nat) (hn : 0 < n) (ho : InGrid T (x, y))
    (hd : InGrid T (x + 2 * n, y)) (hroom : InGrid T (x, y - n)) (fuel : Nat) (hfuel : cols T * rows T < (fuel : Int)) :
    bfs true (aroundWalls T []) (x, y) (fun p => p == (x + 2 * n, y)) fuel =
      .ok (.ok ((x + 2 * n, y), List.replicate n Dir.NE ++ List.replicate n Dir.SE)) := by
  have hne : ((x + 2 * n, y) : Int × Int) ≠ (x, y) := by
    intro h
    injection h with h
    omega
  have hcols : linf (x, y) (x + 2 * n, y) ≤ cols T * cols T := by
    have h1 : 1 ≤ cols T := by
      have := hT.x0
      unfold InGrid at hd ho
      simp only [cols] at *
      omega
    have h2 : linf (x, y) (x + 2 * n, y) ≤ cols T := by
      unfold InGrid at hd ho
      simp only [cols, linf] at *
      omega
    have h3 := Int.mul_le_mul_of_nonneg_left h1 (show 0 ≤ cols T by omega)
    omega
  rw [C144_open T hT bfs hbfs _ _ ho hd hne hcols fuel hfuel]
  have e : spreadWay T (x, y) (x + 2 * n, y) = List.replicate n Dir.NE ++ List.replicate n Dir.SE := by
    unfold InGrid at hroom
    simp only at hroom
    simp only [spreadWay]
    rw [if_neg (by omega), if_pos (by omega), show min ((x + 2 * n - x - (y - y)) / 2) (y - T.Y.MIN) = n by omega, show ((n : Int) + (y - y)).toNat = n by omega,
      show (x + 2 * n - x - (y - y) - 2 * (n : Int)).toNat = 0 by omega]
    simp
  rw [e]

example : InGrid (PosTy.pos 6 3) (0, 3) ∧ InGrid (PosTy.pos 6 3) (0 + 2 * 3, 3) ∧ InGrid (PosTy.pos 6 3) (0, 3 - 3) := by unfold InGrid; decide
example : Bf.pathHash (PosTy.pos 6 3) true (aroundWalls (PosTy.pos 6 3) []) (0, 3) (fun p => p == (6, 3)) 30 = .ok (.ok ((6, 3), [.NE, .NE, .NE, .SE, .SE, .SE])) := by
  decide +kernel
-- The edge of the grid is in the way; in each of the four directions.
example : spreadWay (PosTy.pos 6 6) (0, 1) (6, 2) = [.NE, .E, .E, .E, .SE, .SE] ∧ spreadWay (PosTy.pos 6 6) (5, 0) (4, 5) = [.SE, .S, .S, .SW, .SW] ∧
    spreadWay (PosTy.pos 6 6) (6, 5) (1, 4) = [.SW, .W, .W, .NW, .NW] ∧ spreadWay (PosTy.pos 6 6) (2, 4) (1, 0) = [.N, .N, .N, .NW] := by decide
example : IsPath (aroundWalls (PosTy.pos 6 6) [(3, 1), (3, 2)]) true (0, 1) (spreadWay (PosTy.pos 6 6) (0, 1) (6, 2)) (6, 2) := ⟨by unfold Allowed; decide +kernel, by decide +kernel⟩
example : Bf.pathHash (PosTy.pos 6 6) true (aroundWalls (PosTy.pos 6 6) [(3, 1), (3, 2)]) (0, 1) (fun p => p == (6, 2)) 50 = .ok (.ok ((6, 2), [.NE, .E, .E, .E, .SE, .SE])) := by
  decide +kernel

end Sqrid
