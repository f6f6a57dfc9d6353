import Verif.Props.BfSpread
import Verif.Props.Backwards
/-!
# The way of the uniform-cost search with diagonals: C145

With diagonals and costs of 1 the uniform-cost search does not go straight either: of the ways with the fewest steps it takes the one that, seen from the destination, goes
off as far as it can to the south, if the destination is in the east or west, or to the east, if it is in the north or south.
-/

namespace Sqrid

-- Statements that do not mention a target are about a debug build for a 64-bit machine.
attribute [local instance] debug64

open Spec

/-- To the east and west: first to the south, as far as the number of steps and the edge of the grid allow; then straight; then back to the north. To the north and south:
first to the east, then straight, then back to the west. -/
def swingWay (T : PosTy) (orig dest : Int × Int) : List Dir :=
  let dx := dest.1 - orig.1
  let dy := dest.2 - orig.2
  if (dy.natAbs : Int) ≤ dx then
    let a := min ((dx - dy) / 2) (T.Y.MAX - dest.2)
    List.replicate (a + dy).toNat Dir.SE ++ List.replicate (dx - dy - 2 * a).toNat Dir.E ++ List.replicate a.toNat Dir.NE
  else if (dy.natAbs : Int) ≤ -dx then
    let a := min ((-dx - dy) / 2) (T.Y.MAX - dest.2)
    List.replicate (a + dy).toNat Dir.SW ++ List.replicate (-dx - dy - 2 * a).toNat Dir.W ++ List.replicate a.toNat Dir.NW
  else if (dx.natAbs : Int) ≤ -dy then
    let a := min ((-dy - dx) / 2) (T.X.MAX - dest.1)
    List.replicate (a + dx).toNat Dir.NE ++ List.replicate (-dy - dx - 2 * a).toNat Dir.N ++ List.replicate a.toNat Dir.NW
  else
    let a := min ((dy - dx) / 2) (T.X.MAX - dest.1)
    List.replicate (a + dx).toNat Dir.SE ++ List.replicate (dy - dx - 2 * a).toNat Dir.S ++ List.replicate a.toNat Dir.SW

theorem swing_length {T : PosTy} {orig dest : P2} (ho : InGrid T orig) (hd : InGrid T dest) : ((swingWay T orig dest).length : Int) = linf orig dest := by
  unfold InGrid at ho hd
  simp only [swingWay, linf]
  split_ifs with r1 r2 r3
  · generalize hm : min ((dest.1 - orig.1 - (dest.2 - orig.2)) / 2) (T.Y.MAX - dest.2) = m
    simp only [List.length_append, List.length_replicate]
    omega
  · generalize hm : min ((-(dest.1 - orig.1) - (dest.2 - orig.2)) / 2) (T.Y.MAX - dest.2) = m
    simp only [List.length_append, List.length_replicate]
    omega
  · generalize hm : min ((-(dest.2 - orig.2) - (dest.1 - orig.1)) / 2) (T.X.MAX - dest.1) = m
    simp only [List.length_append, List.length_replicate]
    omega
  · generalize hm : min ((dest.2 - orig.2 - (dest.1 - orig.1)) / 2) (T.X.MAX - dest.1) = m
    simp only [List.length_append, List.length_replicate]
    omega

/-- Where `a` steps in one direction, then `b` in another, then `c` in a third lead, after `i` steps. -/
theorem three_foldl (p : P2) (a b c i : Nat) (x y z : Dir) :
    ((List.replicate a x ++ List.replicate b y ++ List.replicate c z).take i).foldl neighbour p =
    (p.1 + (min i a : Nat) * (unit x).1 + (min (i - a) b : Nat) * (unit y).1 + (min (i - a - b) c : Nat) * (unit z).1,
      p.2 + (min i a : Nat) * (unit x).2 + (min (i - a) b : Nat) * (unit y).2 + (min (i - a - b) c : Nat) * (unit z).2) := by
  simp only [List.take_append, List.length_append, List.length_replicate, List.take_replicate, List.foldl_append, foldl_replicate, ← Nat.sub_sub]

theorem three_at {p u v : P2} {a b c i : Nat} {x y z : Dir} (hi : i < a + b + c)
    (hu : u = ((List.replicate a x ++ List.replicate b y ++ List.replicate c z).take i).foldl neighbour p)
    (hv : v = ((List.replicate a x ++ List.replicate b y ++ List.replicate c z).take (i + 1)).foldl neighbour p) :
    ((i : Int) < a ∧ u = (p.1 + i * (unit x).1, p.2 + i * (unit x).2) ∧ v = neighbour u x) ∨
    ((a : Int) ≤ i ∧ (i : Int) < a + b ∧ u = (p.1 + a * (unit x).1 + (i - a) * (unit y).1, p.2 + a * (unit x).2 + (i - a) * (unit y).2) ∧ v = neighbour u y) ∨
    ((a : Int) + b ≤ i ∧ u = (p.1 + a * (unit x).1 + b * (unit y).1 + (i - a - b) * (unit z).1, p.2 + a * (unit x).2 + b * (unit y).2 + (i - a - b) * (unit z).2) ∧
      v = neighbour u z) := by
  rw [three_foldl] at hu hv
  subst hu hv
  rcases Nat.lt_or_ge i a with h1 | h1
  · have e1 : min i a = i := by omega
    have e2 : min (i + 1) a = i + 1 := by omega
    rw [e1, e2, show i - a = 0 by omega, show i + 1 - a = 0 by omega]
    refine .inl ⟨by omega, by simp, ?_⟩
    simp only [neighbour, Prod.mk.injEq, Nat.zero_sub, Nat.zero_min]
    constructor <;> push_cast <;> ring
  · have e1 : min i a = a := by omega
    have e2 : min (i + 1) a = a := by omega
    rw [e1, e2]
    rcases Nat.lt_or_ge i (a + b) with h2 | h2
    · have e3 : min (i - a) b = i - a := by omega
      have e4 : min (i + 1 - a) b = i - a + 1 := by omega
      rw [e3, e4, show i - a - b = 0 by omega, show i + 1 - a - b = 0 by omega]
      refine .inr (.inl ⟨by omega, by omega, by simp [Nat.cast_sub h1], ?_⟩)
      simp only [neighbour, Prod.mk.injEq, Nat.zero_min]
      constructor <;> push_cast <;> ring
    · have e3 : min (i - a) b = b := by omega
      have e4 : min (i + 1 - a) b = b := by omega
      have e5 : min (i - a - b) c = i - a - b := by omega
      have e6 : min (i + 1 - a - b) c = i - a - b + 1 := by omega
      rw [e3, e4, e5, e6]
      refine .inr (.inr ⟨by omega, by simp [Nat.cast_sub (show a ≤ i by omega), Nat.cast_sub (show b ≤ i - a by omega)], ?_⟩)
      simp only [neighbour, Prod.mk.injEq]
      constructor <;> push_cast <;> ring

set_option maxHeartbeats 1000000 in
/-- Each step comes from the greatest of the positions that are as few steps from the origin. -/
theorem swing_back {T : PosTy} {orig dest : P2} (ho : InGrid T orig) (hd : InGrid T dest) {i : Nat} (hi : i < (swingWay T orig dest).length) {u v q : P2} {d : Dir}
    (hu : u = ((swingWay T orig dest).take i).foldl neighbour orig) (hv : v = ((swingWay T orig dest).take (i + 1)).foldl neighbour orig)
    (hq : InGrid T q) (hqv : v = neighbour q d) (hle : linf orig q ≤ i) : q.1 < u.1 ∨ q.1 = u.1 ∧ q.2 ≤ u.2 := by
  unfold InGrid at *
  unfold linf at hle
  have hl : ((i : Int) < (swingWay T orig dest).length) := by omega
  simp only [swingWay] at hu hv hl
  split_ifs at hu hv hl with r1 r2 r3
  · generalize hm : min ((dest.1 - orig.1 - (dest.2 - orig.2)) / 2) (T.Y.MAX - dest.2) = m at hu hv hl
    simp only [List.length_append, List.length_replicate] at hl
    have hk := three_at (by omega) hu hv
    clear hu hv hi
    rcases hk with ⟨k1, rfl, k3⟩ | ⟨k1, k2, rfl, k3⟩ | ⟨k1, rfl, k3⟩ <;> rw [hqv] at k3 <;> cases d <;> simp only [neighbour, unit, Prod.mk.injEq] at k3 ⊢ <;> omega
  · generalize hm : min ((-(dest.1 - orig.1) - (dest.2 - orig.2)) / 2) (T.Y.MAX - dest.2) = m at hu hv hl
    simp only [List.length_append, List.length_replicate] at hl
    have hk := three_at (by omega) hu hv
    clear hu hv hi
    rcases hk with ⟨k1, rfl, k3⟩ | ⟨k1, k2, rfl, k3⟩ | ⟨k1, rfl, k3⟩ <;> rw [hqv] at k3 <;> cases d <;> simp only [neighbour, unit, Prod.mk.injEq] at k3 ⊢ <;> omega
  · generalize hm : min ((-(dest.2 - orig.2) - (dest.1 - orig.1)) / 2) (T.X.MAX - dest.1) = m at hu hv hl
    simp only [List.length_append, List.length_replicate] at hl
    have hk := three_at (by omega) hu hv
    clear hu hv hi
    rcases hk with ⟨k1, rfl, k3⟩ | ⟨k1, k2, rfl, k3⟩ | ⟨k1, rfl, k3⟩ <;> rw [hqv] at k3 <;> cases d <;> simp only [neighbour, unit, Prod.mk.injEq] at k3 ⊢ <;> omega
  · generalize hm : min ((dest.2 - orig.2 - (dest.1 - orig.1)) / 2) (T.X.MAX - dest.1) = m at hu hv hl
    simp only [List.length_append, List.length_replicate] at hl
    have hk := three_at (by omega) hu hv
    clear hu hv hi
    rcases hk with ⟨k1, rfl, k3⟩ | ⟨k1, k2, rfl, k3⟩ | ⟨k1, rfl, k3⟩ <;> rw [hqv] at k3 <;> cases d <;> simp only [neighbour, unit, Prod.mk.injEq] at k3 ⊢ <;> omega

/-- In a grid without walls the way is free. -/
theorem swing_free (T : PosTy) (orig dest : Int × Int) (ho : InGrid T orig) (hd : InGrid T dest) :
    IsPath (aroundWalls T []) true orig (swingWay T orig dest) dest := by
  have ho' := ho
  unfold InGrid at ho hd
  simp only [swingWay]
  split_ifs with r1 r2 r3
  · generalize hm : min ((dest.1 - orig.1 - (dest.2 - orig.2)) / 2) (T.Y.MAX - dest.2) = m
    refine three_free ho' _ _ _ _ _ _ ?_ ?_ ?_ ?_ ?_ <;> unfold InGrid at * <;> simp only [unit] <;> omega
  · generalize hm : min ((-(dest.1 - orig.1) - (dest.2 - orig.2)) / 2) (T.Y.MAX - dest.2) = m
    refine three_free ho' _ _ _ _ _ _ ?_ ?_ ?_ ?_ ?_ <;> unfold InGrid at * <;> simp only [unit] <;> omega
  · generalize hm : min ((-(dest.2 - orig.2) - (dest.1 - orig.1)) / 2) (T.X.MAX - dest.1) = m
    refine three_free ho' _ _ _ _ _ _ ?_ ?_ ?_ ?_ ?_ <;> unfold InGrid at * <;> simp only [unit] <;> omega
  · generalize hm : min ((dest.2 - orig.2 - (dest.1 - orig.1)) / 2) (T.X.MAX - dest.1) = m
    refine three_free ho' _ _ _ _ _ _ ?_ ?_ ?_ ?_ ?_ <;> unfold InGrid at * <;> simp only [unit] <;> omega

/-! ## C145 -/

/-- C145. With diagonals and costs of 1, if this way is free, then the uniform-cost search returns it, or `Loop` if it has more steps than the square of the number of
columns. -/
theorem C145_ucs [Target] (T : PosTy) (hT : T.Searchable) (ucs) (hucs : Ucs.IsSearch T ucs)
    (go : Int × Int → Dir → Option (Int × Int)) (hgo : Adjacent T go) (orig dest : Int × Int) (ho : InGrid T orig)
    (hway : IsPath go true orig (swingWay T orig dest) dest) (fuel : Nat) (hfuel : Ucs.steps T < (fuel : Int)) :
    (linf orig dest ≤ cols T * cols T → ucs true (unitCost go) orig dest fuel = .ok (.ok (swingWay T orig dest))) ∧
    (cols T * cols T < linf orig dest → ucs true (unitCost go) orig dest fuel = .ok (.error .loop)) := by
  have hd := isPath_inGrid hgo.staysIn ho hway
  have hl := swing_length ho hd
  have hdist : IsDist go true orig dest (swingWay T orig dest).length := ⟨⟨_, hway, rfl⟩, fun ds hds => by
    have := linf_le_path hgo ho hds
    omega⟩
  obtain ⟨h1, h2⟩ := C62_unit_exact T hT ucs hucs true go hgo orig dest ho hd fuel hfuel _ hdist
  refine ⟨fun h => ?_, fun h => h2 (by omega)⟩
  obtain ⟨path, h3, -⟩ := h1 (by omega)
  rw [h3, C140_ucs_exact T hT ucs hucs true (unitCost go) (unitCost_adjacent hgo) (unitCost_usize go) (unitCost_enter go)
    (fun p d q w hw => by have := (unitCost_some.1 hw).2; omega) orig dest (.inr (unitCost_below hT hgo ho).noOverflow) ho hd fuel path h3 (swingWay T orig dest)
    (swingWay T orig dest).length (isCostPath_unit.2 ⟨hway, rfl⟩) (isMinCost_unit.2 ⟨_, rfl, hdist⟩) ?_]
  intro as d bs q r k q' d' k' e hq hr hk hd' hq' hk'
  rw [dropCost_unitCost] at hq hr hq'
  have e1 : as = (swingWay T orig dest).take as.length := by rw [e, List.take_left' rfl]
  have e2 : as ++ [d] = (swingWay T orig dest).take (as.length + 1) := by
    rw [e, show as ++ d :: bs = (as ++ [d]) ++ bs by simp, List.take_left' (by simp)]
  have hlen : as.length < (swingWay T orig dest).length := by rw [e]; simp
  have hqin := follow_inGrid hgo.staysIn _ ho hq
  have e3 := follow_foldl hgo _ ho hq
  have e4 : r = (as ++ [d]).foldl neighbour orig := by
    rw [List.foldl_append, ← e3]
    exact (hgo _ _ _ hqin hr).2
  have ha : IsPath go true orig as q := ⟨fun x _ => by simp [Allowed], hq⟩
  -- what comes after is a shortest way, so what is before is as well
  have hrest : IsPath go true q (d :: bs) dest := ⟨fun x _ => by simp [Allowed], by
    have h4 := hway.2
    rwa [e, follow_append, hq] at h4⟩
  have hdq : IsDist go true orig q as.length := ⟨⟨as, ha, rfl⟩, fun ds hds => by
    have h4 := hdist.2 _ (isPath_append hds hrest)
    rw [e] at h4
    simp only [List.length_append] at h4
    omega⟩
  have e5 := isMinCost_unique hk (isMinCost_unit.2 ⟨_, rfl, hdq⟩)
  obtain ⟨ds, hds⟩ := hk'.1
  obtain ⟨h6, rfl⟩ := isCostPath_unit.1 hds
  have h7 := linf_le_path hgo ho h6
  have hin' := follow_inGrid hgo.staysIn _ ho h6.2
  have h8 := (hgo _ _ _ hin' hq').2
  have h9 : as.length ≤ ds.length := by
    have hrest' : IsPath go true r bs dest := ⟨fun x _ => by simp [Allowed], by
      have h4 := hrest.2
      simpa only [follow, hr] using h4⟩
    have h4 := hdist.2 _ (isPath_append (isPath_append h6 (isPath_single hd' hq')) hrest')
    rw [e] at h4
    simp only [List.length_append, List.length_cons, List.length_nil] at h4
    omega
  rw [e5]
  rcases Nat.lt_or_ge as.length ds.length with h10 | h10
  · exact .inl (by omega)
  · refine .inr ⟨by omega, ?_⟩
    rw [e1] at e3
    rw [e2] at e4
    have h11 := swing_back ho hd hlen e3 e4 hin' h8 (by omega)
    by_cases h12 : q' = q
    · exact .inl h12
    · refine .inr ?_
      by_contra hno
      exact h12 (Prod.ext (by omega) (by omega))

/-- C145. In a grid without walls this is the path from everywhere to everywhere. -/
theorem C145_open [Target] (T : PosTy) (hT : T.Searchable) (ucs) (hucs : Ucs.IsSearch T ucs) (orig dest : Int × Int) (ho : InGrid T orig) (hd : InGrid T dest)
    (hcols : linf orig dest ≤ cols T * cols T) (fuel : Nat) (hfuel : Ucs.steps T < (fuel : Int)) :
    ucs true (unitCost (aroundWalls T [])) orig dest fuel = .ok (.ok (swingWay T orig dest)) :=
  (C145_ucs T hT ucs hucs _ (aroundWalls_adjacent T []) orig dest ho (swing_free T orig dest ho hd) fuel hfuel).1 hcols

-- The edge of the grid is in the way; in each of the four directions.
example : swingWay (PosTy.pos 6 6) (0, 4) (6, 5) = [.SE, .SE, .E, .E, .E, .NE] ∧ swingWay (PosTy.pos 6 6) (6, 1) (1, 2) = [.SW, .SW, .SW, .NW, .NW] ∧
    swingWay (PosTy.pos 6 6) (5, 6) (5, 1) = [.NE, .N, .N, .N, .NW] ∧ swingWay (PosTy.pos 6 6) (0, 0) (0, 4) = [.SE, .SE, .SW, .SW] := by decide
example : IsPath (aroundWalls (PosTy.pos 3 3) [(1, 1), (2, 2)]) true (0, 1) (swingWay (PosTy.pos 3 3) (0, 1) (3, 2)) (3, 2) := ⟨by unfold Allowed; decide +kernel, by decide +kernel⟩
example : swingWay (PosTy.pos 3 3) (0, 1) (3, 2) = [.SE, .SE, .NE] := by decide
example : Ucs.pathHash (PosTy.pos 3 3) true (unitCost (aroundWalls (PosTy.pos 3 3) [(1, 1), (2, 2)])) (0, 1) (3, 2) 300 = .ok (.ok [.SE, .SE, .NE]) := by decide +kernel
-- The three searches in the same grid, each with another path.
example : Ucs.pathHash (PosTy.pos 3 3) true (unitCost (aroundWalls (PosTy.pos 3 3) [])) (0, 1) (3, 1) 300 = .ok (.ok [.SE, .E, .NE]) ∧
    Bf.pathHash (PosTy.pos 3 3) true (aroundWalls (PosTy.pos 3 3) []) (0, 1) (fun p => p == (3, 1)) 17 = .ok (.ok ((3, 1), [.NE, .E, .SE])) ∧
    Astar.pathHash (PosTy.pos 3 3) true (aroundWalls (PosTy.pos 3 3) []) (0, 1) (3, 1) 700 = .ok (.ok [.E, .E, .E]) := by decide +kernel

end Sqrid
