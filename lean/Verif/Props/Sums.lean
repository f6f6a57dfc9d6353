import Verif.Spec.Sums
import Verif.Props.Around
import Mathlib.Algebra.BigOperators.Group.List.Basic
import Mathlib.Tactic.Abel
import Mathlib.Data.BitVec
/-!
# Running sums over a grid: C164
-/

namespace Sqrid

-- Statements that do not mention a target are about a debug build for a 64-bit machine.
attribute [local instance] debug64

open Spec

theorem intsFromTo_empty {a x : Int} (h : x < a) : intsFromTo a x = [] := by
  unfold intsFromTo
  rw [show (x - a + 1).toNat = 0 by omega]
  rfl

theorem intsFromTo_split {m a x : Int} (h1 : m ≤ a) (h2 : a ≤ x + 1) : intsFromTo m x = intsFromTo m (a - 1) ++ intsFromTo a x := by
  unfold intsFromTo
  obtain ⟨i, hi⟩ := Int.le.dest h1
  obtain ⟨j, hj⟩ := Int.le.dest h2
  rw [show (x - m + 1).toNat = i + j by omega, show (a - 1 - m + 1).toNat = i by omega, show (x - a + 1).toNat = j by omega, List.range_add, List.map_append, List.map_map]
  congr 1
  refine List.map_congr_left fun k _ => ?_
  simp only [Function.comp]
  omega

theorem intsFromTo_sorted (a x : Int) : (intsFromTo a x).Pairwise (· < ·) := by
  unfold intsFromTo
  rw [List.pairwise_map]
  exact List.pairwise_lt_range.imp fun h => by omega

theorem intsFromTo_one (a : Int) : intsFromTo a a = [a] := by
  unfold intsFromTo
  rw [show (a - a + 1).toNat = 1 by omega]
  simp

section
variable {G : Type} [AddCommGroup G] (v : P2 → G)

def rowSum (a x y : Int) : G := ((intsFromTo a x).map fun i => v (i, y)).sum

theorem rectSum_eq (a b x y : Int) : rectSum v (a, b) (x, y) = ((intsFromTo b y).map fun j => rowSum v a x j).sum := by
  unfold rectSum rectRows rowSum
  generalize intsFromTo b y = l
  induction l with
  | nil => rfl
  | cons j l ih =>
    rw [List.flatMap_cons, List.map_append, List.sum_append, ih, List.map_cons, List.sum_cons, List.map_map]
    rfl

theorem rowSum_split {m a x : Int} (h1 : m ≤ a) (h2 : a ≤ x + 1) (y : Int) : rowSum v m x y = rowSum v m (a - 1) y + rowSum v a x y := by
  unfold rowSum
  rw [intsFromTo_split h1 h2, List.map_append, List.sum_append]

theorem rectSum_down {m b y : Int} (h1 : m ≤ b) (h2 : b ≤ y + 1) (a x : Int) : rectSum v (a, m) (x, y) = rectSum v (a, m) (x, b - 1) + rectSum v (a, b) (x, y) := by
  rw [rectSum_eq, rectSum_eq, rectSum_eq, intsFromTo_split h1 h2, List.map_append, List.sum_append]

theorem rectSum_across {m a x : Int} (h1 : m ≤ a) (h2 : a ≤ x + 1) (b y : Int) : rectSum v (m, b) (x, y) = rectSum v (m, b) (a - 1, y) + rectSum v (a, b) (x, y) := by
  rw [rectSum_eq, rectSum_eq, rectSum_eq]
  generalize intsFromTo b y = l
  induction l with
  | nil => simp
  | cons j l ih =>
    simp only [List.map_cons, List.sum_cons]
    rw [ih, rowSum_split v h1 h2]
    abel

/-- The rectangle as the difference of four that begin in the corner. -/
theorem rectSum_four {m k a b x y : Int} (h1 : m ≤ a) (h2 : a ≤ x + 1) (h3 : k ≤ b) (h4 : b ≤ y + 1) :
    rectSum v (a, b) (x, y) = rectSum v (m, k) (x, y) - rectSum v (m, k) (a - 1, y) - rectSum v (m, k) (x, b - 1) + rectSum v (m, k) (a - 1, b - 1) := by
  have e1 := rectSum_across v h1 h2 k y
  have e2 := rectSum_across v h1 h2 k (b - 1)
  have e3 := rectSum_down v h3 h4 a x
  rw [e1, e2, e3]
  abel

theorem rectSum_one (x y : Int) : rectSum v (x, y) (x, y) = v (x, y) := by
  rw [rectSum_eq, intsFromTo_one]
  simp [rowSum, intsFromTo_one]

theorem rectSum_empty {a b x y : Int} (h : x < a ∨ y < b) : rectSum v (a, b) (x, y) = 0 := by
  rw [rectSum_eq]
  rcases h with h | h
  · simp [rowSum, intsFromTo_empty h]
  · simp [intsFromTo_empty h]

end

/-- Whatever comes after `p` is not to the left of it and above it. -/
theorem allPositions_after (T : PosTy) (XF : Bool) : (allPositions T XF).Pairwise fun p q => ¬ (q.1 ≤ p.1 ∧ q.2 ≤ p.2) := by
  cases XF
  · simp only [allPositions, rectCols, Bool.false_eq_true, if_false, List.pairwise_flatMap, List.pairwise_map]
    refine ⟨fun x _ => (intsFromTo_sorted _ _).imp fun h => by omega, (intsFromTo_sorted _ _).imp fun h => ?_⟩
    intro p hp q hq
    simp only [List.mem_map] at hp hq
    obtain ⟨-, -, rfl⟩ := hp
    obtain ⟨-, -, rfl⟩ := hq
    simp only
    omega
  · simp only [allPositions, rectRows, if_true, List.pairwise_flatMap, List.pairwise_map]
    refine ⟨fun x _ => (intsFromTo_sorted _ _).imp fun h => by omega, (intsFromTo_sorted _ _).imp fun h => ?_⟩
    intro p hp q hq
    simp only [List.mem_map] at hp hq
    obtain ⟨-, -, rfl⟩ := hp
    obtain ⟨-, -, rfl⟩ := hq
    simp only
    omega

section
variable {G : Type} [AddCommGroup G]

theorem lookBeside_eq {T : PosTy} (hT : T.WF) {C : MapImpl G} {R} (hR : C.Sim T 0 R) {s : C.σ} {f : P2 → G} (h : R s f) {p : P2} (hp : InGrid T p) (d : Dir) (v : P2 → G)
    (hd : (unit d).1 ≤ 0 ∧ (unit d).2 ≤ 0)
    (hf : InGrid T (neighbour p d) → f (neighbour p d) = rectSum v (T.X.MIN, T.Y.MIN) (neighbour p d)) :
    lookBeside T C s p d = .ok (rectSum v (T.X.MIN, T.Y.MIN) (neighbour p d)) := by
  unfold lookBeside
  cases hq : T.addDirOk p d with
  | some q =>
    obtain ⟨h1, rfl⟩ := (addDirOk_iff hT hp d q).1 hq
    simp only
    rw [hR.get h h1, hf h1]
  | none =>
    have h1 : ¬ InGrid T (neighbour p d) := fun h1 => by
      rw [(addDirOk_iff hT hp d _).2 ⟨h1, rfl⟩] at hq
      cases hq
    simp only
    have h2 : (neighbour p d).1 < T.X.MIN ∨ (neighbour p d).2 < T.Y.MIN := by
      obtain ⟨⟨a1, a2⟩, a3, a4⟩ := hp
      by_contra hc
      apply h1
      unfold neighbour at hc ⊢
      simp only at hc
      refine ⟨⟨?_, ?_⟩, ?_, ?_⟩ <;> simp only <;> omega
    rw [← Prod.mk.eta (p := neighbour p d), rectSum_empty v h2]

theorem runningSums_spec {T : PosTy} (hT : T.WF) {C : MapImpl G} {R} (hR : C.Sim T 0 R) (XF : Bool) (v : P2 → G) :
    ∃ s f, runningSums T C XF v = .ok s ∧ R s f ∧ ∀ q, InGrid T q → f q = rectSum v (T.X.MIN, T.Y.MIN) q := by
  rw [runningSums, PosTy.toList_eq hT, Out.ok_bind]
  suffices key : ∀ rest pre, allPositions T XF = pre ++ rest → ∀ s f, R s f → (∀ q ∈ pre, f q = rectSum v (T.X.MIN, T.Y.MIN) q) →
      ∃ s' f', rest.foldlM (fun s p => do
        let w ← lookBeside T C s p .W
        let n ← lookBeside T C s p .N
        let nw ← lookBeside T C s p .NW
        C.set s p (v p + w + n - nw)) s = .ok s' ∧ R s' f' ∧ ∀ q, InGrid T q → f' q = rectSum v (T.X.MIN, T.Y.MIN) q by
    exact key (allPositions T XF) [] rfl _ _ (hR.new 0) (by simp)
  intro rest
  induction rest with
  | nil =>
    intro pre hpre s f h1 h2
    exact ⟨s, f, rfl, h1, fun q hq => h2 q (by rw [List.append_nil] at hpre; rw [← hpre]; exact PosTy.mem_allPositions.2 hq)⟩
  | cons p rest ih =>
    intro pre hpre s f h1 h2
    have hp : InGrid T p := PosTy.mem_allPositions.1 (by rw [hpre]; simp : p ∈ allPositions T XF)
    have hbefore : ∀ q, InGrid T q → q.1 ≤ p.1 → q.2 ≤ p.2 → q ≠ p → f q = rectSum v (T.X.MIN, T.Y.MIN) q := fun q hq a b c => by
      refine h2 q ?_
      have h3 := PosTy.mem_allPositions (XF := XF) |>.2 hq
      have h4 := allPositions_after T XF
      rw [hpre] at h3 h4
      rcases List.mem_append.1 h3 with h3 | h3
      · exact h3
      · rcases List.mem_cons.1 h3 with h3 | h3
        · exact absurd h3 c
        · exact absurd ⟨a, b⟩ ((List.pairwise_cons.1 (List.pairwise_append.1 h4).2.1).1 q h3)
    have hw := lookBeside_eq hT hR h1 hp .W v (by decide) fun hq => hbefore _ hq (by simp [neighbour, unit]) (by simp [neighbour, unit]) fun h => by
      have := congrArg Prod.fst h; simp [neighbour, unit] at this
    have hn := lookBeside_eq hT hR h1 hp .N v (by decide) fun hq => hbefore _ hq (by simp [neighbour, unit]) (by simp [neighbour, unit]) fun h => by
      have := congrArg Prod.snd h; simp [neighbour, unit] at this
    have hnw := lookBeside_eq hT hR h1 hp .NW v (by decide) fun hq => hbefore _ hq (by simp [neighbour, unit]) (by simp [neighbour, unit]) fun h => by
      have := congrArg Prod.snd h; simp [neighbour, unit] at this
    have hval : v p + rectSum v (T.X.MIN, T.Y.MIN) (neighbour p .W) + rectSum v (T.X.MIN, T.Y.MIN) (neighbour p .N) - rectSum v (T.X.MIN, T.Y.MIN) (neighbour p .NW) =
        rectSum v (T.X.MIN, T.Y.MIN) p := by
      obtain ⟨x, y⟩ := p
      have e := rectSum_four v (m := T.X.MIN) (k := T.Y.MIN) (a := x) (b := y) (x := x) (y := y) hp.1.1 (by omega) hp.2.1 (by omega)
      rw [rectSum_one] at e
      rw [e]
      simp only [neighbour, unit, Int.add_zero, ← Int.sub_eq_add_neg]
      abel
    obtain ⟨s', h3, h4⟩ := hR.set (rectSum v (T.X.MIN, T.Y.MIN) p) h1 hp
    obtain ⟨s2, f2, h5, h6⟩ := ih (pre ++ [p]) (by rw [hpre]; simp) s' _ h4 fun q hq => by
      unfold upd
      split
      · rename_i h; rw [h]
      · rename_i h
        rcases List.mem_append.1 hq with hq | hq
        · exact h2 q hq
        · exact absurd (List.mem_singleton.1 hq) h
    refine ⟨s2, f2, ?_, h6⟩
    rw [List.foldlM_cons, hw, Out.ok_bind, hn, Out.ok_bind, hnw, Out.ok_bind, hval, h3, Out.ok_bind]
    exact h5

/-- C164. After one pass over the grid, in either order, the map has at each position the sum over everything to the left of it and above it, and the sum over every rectangle
is had from at most four positions of the map. Whatever the type of the numbers and the kind of the map. -/
theorem C164_sums [Target] (T : PosTy) (hT : T.IsGrid) (C : MapImpl G) (hC : C.Is T 0) (XFIRST : Bool) (value : Int × Int → G) :
    ∃ s, runningSums T C XFIRST value = .ok s ∧ (∀ p, InGrid T p → C.get s p = .ok (rectSum value (T.X.MIN, T.Y.MIN) p)) ∧
      ∀ tl br, InGrid T tl → InGrid T br → tl.1 ≤ br.1 → tl.2 ≤ br.2 → boxSum T C s tl br = .ok (rectSum value tl br) := by
  obtain ⟨R, hR⟩ := MapImpl.sim_of_is hT hC
  obtain ⟨s, f, h1, h2, h3⟩ := runningSums_spec hT.wf hR XFIRST value
  refine ⟨s, h1, fun p hp => by rw [hR.get h2 hp, h3 p hp], ?_⟩
  rintro ⟨a, b⟩ ⟨x, y⟩ htl hbr hx hy
  have i1 : InGrid T (a, y) := ⟨htl.1, hbr.2⟩
  have i2 : InGrid T (x, b) := ⟨hbr.1, htl.2⟩
  have e := rectSum_four value (m := T.X.MIN) (k := T.Y.MIN) (a := a) (b := b) (x := x) (y := y) htl.1.1 (by simp only at hx; omega) htl.2.1 (by simp only at hy; omega)
  rw [boxSum, hR.get h2 hbr, h3 _ hbr, Out.ok_bind, lookBeside_eq hT.wf hR h2 i1 .W value (by decide) (h3 _), Out.ok_bind,
    lookBeside_eq hT.wf hR h2 i2 .N value (by decide) (h3 _), Out.ok_bind, lookBeside_eq hT.wf hR h2 htl .NW value (by decide) (h3 _), Out.ok_bind, e]
  simp only [neighbour, unit, Int.add_zero, ← Int.sub_eq_add_neg]

end

-- The numbers 1 to 9: the sums, and the four at the bottom right.
example : (runningSums (PosTy.pos 2 2) (.hash (0 : Int)) true (fun p => 3 * p.2 + p.1 + 1) >>= fun s => [(0, 0), (2, 0), (0, 2), (1, 1), (2, 2)].mapM fun p => (MapImpl.hash 0).get s p) =
    .ok [1, 6, 12, 12, 45] := by decide +kernel
example : (runningSums (PosTy.pos 2 2) (.grid (PosTy.pos 2 2) 9 (0 : Int)) false (fun p => 3 * p.2 + p.1 + 1) >>= fun s =>
    boxSum (PosTy.pos 2 2) (.grid (PosTy.pos 2 2) 9 0) s (1, 1) (2, 2)) = .ok 28 := by decide +kernel
example : rectSum (fun p => 3 * p.2 + p.1 + 1) (1, 1) (2, 2) = (28 : Int) := by decide +kernel
-- With integers of eight bits that wrap around: the running sum at the end is 450 - 256, and the sum over the middle is right.
example : (runningSums (PosTy.pos 2 2) (.btree (0 : BitVec 8)) true (fun p => BitVec.ofInt 8 (10 * (3 * p.2 + p.1 + 1))) >>= fun s => do
    let a ← (MapImpl.btree (0 : BitVec 8)).get s (2, 2)
    let b ← boxSum (PosTy.pos 2 2) (.btree 0) s (1, 1) (1, 2)
    .ok (a, b)) = .ok (194#8, 130#8) := by decide +kernel

end Sqrid
