import Verif.Props.BfFirst
import Verif.Props.StraightWay
/-!
# The way of the breadth-first search: C143

Without diagonals the breadth-first search goes first north, then east, then south, then west, whenever this way is free. So in a grid without walls it returns the same
path as A* and the uniform-cost search (C141), except to the north east.
-/

namespace Sqrid

-- Statements that do not mention a target are about a debug build for a 64-bit machine.
attribute [local instance] debug64

open Spec

/-- First north, then east, then south, then west. A negative number of steps counts as 0. -/
def sortedWay (orig dest : Int × Int) : List Dir :=
  List.replicate (orig.2 - dest.2).toNat Dir.N ++ List.replicate (dest.1 - orig.1).toNat Dir.E ++ List.replicate (dest.2 - orig.2).toNat Dir.S ++
    List.replicate (orig.1 - dest.1).toNat Dir.W

theorem sorted_length (orig dest : P2) : ((sortedWay orig dest).length : Int) = l1 orig dest := by
  simp only [sortedWay, l1, List.length_append, List.length_replicate]
  omega

theorem sorted_pairwise (orig dest : P2) : (sortedWay orig dest).Pairwise fun a b => (clockwise true).idxOf a ≤ (clockwise true).idxOf b := by
  have h : ∀ n d, (List.replicate n d).Pairwise fun a b => (clockwise true).idxOf a ≤ (clockwise true).idxOf b := fun n d =>
    List.pairwise_replicate.2 (.inr (Nat.le_refl _))
  simp only [sortedWay, List.pairwise_append, h, true_and, List.mem_append, List.mem_replicate]
  refine ⟨⟨?_, ?_⟩, ?_⟩
  · rintro a ⟨-, rfl⟩ b ⟨-, rfl⟩; decide
  · rintro a (⟨-, rfl⟩ | ⟨-, rfl⟩) b ⟨-, rfl⟩ <;> decide
  · rintro a ((⟨-, rfl⟩ | ⟨-, rfl⟩) | ⟨-, rfl⟩) b ⟨-, rfl⟩ <;> decide

theorem foldl_count (ds : List Dir) (h : ∀ d ∈ ds, Allowed false d) : ∀ p : P2,
    (ds.foldl neighbour p).1 = p.1 + ds.count .E - ds.count .W ∧ (ds.foldl neighbour p).2 = p.2 + ds.count .S - ds.count .N ∧
    ds.length = ds.count .N + ds.count .E + ds.count .S + ds.count .W ∧ ds.count .NE = 0 ∧ ds.count .SE = 0 ∧ ds.count .SW = 0 ∧ ds.count .NW = 0 := by
  induction ds with
  | nil => intro p; simp
  | cons d ds ih =>
    intro p
    have hd := h d (by simp)
    obtain ⟨a1, a2, a3, a4⟩ := ih (fun d hd => h d (by simp [hd])) (neighbour p d)
    simp only [List.foldl_cons, List.length_cons, List.count_cons, a1, a2]
    cases d <;> first | (exfalso; simp [Allowed, unit] at hd; done) | skip
    all_goals
      simp only [neighbour, unit, beq_self_eq_true, reduceIte, reduceCtorEq, beq_iff_eq]
      omega

/-- Two shortest paths without detour have the same steps, up to the order. -/
theorem perm_of_straight {T : PosTy} {go : GoFn} (hgo : Adjacent T go) {orig dest : P2} (ho : InGrid T orig) {ds ds' : List Dir} (h : IsPath go false orig ds dest)
    (h' : IsPath go false orig ds' dest) (hl : (ds.length : Int) = l1 orig dest) (hl' : (ds'.length : Int) = l1 orig dest) : ds.Perm ds' := by
  have e := follow_foldl hgo _ ho h.2
  have e' := follow_foldl hgo _ ho h'.2
  obtain ⟨a1, a2, a3, a4, a5, a6, a7⟩ := foldl_count ds h.1 orig
  obtain ⟨b1, b2, b3, b4, b5, b6, b7⟩ := foldl_count ds' h'.1 orig
  rw [← e] at a1 a2
  rw [← e'] at b1 b2
  rw [List.perm_iff_count]
  unfold l1 at hl hl'
  intro d
  cases d <;> omega

/-- What is sorted comes first. -/
theorem not_comesBefore {as bs : List Dir} (hp : as.Perm bs) (hs : bs.Pairwise fun a b => (clockwise true).idxOf a ≤ (clockwise true).idxOf b) : ¬ ComesBefore as bs := by
  rintro ⟨pre, a, as', b, bs', rfl, rfl, h⟩
  have h1 := (List.perm_append_left_iff pre).1 hp
  have h2 : a ∈ b :: bs' := h1.subset (by simp)
  have h3 := (List.pairwise_cons.1 (List.pairwise_append.1 hs).2.1).1
  rcases List.mem_cons.1 h2 with rfl | h2
  · omega
  · have := h3 a h2
    omega

/-! ## C143 -/

/-- C143. Without diagonals, if the way first north, then east, then south, then west is free, then the breadth-first search for a position returns it, or `Loop` if it has
more steps than the square of the number of columns. -/
theorem C143_bfs [Target] (T : PosTy) (hT : T.Searchable) (bfs) (hbfs : Bf.IsSearch T bfs) (go : Int × Int → Dir → Option (Int × Int)) (hgo : Adjacent T go)
    (orig dest : Int × Int) (ho : InGrid T orig) (hne : dest ≠ orig) (hway : IsPath go false orig (sortedWay orig dest) dest) (fuel : Nat)
    (hfuel : cols T * rows T < (fuel : Int)) :
    (l1 orig dest ≤ cols T * cols T → bfs false go orig (fun p => p == dest) fuel = .ok (.ok (dest, sortedWay orig dest))) ∧
    (cols T * cols T < l1 orig dest → bfs false go orig (fun p => p == dest) fuel = .ok (.error .loop)) := by
  have hl := sorted_length orig dest
  have hdist : IsDist go false orig dest (sortedWay orig dest).length := ⟨⟨_, hway, rfl⟩, fun ds hds => by
    have := l1_le_path hgo ho hds
    omega⟩
  obtain ⟨h1, h2⟩ := (C53_exact T hT bfs hbfs false go hgo orig ho (fun p => p == dest) fuel hfuel).2 dest _ (by simp) hne hdist (by
    intro q' m hq' _ hm
    simp only [beq_iff_eq] at hq'
    subst hq'
    exact Nat.le_of_eq (isDist_unique hdist hm))
  refine ⟨fun h => ?_, fun h => h2 (by omega)⟩
  obtain ⟨dest', path, h3⟩ := h1 (by omega)
  obtain ⟨h4, h5⟩ := C51_valid_path T hT bfs hbfs false go hgo orig ho _ fuel dest' path h3
  simp only [beq_iff_eq] at h4
  subst h4
  rcases C142_first T hT bfs hbfs false go hgo orig ho _ fuel dest' path h3 dest' (by simp) hne _ hway with h6 | ⟨h6, rfl | h7⟩
  · exact absurd (hdist.2 path h5) (by omega)
  · exact h3
  · exact absurd h7 (not_comesBefore (perm_of_straight hgo ho h5 hway (by omega) hl) (sorted_pairwise orig dest'))

/-- The way of the breadth-first search is the one of A* and the uniform-cost search, except to the north east. -/
theorem C143_same (orig dest : Int × Int) (h : dest.1 ≤ orig.1 ∨ orig.2 ≤ dest.2) : sortedWay orig dest = bendWay orig dest := by
  unfold sortedWay bendWay
  by_cases h1 : orig.1 ≤ dest.1 <;> by_cases h2 : orig.2 ≤ dest.2
  · simp only [if_pos h1, if_pos h2, show (orig.2 - dest.2).toNat = 0 by omega, show (orig.1 - dest.1).toNat = 0 by omega]
    simp
  · simp only [if_pos h1, if_neg h2, show (dest.1 - orig.1).toNat = 0 by omega, show (orig.1 - dest.1).toNat = 0 by omega, show (dest.2 - orig.2).toNat = 0 by omega]
    simp
  · simp only [if_neg h1, if_pos h2, show (orig.2 - dest.2).toNat = 0 by omega, show (dest.1 - orig.1).toNat = 0 by omega]
    simp
  · simp only [if_neg h1, if_neg h2, show (dest.1 - orig.1).toNat = 0 by omega, show (dest.2 - orig.2).toNat = 0 by omega]
    simp

/-- In a grid without walls, what is straight between two positions is free. -/
theorem replicate_free {T : PosTy} {D : Bool} (n : Nat) (d : Dir) (p : P2) (ha : Allowed D d) (hp : InGrid T p) (hq : InGrid T (p.1 + n * (unit d).1, p.2 + n * (unit d).2)) :
    IsPath (aroundWalls T []) D p (List.replicate n d) (p.1 + n * (unit d).1, p.2 + n * (unit d).2) := by
  induction n generalizing p with
  | zero => simpa using isPath_nil
  | succ n ih =>
    have hn : InGrid T (neighbour p d) := by
      unfold InGrid neighbour at *
      cases d <;> simp only [unit] at hq ⊢ <;> omega
    have e : ((neighbour p d).1 + n * (unit d).1, (neighbour p d).2 + n * (unit d).2) = (p.1 + (n + 1 : Nat) * (unit d).1, p.2 + (n + 1 : Nat) * (unit d).2) := by
      simp only [neighbour, Prod.mk.injEq]
      constructor <;> push_cast <;> ring
    have h3 := ih (neighbour p d) hn (by rw [e]; exact hq)
    rw [e] at h3
    rw [List.replicate_succ, ← List.singleton_append]
    exact isPath_append (isPath_single ha (by unfold aroundWalls; rw [if_pos ⟨hn, by simp⟩])) h3

/-- In a grid without walls the way is free. -/
theorem sorted_free (T : PosTy) (orig dest : Int × Int) (ho : InGrid T orig) (hd : InGrid T dest) : IsPath (aroundWalls T []) false orig (sortedWay orig dest) dest := by
  by_cases h : dest.1 ≤ orig.1 ∨ orig.2 ≤ dest.2
  · rw [C143_same _ _ h]
    exact bend_free T [] orig dest ho hd (fun _ _ _ => by simp)
  · have h1 := replicate_free (D := false) (orig.2 - dest.2).toNat .N orig (by simp [Allowed, unit]) ho (by
      unfold InGrid at *
      simp only [unit]
      omega)
    have h2 := replicate_free (D := false) (dest.1 - orig.1).toNat .E _ (by simp [Allowed, unit]) (isPath_inGrid (aroundWalls_adjacent T []).staysIn ho h1) (by
      unfold InGrid at *
      simp only [unit]
      omega)
    have h3 := isPath_append h1 h2
    unfold sortedWay
    rw [show (dest.2 - orig.2).toNat = 0 by omega, show (orig.1 - dest.1).toNat = 0 by omega]
    simp only [List.replicate_zero, List.append_nil]
    convert h3 using 1
    simp only [unit]
    exact Prod.ext (by simp only; omega) (by simp only; omega)

/-- C143. In a grid without walls this is the path from everywhere to everywhere else. -/
theorem C143_open [Target] (T : PosTy) (hT : T.Searchable) (bfs) (hbfs : Bf.IsSearch T bfs) (orig dest : Int × Int) (ho : InGrid T orig) (hd : InGrid T dest)
    (hne : dest ≠ orig) (hcols : l1 orig dest ≤ cols T * cols T) (fuel : Nat) (hfuel : cols T * rows T < (fuel : Int)) :
    bfs false (aroundWalls T []) orig (fun p => p == dest) fuel = .ok (.ok (dest, sortedWay orig dest)) :=
  (C143_bfs T hT bfs hbfs _ (aroundWalls_adjacent T []) orig dest ho hne (sorted_free T orig dest ho hd) fuel hfuel).1 hcols

-- To the north east, beside walls, and what A* returns in the same grid.
example : sortedWay (0, 2) (3, 0) = [.N, .N, .E, .E, .E] := by decide
example : IsPath (aroundWalls (PosTy.pos 3 3) [(2, 2), (1, 1), (0, 3)]) false (0, 2) (sortedWay (0, 2) (3, 0)) (3, 0) := ⟨by unfold Allowed; decide +kernel, by decide +kernel⟩
example : Bf.pathHash (PosTy.pos 3 3) false (aroundWalls (PosTy.pos 3 3) [(2, 2), (1, 1), (0, 3)]) (0, 2) (fun p => p == (3, 0)) 17 = .ok (.ok ((3, 0), [.N, .N, .E, .E, .E])) := by
  decide +kernel
example : Bf.pathHash (PosTy.pos 3 3) false (aroundWalls (PosTy.pos 3 3) []) (0, 2) (fun p => p == (3, 0)) 17 = .ok (.ok ((3, 0), [.N, .N, .E, .E, .E])) ∧
    Astar.pathHash (PosTy.pos 3 3) false (aroundWalls (PosTy.pos 3 3) []) (0, 2) (3, 0) 700 = .ok (.ok [.E, .E, .E, .N, .N]) := by decide +kernel

end Sqrid
