import Verif.Proofs.BfSearch
import Verif.Props.SetMap
import Verif.Proofs.Fuel
/-!
# Properties of the breadth-first traversal and search: C49 – C54

`fuel` bounds the number of calls to `next` in the model; every bound above the number of positions is enough. `StaysIn T go` only says that `go` returns
positions of the grid type, which Rust's types guarantee.
-/

namespace Sqrid

-- Statements that do not mention a target are about a debug build for a 64-bit machine.
attribute [local instance] debug64

open Spec

/-- Movement around walls is a movement between neighbours. -/
theorem aroundWalls_adjacent (T : PosTy) (walls : List (Int × Int)) : Adjacent T (aroundWalls T walls) := by
  intro p d q _ h
  unfold aroundWalls at h
  split at h
  · injection h with h
    subst h
    rename_i h'
    exact ⟨h'.1, rfl⟩
  · cases h

namespace Bf

/-- The ways to make the traversal: `bf_iter_grid` (also `bf_iter`), `bf_iter_hash` and `bf_iter_btree`. -/
def IsIter [Target] (T : PosTy) (iter : Bool → (Int × Int → Dir → Option (Int × Int)) → Int × Int → Nat → Out (List (List ((Int × Int) × Dir)))) : Prop :=
  (∃ WORDS : Nat, cols T * rows T ≤ 32 * (WORDS : Int) ∧ iter = iterGrid T WORDS) ∨ iter = iterHash ∨ iter = iterBtree

/-- The ways to make the search: `bfs_path_grid` (also `bfs_path`), `bfs_path_hash` and `bfs_path_btree`. -/
def IsSearch [Target] (T : PosTy)
    (bfs : Bool → (Int × Int → Dir → Option (Int × Int)) → Int × Int → (Int × Int → Bool) → Nat → Out (Res ((Int × Int) × List Dir))) : Prop :=
  (∃ WORDS SIZE : Nat, cols T * rows T ≤ 32 * (WORDS : Int) ∧ cols T * rows T ≤ (SIZE : Int) ∧ bfs = pathGrid T WORDS SIZE) ∨
  bfs = pathHash T ∨ bfs = pathBtree T

theorem IsIter.eq [Target] {T : PosTy} (hT : T.IsGrid) {iter} (h : IsIter T iter) {D : Bool} {go : GoFn} (hgo : StaysIn T go) {orig : P2}
    (ho : InGrid T orig) (fuel : Nat) : iter D go orig fuel = iterAll SetImpl.ideal D go orig fuel := by
  rcases h with ⟨W, hW, rfl⟩ | rfl | rfl
  · exact iterAll_ideal (SetImpl.gridbool_sim hT ((Gridbool.words_iff hT _).1 hW)) hgo D ho fuel
  · exact iterAll_ideal (SetImpl.hash_sim T) hgo D ho fuel
  · exact iterAll_ideal (SetImpl.btree_sim T) hgo D ho fuel

theorem IsSearch.eq [Target] {T : PosTy} (hT : T.Searchable) {bfs} (h : IsSearch T bfs) {D : Bool} {go : GoFn} (hgo : StaysIn T go) {orig : P2}
    (ho : InGrid T orig) (found : P2 → Bool) (fuel : Nat) :
    bfs D go orig found fuel = searchPath T SetImpl.ideal (MapImpl.ideal none) D go orig found fuel := by
  rcases h with ⟨W, n, hW, hn, rfl⟩ | rfl | rfl
  · have := hT.cells_eq
    exact searchPath_ideal hT.wf (SetImpl.gridbool_sim hT.toIsGrid ((Gridbool.words_iff hT.toIsGrid _).1 hW))
      (MapImpl.grid_sim hT.toIsGrid (by omega) none) hgo D ho found fuel
  · exact searchPath_ideal hT.wf (SetImpl.hash_sim T) (MapImpl.hash_sim T none) hgo D ho found fuel
  · exact searchPath_ideal hT.wf (SetImpl.btree_sim T) (MapImpl.btree_sim T none) hgo D ho found fuel

/-- A search that ends within a number of steps ends in the same way within any larger number of them. -/
theorem IsSearch.more [Target] {T : PosTy} {bfs} (h : IsSearch T bfs) {D : Bool} {go : GoFn} {orig : P2} {found : P2 → Bool} {fuel : Nat}
    {r : Res (P2 × List Dir)} (N : Int) (hr : bfs D go orig found fuel = .ok r) : ∃ fuel' : Nat, N < (fuel' : Int) ∧ bfs D go orig found fuel' = .ok r := by
  refine ⟨fuel + N.toNat + 1, by omega, ?_⟩
  rcases h with ⟨W, n, hW, hn, rfl⟩ | rfl | rfl <;> exact (searchPath_below T _ _ D go orig found (by omega)).ok hr

end Bf

/-! ## C49 -/

/-- C49, the full claim. -/
def C49_claim [Target] (T : PosTy) : Prop :=
  ∀ iter, Bf.IsIter T iter → ∀ (D : Bool) (go : Int × Int → Dir → Option (Int × Int)), StaysIn T go → ∀ orig, InGrid T orig → ∀ fuel : Nat,
    cols T * rows T < (fuel : Int) → ∃ ls, iter D go orig fuel = .ok ls ∧
      (∀ k layer, ls[k]? = some layer →
        (∀ q, (∃ d, (q, d) ∈ layer) ↔ IsDist go D orig q (k + 1)) ∧ (layer.map Prod.fst).Nodup ∧
        ∀ q d, (q, d) ∈ layer → Allowed D d ∧ ∃ p, IsDist go D orig p k ∧ go p (opposite d) = some q) ∧
      (∀ k q, ls.length ≤ k → ¬ IsDist go D orig q (k + 1))

/-- C49. The items, exactly, for every movement function: the layer `k` has the positions at distance `k + 1`, and the first one also has the origin if a
step leads from the origin to itself. -/
theorem C49_layers_exact [Target] (T : PosTy) (hT : T.IsGrid) (iter) (hiter : Bf.IsIter T iter) (D : Bool) (go : Int × Int → Dir → Option (Int × Int))
    (hgo : StaysIn T go) (orig : Int × Int) (ho : InGrid T orig) (fuel : Nat) (hfuel : cols T * rows T < (fuel : Int)) :
    ∃ ls, iter D go orig fuel = .ok ls ∧
      (∀ k layer, ls[k]? = some layer → layer ≠ [] ∧
        (∀ q, (∃ d, (q, d) ∈ layer) ↔
          IsDist go D orig q (k + 1) ∨ (k = 0 ∧ q = orig ∧ ∃ d, Allowed D d ∧ go orig d = some orig)) ∧
        (layer.map Prod.fst).Nodup ∧
        ∀ q d, (q, d) ∈ layer → Allowed D d ∧ ∃ p, IsDist go D orig p k ∧ go p (opposite d) = some q) ∧
      (∀ k q, ls.length ≤ k → ¬ IsDist go D orig q (k + 1)) := by
  obtain ⟨ls, h1, h2, h3, h4⟩ := Bf.iterAll_layers D hgo ho fuel (by have := hT.cells_eq; omega)
  rw [hiter.eq hT hgo ho fuel]
  refine ⟨ls, h1, fun k l hl => ?_, fun k q hk hq => h3 k q hk (.inl hq)⟩
  obtain ⟨a, b⟩ := h2 k l hl
  exact ⟨a, b.mem, b.nodup, b.back⟩

/-- C49, when no step leads from the origin to itself. What is missing: movement functions with such a step, for which the claim is false (`C49_refuted`);
`C49_layers_exact` covers them. -/
theorem C49_layers_partial [Target] (T : PosTy) (hT : T.IsGrid) (iter) (hiter : Bf.IsIter T iter) (D : Bool) (go : Int × Int → Dir → Option (Int × Int))
    (hgo : StaysIn T go) (orig : Int × Int) (ho : InGrid T orig) (hself : ∀ d, go orig d ≠ some orig) (fuel : Nat)
    (hfuel : cols T * rows T < (fuel : Int)) :
    ∃ ls, iter D go orig fuel = .ok ls ∧
      (∀ k layer, ls[k]? = some layer →
        (∀ q, (∃ d, (q, d) ∈ layer) ↔ IsDist go D orig q (k + 1)) ∧ (layer.map Prod.fst).Nodup ∧
        ∀ q d, (q, d) ∈ layer → Allowed D d ∧ ∃ p, IsDist go D orig p k ∧ go p (opposite d) = some q) ∧
      (∀ k q, ls.length ≤ k → ¬ IsDist go D orig q (k + 1)) := by
  obtain ⟨ls, h1, h2, h3⟩ := C49_layers_exact T hT iter hiter D go hgo orig ho fuel hfuel
  refine ⟨ls, h1, fun k l hl => ?_, h3⟩
  obtain ⟨-, b, c, d⟩ := h2 k l hl
  refine ⟨fun q => ?_, c, d⟩
  rw [b q]
  constructor
  · rintro (h | ⟨-, -, d, -, h⟩)
    · exact h
    · exact absurd h (hself d)
  · exact .inl

/-- C49 is false when a step leads from the origin to itself: the first layer has the origin, which is at distance 0. -/
theorem C49_refuted [Target] : ¬ C49_claim (PosTy.pos 1 1) := by
  intro h
  obtain ⟨ls, h1, h2, -⟩ := h Bf.iterHash (.inr (.inl rfl)) false (fun p _ => some p) (by intro p d q hp h; injection h with h; exact h ▸ hp)
    (0, 0) (by decide_target) 5 (by decide_target)
  have e : Bf.iterHash false (fun p _ => some p) (0, 0) 5 = .ok [[((0, 0), Dir.S)]] := by decide_target
  rw [e] at h1
  injection h1 with h1
  subst h1
  have h3 := ((h2 0 _ rfl).1 (0, 0)).1 ⟨Dir.S, by simp⟩
  have := isDist_unique h3 (isDist_zero.2 rfl)
  omega

example : Bf.IsIter (PosTy.pos 3 3) (Bf.iterGrid (PosTy.pos 3 3) 1) := .inl ⟨1, by decide, rfl⟩
example : StaysIn (PosTy.pos 2 1) (aroundWalls (PosTy.pos 2 1) [(1, 0)]) := (aroundWalls_adjacent _ _).staysIn
example : ∀ d, aroundWalls (PosTy.pos 2 1) [(1, 0)] (0, 0) d ≠ some (0, 0) := by intro d; cases d <;> decide
example : Bf.iterBtree false (aroundWalls (PosTy.pos 2 1) [(1, 0)]) (0, 0) 7 =
    .ok [[((0, 1), .N)], [((1, 1), .W)], [((2, 1), .W)], [((2, 0), .S)]] := by decide

/-! ## C50 -/

/-- C50, the full claim. -/
def C50_claim [Target] (T : PosTy) : Prop :=
  ∀ iter, Bf.IsIter T iter → ∀ (D : Bool) (go : Int × Int → Dir → Option (Int × Int)), StaysIn T go → ∀ orig, InGrid T orig → ∀ fuel : Nat,
    cols T * rows T < (fuel : Int) → ∃ ls, iter D go orig fuel = .ok ls ∧
      (∀ q, (∃ d, (q, d) ∈ ls.flatten) ↔ Reachable go D orig q ∧ q ≠ orig) ∧ (ls.flatten.map Prod.fst).Nodup ∧
      ls.flatten.Pairwise fun a b => ∀ m n, IsDist go D orig a.1 m → IsDist go D orig b.1 n → m ≤ n

theorem layers_flatten {go : GoFn} {D : Bool} {orig : P2} {ls : List (List (P2 × Dir))}
    (h : ∀ k layer, ls[k]? = some layer → (∀ q, (∃ d, (q, d) ∈ layer) ↔ InLayer go D orig k q) ∧ (layer.map Prod.fst).Nodup)
    (h' : ∀ k q, ls.length ≤ k → ¬ InLayer go D orig k q) :
    (∀ q, (∃ d, (q, d) ∈ ls.flatten) ↔ ∃ k, InLayer go D orig k q) ∧ (ls.flatten.map Prod.fst).Nodup ∧
      (¬ Edge go D orig orig → ls.flatten.Pairwise fun a b => ∀ m n, IsDist go D orig a.1 m → IsDist go D orig b.1 n → m ≤ n) := by
  have hidx : ∀ (i : Nat) (hi : i < ls.length) (m : P2 × Dir), m ∈ ls[i] → InLayer go D orig i m.1 := fun i hi m hm =>
    ((h i _ (List.getElem?_eq_getElem hi)).1 m.1).1 ⟨m.2, hm⟩
  have huniq : ∀ {i j : Nat} {q : P2}, InLayer go D orig i q → InLayer go D orig j q → i = j := by
    intro i j q hi hj
    rcases hi with hi | ⟨rfl, rfl, -⟩ <;> rcases hj with hj | ⟨rfl, h4, -⟩
    · have := isDist_unique hi hj; omega
    · subst h4; have := isDist_unique hi (isDist_zero.2 rfl); omega
    · have := isDist_unique hj (isDist_zero.2 rfl); omega
    · rfl
  refine ⟨fun q => ?_, ?_, ?_⟩
  · constructor
    · rintro ⟨d, hd⟩
      obtain ⟨l, hl, hd⟩ := List.mem_flatten.1 hd
      obtain ⟨i, hi, rfl⟩ := List.mem_iff_getElem.1 hl
      exact ⟨i, hidx i hi _ hd⟩
    · rintro ⟨k, hk⟩
      have hlt : k < ls.length := by
        by_contra hge
        exact h' k q (by omega) hk
      obtain ⟨d, hd⟩ := ((h k _ (List.getElem?_eq_getElem hlt)).1 q).2 hk
      exact ⟨d, List.mem_flatten.2 ⟨_, List.getElem_mem hlt, hd⟩⟩
  · rw [List.map_flatten, List.nodup_flatten]
    refine ⟨fun l hl => ?_, ?_⟩
    · obtain ⟨l', hl', rfl⟩ := List.mem_map.1 hl
      obtain ⟨i, hi, rfl⟩ := List.mem_iff_getElem.1 hl'
      exact (h i _ (List.getElem?_eq_getElem hi)).2
    · rw [List.pairwise_map, List.pairwise_iff_getElem]
      intro i j hi hj hij q hq hq'
      obtain ⟨m, hm, rfl⟩ := List.mem_map.1 hq
      obtain ⟨m', hm', e⟩ := List.mem_map.1 hq'
      have h1 := hidx i hi m hm
      have h2 := hidx j hj m' hm'
      rw [e] at h2
      have := huniq h1 h2
      omega
  · intro hself
    rw [List.pairwise_flatten]
    refine ⟨fun l hl => ?_, ?_⟩
    · obtain ⟨i, hi, rfl⟩ := List.mem_iff_getElem.1 hl
      rw [List.pairwise_iff_getElem]
      intro a b ha hb hab m n hm hn
      have h1 := hidx i hi _ (List.getElem_mem ha)
      have h2 := hidx i hi _ (List.getElem_mem hb)
      rcases h1 with h1 | ⟨-, h1, -⟩
      · have := isDist_unique hm h1
        rcases h2 with h2 | ⟨h0, h2, h3⟩
        · have := isDist_unique hn h2; omega
        · exact absurd h3 hself
      · rw [h1] at hm
        have := isDist_unique hm (isDist_zero.2 rfl)
        omega
    · rw [List.pairwise_iff_getElem]
      intro i j hi hj hij a ha b hb m n hm hn
      have h1 := hidx i hi a ha
      have h2 := hidx j hj b hb
      have hm' : m ≤ i + 1 := by
        rcases h1 with h1 | ⟨-, h1, -⟩
        · exact Nat.le_of_eq (isDist_unique hm h1)
        · rw [h1] at hm
          have := isDist_unique hm (isDist_zero.2 rfl)
          omega
      rcases h2 with h2 | ⟨h2, -⟩
      · have := isDist_unique hn h2
        omega
      · omega

theorem inLayer_exists {go : GoFn} {D : Bool} {orig q : P2} :
    (∃ k, InLayer go D orig k q) ↔ (Reachable go D orig q ∧ q ≠ orig) ∨ (q = orig ∧ Edge go D orig orig) := by
  constructor
  · rintro ⟨k, h | ⟨-, rfl, h⟩⟩
    · refine .inl ⟨reachable_iff_isDist.2 ⟨_, h⟩, ?_⟩
      rintro rfl
      have := isDist_unique h (isDist_zero.2 rfl)
      omega
    · exact .inr ⟨rfl, h⟩
  · rintro (⟨h, hne⟩ | ⟨rfl, h⟩)
    · obtain ⟨n, hn⟩ := reachable_iff_isDist.1 h
      cases n with
      | zero => exact absurd (isDist_zero.1 hn) hne
      | succ k => exact ⟨k, .inl hn⟩
    · exact ⟨0, .inr ⟨rfl, rfl, h⟩⟩

/-- C50. The traversal ends, and yields each reachable position other than the origin once; the origin is yielded, also once, exactly if a step leads from it to
itself. -/
theorem C50_visits_exact [Target] (T : PosTy) (hT : T.IsGrid) (iter) (hiter : Bf.IsIter T iter) (D : Bool) (go : Int × Int → Dir → Option (Int × Int))
    (hgo : StaysIn T go) (orig : Int × Int) (ho : InGrid T orig) (fuel : Nat) (hfuel : cols T * rows T < (fuel : Int)) :
    ∃ ls, iter D go orig fuel = .ok ls ∧
      (∀ q, (∃ d, (q, d) ∈ ls.flatten) ↔
        (Reachable go D orig q ∧ q ≠ orig) ∨ (q = orig ∧ ∃ d, Allowed D d ∧ go orig d = some orig)) ∧
      (ls.flatten.map Prod.fst).Nodup := by
  obtain ⟨ls, h1, h2, h3, -⟩ := Bf.iterAll_layers D hgo ho fuel (by have := hT.cells_eq; omega)
  rw [hiter.eq hT hgo ho fuel]
  obtain ⟨a, b, -⟩ := layers_flatten (fun k l hl => ⟨(h2 k l hl).2.mem, (h2 k l hl).2.nodup⟩) h3
  exact ⟨ls, h1, fun q => by rw [a q, inLayer_exists]; rfl, b⟩

/-- C50, when no step leads from the origin to itself. What is missing: movement functions with such a step, for which the claim is false (`C50_refuted`);
`C50_visits_exact` covers them. -/
theorem C50_visits_partial [Target] (T : PosTy) (hT : T.IsGrid) (iter) (hiter : Bf.IsIter T iter) (D : Bool) (go : Int × Int → Dir → Option (Int × Int))
    (hgo : StaysIn T go) (orig : Int × Int) (ho : InGrid T orig) (hself : ∀ d, go orig d ≠ some orig) (fuel : Nat)
    (hfuel : cols T * rows T < (fuel : Int)) :
    ∃ ls, iter D go orig fuel = .ok ls ∧
      (∀ q, (∃ d, (q, d) ∈ ls.flatten) ↔ Reachable go D orig q ∧ q ≠ orig) ∧ (ls.flatten.map Prod.fst).Nodup ∧
      ls.flatten.Pairwise fun a b => ∀ m n, IsDist go D orig a.1 m → IsDist go D orig b.1 n → m ≤ n := by
  obtain ⟨ls, h1, h2, h3, -⟩ := Bf.iterAll_layers D hgo ho fuel (by have := hT.cells_eq; omega)
  rw [hiter.eq hT hgo ho fuel]
  obtain ⟨a, b, c⟩ := layers_flatten (fun k l hl => ⟨(h2 k l hl).2.mem, (h2 k l hl).2.nodup⟩) h3
  have hns : ¬ Edge go D orig orig := by rintro ⟨d, -, h⟩; exact hself d h
  refine ⟨ls, h1, fun q => ?_, b, c hns⟩
  rw [a q, inLayer_exists]
  constructor
  · rintro (h | ⟨-, h⟩)
    · exact h
    · exact absurd h hns
  · exact .inl

/-- C50 is false when a step leads from the origin to itself: the origin is yielded. -/
theorem C50_refuted [Target] : ¬ C50_claim (PosTy.pos 1 1) := by
  intro h
  obtain ⟨ls, h1, h2, -⟩ := h Bf.iterHash (.inr (.inl rfl)) false (fun p _ => some p) (by intro p d q hp h; injection h with h; exact h ▸ hp)
    (0, 0) (by decide_target) 5 (by decide_target)
  have e : Bf.iterHash false (fun p _ => some p) (0, 0) 5 = .ok [[((0, 0), Dir.S)]] := by decide_target
  rw [e] at h1
  injection h1 with h1
  subst h1
  exact ((h2 (0, 0)).1 ⟨Dir.S, by simp⟩).2 rfl

example : Reachable (aroundWalls (PosTy.pos 2 1) [(1, 0)]) false (0, 0) (2, 0) :=
  ⟨[.S, .E, .E, .N], by intro d hd; revert d; simp [Allowed, unit], by decide⟩

/-! ## C51 -/

/-- C51. The destination satisfies `found` and following the path leads to it. -/
theorem C51_valid_path [Target] (T : PosTy) (hT : T.Searchable) (bfs) (hbfs : Bf.IsSearch T bfs) (D : Bool) (go : Int × Int → Dir → Option (Int × Int))
    (hgo : Adjacent T go) (orig : Int × Int) (ho : InGrid T orig) (found : Int × Int → Bool) (fuel : Nat) (dest : Int × Int) (path : List Dir) (h : bfs D go orig found fuel = .ok (.ok (dest, path))) :
    found dest = true ∧ IsPath go D orig path dest := by
  obtain ⟨fuel, hfuel, h⟩ := hbfs.more (cols T * rows T) h
  rw [hbfs.eq hT hgo.staysIn ho] at h
  rcases Bf.searchPath_spec hT D found hgo ho fuel (by have := hT.cells_eq; omega) with
    ⟨-, h2⟩ | ⟨dest', n, h1, h2, h3, ⟨-, path', h4, h5, h6⟩ | ⟨-, h6⟩⟩
  · rw [h2] at h; cases h
  · rw [h6] at h
    injection h with h
    injection h with h
    injection h with e1 e2
    subst e1 e2
    exact ⟨h1, h4⟩
  · rw [h6] at h; cases h

/-- C51. The movements of the path are those of `Pos + Dir`. -/
theorem C51_walks [Target] (T : PosTy) (hT : T.Searchable) (bfs) (hbfs : Bf.IsSearch T bfs) (D : Bool) (go : Int × Int → Dir → Option (Int × Int))
    (hgo : Adjacent T go) (orig : Int × Int) (ho : InGrid T orig) (found : Int × Int → Bool) (fuel : Nat) (dest : Int × Int) (path : List Dir) (h : bfs D go orig found fuel = .ok (.ok (dest, path))) :
    ∃ l, walkPath T orig path = some l ∧ l.getLast?.getD orig = dest := by
  obtain ⟨-, -, h2⟩ := C51_valid_path T hT bfs hbfs D go hgo orig ho found fuel dest path h
  clear h
  induction path generalizing orig with
  | nil => injection h2 with h2; exact ⟨[], rfl, h2⟩
  | cons d ds ih =>
    simp only [follow] at h2
    cases hg : go orig d with
    | none => rw [hg] at h2; cases h2
    | some q =>
      rw [hg] at h2
      obtain ⟨hq, e⟩ := hgo orig d q ho hg
      obtain ⟨l, h3, h4⟩ := ih q hq h2
      refine ⟨q :: l, ?_, ?_⟩
      · simp only [walkPath]
        rw [PosTy.addDir_eq hT.wf orig ho, ← e, if_pos (show T.Valid q from hq)]
        simp only
        rw [h3]
        rfl
      · rw [List.getLast?_cons, Option.getD_some]
        exact h4

example : Bf.IsSearch (PosTy.pos 3 3) (Bf.pathGrid (PosTy.pos 3 3) 1 16) := .inl ⟨1, 16, by decide, by decide, rfl⟩
example : Adjacent (PosTy.pos 2 1) (aroundWalls (PosTy.pos 2 1) [(1, 0)]) := aroundWalls_adjacent _ _
example : Bf.pathBtree (PosTy.pos 2 1) false (aroundWalls (PosTy.pos 2 1) [(1, 0)]) (0, 0) (fun p => p == (2, 0)) 7 =
    .ok (.ok ((2, 0), [.S, .E, .E, .N])) := by decide

/-! ## C52 -/

/-- C52. The path is a shortest one, and no goal other than the origin is closer. -/
theorem C52_shortest [Target] (T : PosTy) (hT : T.Searchable) (bfs) (hbfs : Bf.IsSearch T bfs) (D : Bool) (go : Int × Int → Dir → Option (Int × Int))
    (hgo : Adjacent T go) (orig : Int × Int) (ho : InGrid T orig) (found : Int × Int → Bool) (fuel : Nat) (dest : Int × Int) (path : List Dir) (h : bfs D go orig found fuel = .ok (.ok (dest, path))) :
    IsDist go D orig dest path.length ∧ ∀ q ds, found q = true → q ≠ orig → IsPath go D orig ds q → path.length ≤ ds.length := by
  obtain ⟨fuel, hfuel, h⟩ := hbfs.more (cols T * rows T) h
  rw [hbfs.eq hT hgo.staysIn ho] at h
  rcases Bf.searchPath_spec hT D found hgo ho fuel (by have := hT.cells_eq; omega) with
    ⟨-, h2⟩ | ⟨dest', n, h1, h2, h3, ⟨-, path', h4, h5, h6⟩ | ⟨-, h6⟩⟩
  · rw [h2] at h; cases h
  · rw [h6] at h
    injection h with h
    injection h with h
    injection h with e1 e2
    subst e1 e2
    rw [h5]
    refine ⟨h2, fun q ds hq hne hds => ?_⟩
    obtain ⟨m, hm⟩ := reachable_iff_isDist.1 ⟨ds, hds⟩
    have hle := hm.2 ds hds
    cases m with
    | zero => exact absurd (isDist_zero.1 hm) hne
    | succ m =>
      by_contra hlt
      have := h3 m q (by omega) hm
      rw [hq] at this
      cases this
  · rw [h6] at h; cases h

example : Bf.pathHash (PosTy.pos 2 1) true (aroundWalls (PosTy.pos 2 1) [(1, 0)]) (0, 0) (fun p => p.1 == 2) 7 =
    .ok (.ok ((2, 0), [.SE, .NE])) := by decide

/-! ## C53 -/

/-- C53, the full claim. -/
def C53_claim [Target] (T : PosTy) : Prop :=
  ∀ bfs, Bf.IsSearch T bfs → ∀ (D : Bool) (go : Int × Int → Dir → Option (Int × Int)), Adjacent T go → ∀ orig, InGrid T orig →
    ∀ (found : Int × Int → Bool) (fuel : Nat), cols T * rows T < (fuel : Int) →
    ((∃ q, found q = true ∧ Reachable go D orig q) → ∃ dest path, bfs D go orig found fuel = .ok (.ok (dest, path))) ∧
    ((¬ ∃ q, found q = true ∧ Reachable go D orig q) → bfs D go orig found fuel = .ok (.error .destinationUnreachable))

/-- C53. The outcome for every grid and every predicate, exactly: `DestinationUnreachable` if no goal other than the origin is reachable; otherwise a path if the
nearest goals other than the origin are at most `cols * cols` steps away, and `Loop` if they are not. -/
theorem C53_exact [Target] (T : PosTy) (hT : T.Searchable) (bfs) (hbfs : Bf.IsSearch T bfs) (D : Bool) (go : Int × Int → Dir → Option (Int × Int))
    (hgo : Adjacent T go) (orig : Int × Int) (ho : InGrid T orig) (found : Int × Int → Bool) (fuel : Nat)
    (hfuel : cols T * rows T < (fuel : Int)) :
    ((∀ q, found q = true → q ≠ orig → ¬ Reachable go D orig q) → bfs D go orig found fuel = .ok (.error .destinationUnreachable)) ∧
    (∀ q n, found q = true → q ≠ orig → IsDist go D orig q n →
      (∀ q' m, found q' = true → q' ≠ orig → IsDist go D orig q' m → n ≤ m) →
      ((n : Int) ≤ cols T * cols T → ∃ dest path, bfs D go orig found fuel = .ok (.ok (dest, path))) ∧
      (cols T * cols T < (n : Int) → bfs D go orig found fuel = .ok (.error .loop))) := by
  have hcc : cols T * cols T = ((T.nx * T.nx : Nat) : Int) := by
    have := hT.nx_eq
    have h0 := hT.x0
    simp only [cols]
    push_cast
    rw [this, h0]
    ring
  rw [hbfs.eq hT hgo.staysIn ho, hcc]
  rcases Bf.searchPath_spec hT D found hgo ho fuel (by have := hT.cells_eq; omega) with ⟨h1, h2⟩ | ⟨dest', n, h1, h2, h3, h4⟩
  · refine ⟨fun _ => h2, fun q n hq hne hd _ => ?_⟩
    cases n with
    | zero => exact absurd (isDist_zero.1 hd) hne
    | succ n => rw [h1 n q hd] at hq; cases hq
  · have hne : dest' ≠ orig := by
      rintro rfl
      have := isDist_unique h2 (isDist_zero.2 rfl)
      omega
    refine ⟨fun h => absurd (reachable_iff_isDist.2 ⟨_, h2⟩) (h dest' h1 hne), fun q m hq hqne hd hmin => ?_⟩
    have hm : m = n + 1 := by
      have a := hmin dest' (n + 1) h1 hne h2
      cases m with
      | zero => exact absurd (isDist_zero.1 hd) hqne
      | succ m =>
        by_contra hlt
        rw [h3 m q (by omega) hd] at hq
        cases hq
    subst hm
    rcases h4 with ⟨hle, path, -, -, h5⟩ | ⟨hlt, h5⟩
    · exact ⟨fun _ => ⟨dest', path, h5⟩, fun h => by omega⟩
    · exact ⟨fun h => by omega, fun _ => h5⟩

/-- C53, for grids that are not taller than wide and predicates that are false at the origin. What is missing: taller grids (`C53_refuted_tall`) and goals at the
origin (`C53_refuted_origin`), for which it is false; `C53_exact` covers both. -/
theorem C53_wide_partial [Target] (T : PosTy) (hT : T.Searchable) (hwide : rows T ≤ cols T) (bfs) (hbfs : Bf.IsSearch T bfs) (D : Bool)
    (go : Int × Int → Dir → Option (Int × Int)) (hgo : Adjacent T go) (orig : Int × Int) (ho : InGrid T orig) (found : Int × Int → Bool)
    (hfo : found orig = false) (fuel : Nat) (hfuel : cols T * rows T < (fuel : Int)) :
    ((∃ q, found q = true ∧ Reachable go D orig q) → ∃ dest path, bfs D go orig found fuel = .ok (.ok (dest, path))) ∧
    ((¬ ∃ q, found q = true ∧ Reachable go D orig q) → bfs D go orig found fuel = .ok (.error .destinationUnreachable)) := by
  have hle : cols T * rows T ≤ cols T * cols T := by
    have := hT.xmax0
    have h0 := hT.x0
    exact Int.mul_le_mul_of_nonneg_left hwide (by simp only [cols]; omega)
  have hcells := hT.cells_eq
  rw [hbfs.eq hT hgo.staysIn ho]
  rcases Bf.searchPath_spec hT D found hgo ho fuel (by omega) with ⟨h1, h2⟩ | ⟨dest', n, h1, h2, h3, h4⟩
  · refine ⟨?_, fun _ => h2⟩
    rintro ⟨q, hq, hr⟩
    obtain ⟨n, hn⟩ := reachable_iff_isDist.1 hr
    cases n with
    | zero => rw [isDist_zero.1 hn, hfo] at hq; cases hq
    | succ n => rw [h1 n q hn] at hq; cases hq
  · refine ⟨fun _ => ?_, fun h => absurd ⟨dest', h1, reachable_iff_isDist.2 ⟨_, h2⟩⟩ h⟩
    rcases h4 with ⟨-, path, -, -, h5⟩ | ⟨hlt, -⟩
    · exact ⟨dest', path, h5⟩
    · exfalso
      have h6 := isDist_lt hgo.staysIn ho h2
      have hcc : cols T * cols T = ((T.nx * T.nx : Nat) : Int) := by
        have := hT.nx_eq
        have h0 := hT.x0
        simp only [cols]
        push_cast
        rw [this, h0]
        ring
      omega

/-- C53 is false for a goal at the origin: it is not found. -/
theorem C53_refuted_origin [Target] : ¬ C53_claim (PosTy.pos 1 1) := by
  intro h
  obtain ⟨dest, path, h1⟩ := (h (Bf.pathHash (PosTy.pos 1 1)) (.inr (.inl rfl)) false (aroundWalls (PosTy.pos 1 1) []) (aroundWalls_adjacent _ _) (0, 0) (by decide_target)
    (fun p => p == (0, 0)) 5 (by decide_target)).1 ⟨(0, 0), by decide_target, Reachable.refl⟩
  have e : Bf.pathHash (PosTy.pos 1 1) false (aroundWalls (PosTy.pos 1 1) []) (0, 0) (fun p => p == (0, 0)) 5 =
    .ok (.error .destinationUnreachable) := by decide_target
  rw [e] at h1
  cases h1

/-- C53 is false for a column: a goal two steps away is reported as `Loop`. -/
theorem C53_refuted_tall [Target] : ¬ C53_claim (PosTy.pos 0 2) := by
  intro h
  obtain ⟨dest, path, h1⟩ := (h (Bf.pathHash (PosTy.pos 0 2)) (.inr (.inl rfl)) false (aroundWalls (PosTy.pos 0 2) []) (aroundWalls_adjacent _ _) (0, 0) (by decide_target)
    (fun p => p == (0, 2)) 5 (by decide_target)).1 ⟨(0, 2), by decide_target, [.S, .S], by intro d hd; revert d; simp [Allowed, unit], by decide_target⟩
  have e : Bf.pathHash (PosTy.pos 0 2) false (aroundWalls (PosTy.pos 0 2) []) (0, 0) (fun p => p == (0, 2)) 5 =
    .ok (.error .loop) := by decide_target
  rw [e] at h1
  cases h1

/-! ## C54 -/

/-- C54. The traversals of the three implementations are the same, also when they do not end within the bound. -/
theorem C54_iter_agree [Target] (T : PosTy) (hT : T.IsGrid) (WORDS : Nat) (hW : cols T * rows T ≤ 32 * (WORDS : Int)) (D : Bool)
    (go : Int × Int → Dir → Option (Int × Int)) (hgo : StaysIn T go) (orig : Int × Int) (ho : InGrid T orig) (fuel : Nat) :
    Bf.iterHash D go orig fuel = Bf.iterGrid T WORDS D go orig fuel ∧ Bf.iterBtree D go orig fuel = Bf.iterGrid T WORDS D go orig fuel := by
  have h1 := Bf.IsIter.eq hT (.inl ⟨WORDS, hW, rfl⟩) (D := D) hgo ho fuel
  have h2 := Bf.IsIter.eq hT (.inr (.inl rfl)) (D := D) hgo ho fuel
  have h3 := Bf.IsIter.eq hT (.inr (.inr rfl)) (D := D) hgo ho fuel
  exact ⟨h2.trans h1.symm, h3.trans h1.symm⟩

/-- C54. The results of the three searches are the same, for every movement function, also between positions that are not neighbours. -/
theorem C54_search_agree [Target] (T : PosTy) (hT : T.Searchable) (WORDS SIZE : Nat) (hW : cols T * rows T ≤ 32 * (WORDS : Int))
    (hS : cols T * rows T ≤ (SIZE : Int)) (D : Bool) (go : Int × Int → Dir → Option (Int × Int)) (hgo : StaysIn T go) (orig : Int × Int)
    (ho : InGrid T orig) (found : Int × Int → Bool) (fuel : Nat) :
    Bf.pathHash T D go orig found fuel = Bf.pathGrid T WORDS SIZE D go orig found fuel ∧
    Bf.pathBtree T D go orig found fuel = Bf.pathGrid T WORDS SIZE D go orig found fuel := by
  have h1 := Bf.IsSearch.eq hT (.inl ⟨WORDS, SIZE, hW, hS, rfl⟩) (D := D) hgo ho found fuel
  have h2 := Bf.IsSearch.eq hT (.inr (.inl rfl)) (D := D) hgo ho found fuel
  have h3 := Bf.IsSearch.eq hT (.inr (.inr rfl)) (D := D) hgo ho found fuel
  exact ⟨h2.trans h1.symm, h3.trans h1.symm⟩

example : Bf.pathGrid (PosTy.pos 2 1) 1 6 true (aroundWalls (PosTy.pos 2 1) [(1, 0)]) (0, 0) (fun p => p.1 == 2) 7 =
    .ok (.ok ((2, 0), [.SE, .NE])) := by decide

end Sqrid
