import Verif.Spec.Torus
import Verif.Props.AllPaths
import Verif.Props.Seats
/-!
# Grids whose opposite edges are joined: C167
-/

namespace Sqrid

-- Statements that do not mention a target are about a debug build for a 64-bit machine.
attribute [local instance] debug64

open Spec

theorem joinedEdges_eq_some {T : PosTy} {walls : List P2} {p q : P2} {d : Dir} : joinedEdges T walls p d = some q ↔ q = wrap T (neighbour p d) ∧ q ∉ walls := by
  unfold joinedEdges
  split
  · rename_i h
    simp only [reduceCtorEq, false_iff, not_and, not_not]
    rintro rfl
    exact h
  · rename_i h
    simp only [Option.some.injEq]
    constructor
    · rintro rfl; exact ⟨rfl, h⟩
    · rintro ⟨rfl, -⟩; rfl

theorem wrap_inGrid {T : PosTy} (hx : T.X.MIN ≤ T.X.MAX) (hy : T.Y.MIN ≤ T.Y.MAX) (p : P2) : InGrid T (wrap T p) := by
  unfold InGrid wrap wrap1
  constructor <;> constructor <;> (dsimp only; split <;> (try split)) <;> omega

theorem inGrid_le {T : PosTy} {p : P2} (hp : InGrid T p) : T.X.MIN ≤ T.X.MAX ∧ T.Y.MIN ≤ T.Y.MAX := by
  unfold InGrid at hp
  omega

theorem joinedEdges_staysIn (T : PosTy) (walls : List P2) : StaysIn T (joinedEdges T walls) := fun p d q hp h => by
  obtain ⟨rfl, -⟩ := joinedEdges_eq_some.1 h
  exact wrap_inGrid (inGrid_le hp).1 (inGrid_le hp).2 _

/-- A step back that stays in the grid undoes a step that does not go past an edge. -/
theorem joinedEdges_back {T : PosTy} {walls : List P2} {p q : P2} {d : Dir} (hp : InGrid T p) (h : joinedEdges T walls p (opposite d) = some q)
    (hb : InGrid T (neighbour q d)) : p = neighbour q d ∧ aroundWalls T walls p (opposite d) = some q := by
  obtain ⟨e, hw⟩ := joinedEdges_eq_some.1 h
  have hle := inGrid_le hp
  have hq := joinedEdges_staysIn T walls p _ q hp h
  have key : q = neighbour p (opposite d) := by
    rw [e] at hb ⊢
    unfold InGrid at hp hb
    unfold wrap wrap1 neighbour at *
    revert hb
    cases d <;> simp only [unit, opposite] <;> intro hb <;> ext <;> dsimp only <;> omega
  refine ⟨?_, aroundWalls_eq_some.2 ⟨key, hq, hw⟩⟩
  rw [key, neighbour_opposite']

/-- A distance from a function that a step lowers by at most one, and some step by one. -/
theorem isDist_of_steps {T : PosTy} {go : GoFn} {D : Bool} (hgo : StaysIn T go) (f : P2 → Nat) {q : P2} (h0 : ∀ p, InGrid T p → (f p = 0 ↔ p = q))
    (hle : ∀ p d p', InGrid T p → Allowed D d → go p d = some p' → f p ≤ f p' + 1)
    (hex : ∀ p, InGrid T p → f p ≠ 0 → ∃ d p', Allowed D d ∧ go p d = some p' ∧ f p = f p' + 1) {p : P2} (hp : InGrid T p) : IsDist go D p q (f p) := by
  constructor
  · generalize hn : f p = n
    induction n generalizing p with
    | zero => exact ⟨[], ⟨by simp, by rw [(h0 p hp).1 hn]; rfl⟩, rfl⟩
    | succ n ih =>
      obtain ⟨d, p', h1, h2, h3⟩ := hex p hp (by omega)
      obtain ⟨ds, ⟨h4, h5⟩, h6⟩ := ih (hgo _ _ _ hp h2) (by omega)
      refine ⟨d :: ds, ⟨?_, ?_⟩, by simp [h6]⟩
      · intro x hx
        rcases List.mem_cons.1 hx with rfl | hx
        · exact h1
        · exact h4 x hx
      · simp only [follow, h2]
        exact h5
  · intro ds
    induction ds generalizing p with
    | nil =>
      rintro ⟨-, h⟩
      have : p = q := by simpa [follow] using h
      rw [(h0 p hp).2 this]
      simp
    | cons d ds ih =>
      rintro ⟨h1, h2⟩
      cases hg : go p d with
      | none => simp [follow, hg] at h2
      | some p' =>
        simp only [follow, hg] at h2
        have := ih (hgo _ _ _ hp hg) ⟨fun x hx => h1 x (List.mem_cons_of_mem _ hx), h2⟩
        have := hle p d p' hp (h1 d (by simp)) hg
        simp only [List.length_cons]
        omega

theorem ring_zero {lo hi x y : Int} (hx : lo ≤ x ∧ x ≤ hi) (hy : lo ≤ y ∧ y ≤ hi) : ring (hi - lo + 1) x y = 0 ↔ x = y := by
  unfold ring
  omega

theorem ring_step {lo hi x y : Int} (hx : lo ≤ x ∧ x ≤ hi) (hy : lo ≤ y ∧ y ≤ hi) (u : Int) (hu : -1 ≤ u ∧ u ≤ 1) :
    ring (hi - lo + 1) x y ≤ ring (hi - lo + 1) (wrap1 lo hi (x + u)) y + 1 ∧ (u = 0 → wrap1 lo hi (x + u) = x) := by
  unfold ring wrap1
  constructor
  · split
    · omega
    · split <;> omega
  · rintro rfl
    rw [if_neg (by omega), if_neg (by omega)]
    omega

theorem ring_closer {lo hi x y : Int} (hx : lo ≤ x ∧ x ≤ hi) (hy : lo ≤ y ∧ y ≤ hi) (h : ring (hi - lo + 1) x y ≠ 0) :
    ∃ u, (u = -1 ∨ u = 1) ∧ ring (hi - lo + 1) x y = ring (hi - lo + 1) (wrap1 lo hi (x + u)) y + 1 := by
  unfold ring wrap1 at *
  by_cases h1 : (x < y ↔ (x - y).natAbs ≤ (hi - lo + 1 - (x - y).natAbs).toNat)
  · refine ⟨1, .inr rfl, ?_⟩
    split
    · omega
    · split <;> omega
  · refine ⟨-1, .inl rfl, ?_⟩
    split
    · omega
    · split <;> omega

theorem dir_of_unit (u v : Int) (hu : u = -1 ∨ u = 0 ∨ u = 1) (hv : v = -1 ∨ v = 0 ∨ v = 1) (h : u ≠ 0 ∨ v ≠ 0) : ∃ d : Dir, unit d = (u, v) := by
  rcases hu with rfl | rfl | rfl <;> rcases hv with rfl | rfl | rfl
  · exact ⟨.NW, rfl⟩
  · exact ⟨.W, rfl⟩
  · exact ⟨.SW, rfl⟩
  · exact ⟨.N, rfl⟩
  · omega
  · exact ⟨.S, rfl⟩
  · exact ⟨.NE, rfl⟩
  · exact ⟨.E, rfl⟩
  · exact ⟨.SE, rfl⟩

theorem ring_toward {lo hi x y : Int} (hx : lo ≤ x ∧ x ≤ hi) (hy : lo ≤ y ∧ y ≤ hi) :
    ∃ u, (u = -1 ∨ u = 0 ∨ u = 1) ∧ (u = 0 ↔ ring (hi - lo + 1) x y = 0) ∧
      ring (hi - lo + 1) (wrap1 lo hi (x + u)) y = ring (hi - lo + 1) x y - 1 := by
  by_cases h : ring (hi - lo + 1) x y = 0
  · refine ⟨0, by simp, by simp [h], ?_⟩
    rw [(ring_step hx hy 0 (by omega)).2 rfl, h]
  · obtain ⟨u, h1, h2⟩ := ring_closer hx hy h
    exact ⟨u, by omega, by omega, by omega⟩

theorem unit_le (d : Dir) : (-1 ≤ (unit d).1 ∧ (unit d).1 ≤ 1) ∧ -1 ≤ (unit d).2 ∧ (unit d).2 ≤ 1 := by
  cases d <;> decide

/-- C167. The distances if the opposite edges are joined: in each axis the shorter way round; the sum without diagonals, the greater one with them. -/
theorem C167_distance (T : PosTy) (D : Bool) (p q : Int × Int) (hp : InGrid T p) (hq : InGrid T q) : IsDist (joinedEdges T []) D p q (ringDist T D p q) := by
  refine isDist_of_steps (joinedEdges_staysIn T []) (fun p => ringDist T D p q) (fun p hp => ?_) (fun p d p' hp hd h => ?_) (fun p hp h => ?_) hp
  · unfold InGrid at hp hq
    have h1 := ring_zero hp.1 hq.1
    have h2 := ring_zero hp.2 hq.2
    unfold ringDist cols rows
    rw [Prod.ext_iff, ← h1, ← h2]
    split <;> omega
  · obtain ⟨rfl, -⟩ := joinedEdges_eq_some.1 h
    unfold InGrid at hp hq
    obtain ⟨u1, u2⟩ := unit_le d
    obtain ⟨h1, h1'⟩ := ring_step hp.1 hq.1 _ u1
    obtain ⟨h2, h2'⟩ := ring_step hp.2 hq.2 _ u2
    unfold ringDist cols rows wrap neighbour
    dsimp only
    split
    · omega
    · rename_i hD
      rcases hd with hd | hd | hd
      · exact absurd hd hD
      · rw [h1' hd]
        omega
      · rw [h2' hd]
        omega
  · have hgo : ∀ d, joinedEdges T [] p d = some (wrap T (neighbour p d)) := fun d => joinedEdges_eq_some.2 ⟨rfl, by simp⟩
    unfold InGrid at hp hq
    obtain ⟨u, a1, a2, a3⟩ := ring_toward hp.1 hq.1
    obtain ⟨v, b1, b2, b3⟩ := ring_toward hp.2 hq.2
    unfold ringDist cols rows at *
    cases D with
    | true =>
      simp only [if_true] at h ⊢
      obtain ⟨d, hd⟩ := dir_of_unit u v a1 b1 (by omega)
      refine ⟨d, _, .inl rfl, hgo d, ?_⟩
      unfold wrap neighbour
      rw [hd]
      dsimp only
      rw [a3, b3]
      omega
    | false =>
      simp only [Bool.false_eq_true, if_false] at h ⊢
      by_cases hu : u = 0
      · obtain ⟨d, hd⟩ := dir_of_unit 0 v (by omega) b1 (by omega)
        refine ⟨d, _, .inr (.inl (by rw [hd])), hgo d, ?_⟩
        unfold wrap neighbour
        rw [hd]
        dsimp only
        rw [b3, (ring_step hp.1 hq.1 0 (by omega)).2 rfl]
        omega
      · obtain ⟨d, hd⟩ := dir_of_unit u 0 a1 (by omega) (.inl hu)
        refine ⟨d, _, .inr (.inr (by rw [hd])), hgo d, ?_⟩
        unfold wrap neighbour
        rw [hd]
        dsimp only
        rw [a3, (ring_step hp.2 hq.2 0 (by omega)).2 rfl]
        omega

example : InGrid (PosTy.pos 9 9) (0, 0) ∧ ringDist (PosTy.pos 9 9) false (0, 0) (8, 3) = 5 ∧ ringDist (PosTy.pos 9 9) true (0, 0) (8, 3) = 3 := by
  unfold InGrid; decide

/-- C167. Layer `k` of `bf_iter` with a movement function that goes past the edges has the positions at that distance `k + 1`, each once. -/
theorem C167_layers [Target] (T : PosTy) (hT : T.IsGrid) (iter) (hiter : Bf.IsIter T iter) (D : Bool) (orig : Int × Int) (ho : InGrid T orig)
    (hc : 2 ≤ cols T) (hr : 2 ≤ rows T) (fuel : Nat) (hfuel : cols T * rows T < (fuel : Int)) :
    ∃ ls, iter D (joinedEdges T []) orig fuel = .ok ls ∧ (∀ (k : Nat) layer, ls[k]? = some layer →
      (layer.map Prod.fst).Nodup ∧ ∀ q, q ∈ layer.map Prod.fst ↔ InGrid T q ∧ ringDist T D orig q = k + 1) ∧
      ∀ q, InGrid T q → q ≠ orig → ringDist T D orig q ≤ ls.length := by
  have hgo := joinedEdges_staysIn T []
  have hd : ∀ q, InGrid T q → ∀ n, IsDist (joinedEdges T []) D orig q n ↔ ringDist T D orig q = n := fun q hq n =>
    ⟨fun h => isDist_unique (C167_distance T D orig q ho hq) h, fun h => h ▸ C167_distance T D orig q ho hq⟩
  obtain ⟨ls, h1, h2, h2'⟩ := C49_layers_partial T hT iter hiter D (joinedEdges T []) hgo orig ho (fun d h => by
    obtain ⟨e, -⟩ := joinedEdges_eq_some.1 h
    unfold InGrid at ho
    unfold cols at hc
    unfold rows at hr
    unfold wrap wrap1 neighbour at e
    rw [Prod.ext_iff] at e
    revert e
    cases d <;> simp only [unit] <;> rintro ⟨e1, e2⟩ <;> omega) fuel hfuel
  refine ⟨ls, h1, fun k layer hl => ?_, fun q hq hne => ?_⟩
  · obtain ⟨h3, h4, -⟩ := h2 k layer hl
    refine ⟨h4, fun q => ?_⟩
    have e : q ∈ layer.map Prod.fst ↔ ∃ d, (q, d) ∈ layer := by
      simp [List.mem_map]
    rw [e, h3 q]
    exact ⟨fun h => ⟨isDist_inGrid hgo ho h, (hd q (isDist_inGrid hgo ho h) _).1 h⟩, fun ⟨hq, h⟩ => (hd q hq _).2 h⟩
  · by_contra hlt
    have h0 : ringDist T D orig q ≠ 0 := fun h => hne (isDist_zero.1 ((hd q hq 0).2 h))
    exact h2' (ringDist T D orig q - 1) q (by omega) ((hd q hq _).2 (by omega))

/-- The way back along directions that the traversal gives: the path found does not go past an edge, and no path is shorter. -/
theorem arrives_joinedEdges {T : PosTy} {walls : List P2} {D : Bool} {orig : P2} (ho : InGrid T orig) {f : P2 → Option Dir}
    (hf : ∀ q d, q ≠ orig → f q = some d → Allowed D d ∧ ∃ k p, IsDist (joinedEdges T walls) D orig p k ∧ joinedEdges T walls p (opposite d) = some q ∧
      IsDist (joinedEdges T walls) D orig q (k + 1)) {q : P2} {path : List Dir} (h : Arrives T f orig q path) :
    IsPath (aroundWalls T walls) D orig path q ∧ IsDist (joinedEdges T walls) D orig q path.length := by
  induction h with
  | here => exact ⟨⟨by simp, rfl⟩, isDist_zero.2 rfl⟩
  | @step p d path h1 h2 h3 _ ih =>
    obtain ⟨a, k, r, b1, b2, b3⟩ := hf p d h1 h2
    obtain ⟨rfl, c⟩ := joinedEdges_back (isDist_inGrid (joinedEdges_staysIn T walls) ho b1) b2 h3
    obtain ⟨i1, i2⟩ := ih
    have := isDist_unique i2 b1
    subst this
    refine ⟨isPath_append i1 ⟨by simpa using allowed_opposite.2 a, by simp [follow, c]⟩, by simpa using b3⟩

/-- The way back ends, at the origin or at an edge, after at most as many steps as the distance. -/
theorem ends_joinedEdges {T : PosTy} {walls : List P2} {D : Bool} {orig : P2} (ho : InGrid T orig) {f : P2 → Option Dir}
    (hf : ∀ q d, q ≠ orig → f q = some d → Allowed D d ∧ ∃ k p, IsDist (joinedEdges T walls) D orig p k ∧ joinedEdges T walls p (opposite d) = some q ∧
      IsDist (joinedEdges T walls) D orig q (k + 1)) (n : Nat) : ∀ q, IsDist (joinedEdges T walls) D orig q n →
    (∃ path, Arrives T f orig q path ∧ path.length ≤ n) ∨ ∃ m, GetsStuck T f orig q m ∧ m ≤ n := by
  induction n with
  | zero =>
    intro q hq
    obtain rfl := isDist_zero.1 hq
    exact .inl ⟨[], .here, by simp⟩
  | succ n ih =>
    intro q hq
    have hne : q ≠ orig := by
      rintro rfl
      have := isDist_unique hq (isDist_zero.2 rfl)
      omega
    cases hfq : f q with
    | none => exact .inr ⟨0, .here hne (by simp [hfq]), by omega⟩
    | some d =>
      by_cases hg : InGrid T (neighbour q d)
      · obtain ⟨-, k, p, b1, b2, b3⟩ := hf q d hne hfq
        obtain ⟨rfl, -⟩ := joinedEdges_back (isDist_inGrid (joinedEdges_staysIn T walls) ho b1) b2 hg
        have hk : k = n := by have := isDist_unique b3 hq; omega
        subst hk
        rcases ih _ b1 with ⟨path, c1, c2⟩ | ⟨m, c1, c2⟩
        · exact .inl ⟨_, .step hne hfq hg c1, by simp; omega⟩
        · exact .inr ⟨_, .step hne hfq hg c1, by omega⟩
      · refine .inr ⟨0, .here hne fun d' hd' => ?_, by omega⟩
        rw [hfq] at hd'
        injection hd' with hd'
        subst hd'
        exact hg

/-- C167. The breadth-first search with such a movement function, with walls. -/
theorem C167_bfs [Target] (T : PosTy) (hT : T.Searchable) (bfs) (hbfs : Bf.IsSearch T bfs) (D : Bool) (walls : List (Int × Int)) (orig dest : Int × Int)
    (ho : InGrid T orig) (hne : dest ≠ orig) (fuel : Nat) (hfuel : cols T * rows T < (fuel : Int)) :
    (¬ Reachable (joinedEdges T walls) D orig dest → bfs D (joinedEdges T walls) orig (fun p => p == dest) fuel = .ok (.error .destinationUnreachable)) ∧
    (Reachable (joinedEdges T walls) D orig dest →
      (∃ path, bfs D (joinedEdges T walls) orig (fun p => p == dest) fuel = .ok (.ok (dest, path)) ∧
        IsPath (aroundWalls T walls) D orig path dest ∧ IsDist (joinedEdges T walls) D orig dest path.length) ∨
      bfs D (joinedEdges T walls) orig (fun p => p == dest) fuel = .ok (.error .invalidMovement) ∨
      (bfs D (joinedEdges T walls) orig (fun p => p == dest) fuel = .ok (.error .loop) ∧
        ∃ n : Nat, IsDist (joinedEdges T walls) D orig dest n ∧ cols T * cols T < (n : Int))) := by
  have hgo := joinedEdges_staysIn T walls
  have hf : T.nx * T.ny < fuel := by have := hT.cells_eq; omega
  obtain ⟨ls, h1, h2, h2', -⟩ := Bf.iterAll_layers D hgo ho fuel hf
  obtain ⟨g1, g2, -⟩ := layers_flatten (fun k l hl => ⟨(h2 k l hl).2.mem, (h2 k l hl).2.nodup⟩) h2'
  have hlay : ∀ q d, q ≠ orig → (q, d) ∈ ls.flatten → Allowed D d ∧ ∃ k p, IsDist (joinedEdges T walls) D orig p k ∧
      joinedEdges T walls p (opposite d) = some q ∧ IsDist (joinedEdges T walls) D orig q (k + 1) := fun q d hq hm => by
    obtain ⟨l, hl, hm⟩ := List.mem_flatten.1 hm
    obtain ⟨k, hk⟩ := List.mem_iff_getElem?.1 hl
    obtain ⟨a, p, b, c⟩ := (h2 k l hk).2.back q d hm
    refine ⟨a, k, p, b, c, ?_⟩
    rcases ((h2 k l hk).2.mem q).1 ⟨d, hm⟩ with h | ⟨-, rfl, -⟩
    · exact h
    · exact absurd rfl hq
  have hreach : (∃ d, (dest, d) ∈ ls.flatten) ↔ Reachable (joinedEdges T walls) D orig dest := by
    constructor
    · rintro ⟨d, hd⟩
      obtain ⟨-, k, p, -, -, h⟩ := hlay dest d hne hd
      exact reachable_iff_isDist.2 ⟨_, h⟩
    · intro h
      obtain ⟨n, hn⟩ := reachable_iff_isDist.1 h
      cases n with
      | zero => exact absurd (isDist_zero.1 hn) hne
      | succ n => exact (g1 dest).2 ⟨n, .inl hn⟩
  rw [hbfs.eq hT hgo ho]
  obtain ⟨st, h3, -, -⟩ := BfIter.new_order (joinedEdges T walls) D orig
  have hc : collectWith (BfIter.next SetImpl.ideal D (joinedEdges T walls)) fuel st = .ok ls := by
    have h := h1
    unfold Bf.iterAll at h
    rw [h3, Out.ok_bind] at h
    exact h
  have hmm : ∀ {r}, Bf.searchLoop SetImpl.ideal (MapImpl.ideal none) D (joinedEdges T walls) (fun p => p == dest) fuel st (fun _ => none) = .ok r →
      Bf.searchMapmov SetImpl.ideal (MapImpl.ideal none) D (joinedEdges T walls) orig (fun p => p == dest) fuel = .ok r := by
    intro r hr
    unfold Bf.searchMapmov
    rw [h3, Out.ok_bind]
    exact hr
  rcases Bf.searchLoop_flatten (joinedEdges T walls) D (fun p => p == dest) fuel (fun _ => none) hc with ⟨a1, a2⟩ | ⟨pre, m, post, a1, a2, a3, a4⟩
  · rw [Bf.searchPath_of_mapmov (hmm a2)]
    refine ⟨fun _ => rfl, fun h => ?_⟩
    obtain ⟨d, hd⟩ := hreach.2 h
    have := a1 _ hd
    simp at this
  · obtain ⟨q, d⟩ := m
    have e : q = dest := by simpa using a2
    subst e
    have hmem : ∀ x, x ∈ pre ++ [(q, d)] → x ∈ ls.flatten := fun x hx => by
      rw [a1]
      simp only [List.mem_append, List.mem_cons, List.not_mem_nil, or_false] at hx ⊢
      tauto
    have hr := hreach.1 ⟨d, hmem _ (by simp)⟩
    refine ⟨fun h => absurd hr h, fun _ => ?_⟩
    obtain ⟨n, hn⟩ := reachable_iff_isDist.1 hr
    have hq := isDist_inGrid hgo ho hn
    rw [Bf.searchPath_of_mapmov (hmm a4)]
    have hw : ∀ p d', writeAll (pre ++ [(q, d)]) (fun _ => none) p = some d' → (p, d') ∈ ls.flatten := fun p d' h => by
      rcases writeAll_some h with h | h
      · exact hmem _ h
      · cases h
    have hset : writeAll (pre ++ [(q, d)]) (fun _ => none) q ≠ none := by
      rw [writeAll_append]
      simp [writeAll, upd]
    rcases camefromIntoPath_spec hT (MapImpl.ideal none) (writeAll (pre ++ [(q, d)]) (fun _ => none)) (writeAll (pre ++ [(q, d)]) (fun _ => none)) ho hq
      (fun _ _ => rfl) with ⟨b, -⟩ | ⟨-, ⟨path, b1, -, b2⟩ | ⟨n, -, -, b2⟩ | ⟨b3, b4, b2⟩⟩
    · exact absurd b hset
    · simp only [b2, Out.ok_bind]
      exact .inl ⟨path, rfl, arrives_joinedEdges ho (fun p d' hp h => hlay p d' hp (hw p d' h)) b1⟩
    · simp only [b2, Out.ok_bind]
      exact .inr (.inl trivial)
    · simp only [b2, Out.ok_bind]
      have hcc : ((T.nx * T.nx : Nat) : Int) = cols T * cols T := by
        rw [Nat.cast_mul, hT.nx_eq]; simp only [cols, hT.x0, Int.sub_zero]
      refine .inr (.inr ⟨trivial, n, hn, ?_⟩)
      rcases ends_joinedEdges ho (fun p d' hp h => hlay p d' hp (hw p d' h)) n q hn with ⟨path, c1, c2⟩ | ⟨m, c1, c2⟩
      · have := b3 path c1
        omega
      · have := b4 m c1
        omega

-- Across the edge `(4, 0)` is next to `(0, 0)`: the traversal has it in its first layer, but the search gives `InvalidMovement`. For `(2, 0)` it gives a path.
example : (Bf.iterGrid (PosTy.pos 4 4) 1 false (joinedEdges (PosTy.pos 4 4) []) (0, 0) 26).bind (fun ls => .ok (ls.head?.map (List.map Prod.fst))) =
      .ok (some [(0, 4), (1, 0), (0, 1), (4, 0)]) ∧
    Bf.pathGrid (PosTy.pos 4 4) 1 25 false (joinedEdges (PosTy.pos 4 4) []) (0, 0) (fun p => p == (4, 0)) 26 = .ok (.error .invalidMovement) ∧
    Bf.pathGrid (PosTy.pos 4 4) 1 25 false (joinedEdges (PosTy.pos 4 4) []) (0, 0) (fun p => p == (2, 0)) 26 = .ok (.ok ((2, 0), [.E, .E])) := by
  decide +kernel

/-- C167. If every path that stays within the edges is longer than the shortest one, then the search gives `InvalidMovement`. -/
theorem C167_across [Target] (T : PosTy) (hT : T.Searchable) (bfs) (hbfs : Bf.IsSearch T bfs) (D : Bool) (walls : List (Int × Int)) (orig dest : Int × Int)
    (ho : InGrid T orig) (n : Nat) (hn : IsDist (joinedEdges T walls) D orig dest n) (hlong : ∀ ds, IsPath (aroundWalls T walls) D orig ds dest → n < ds.length)
    (hn' : (n : Int) ≤ cols T * cols T) (fuel : Nat) (hfuel : cols T * rows T < (fuel : Int)) :
    bfs D (joinedEdges T walls) orig (fun p => p == dest) fuel = .ok (.error .invalidMovement) := by
  have hne : dest ≠ orig := by
    rintro rfl
    have := hlong [] ⟨by simp, rfl⟩
    simp at this
  rcases (C167_bfs T hT bfs hbfs D walls orig dest ho hne fuel hfuel).2 (reachable_iff_isDist.2 ⟨n, hn⟩) with ⟨path, -, h1, h2⟩ | h | ⟨-, m, h1, h2⟩
  · have := hlong path h1
    have := isDist_unique hn h2
    omega
  · exact h
  · have := isDist_unique hn h1
    subst this
    omega

-- The way past the edge has one step, those that stay within the edges have four or more.
example : IsDist (joinedEdges (PosTy.pos 4 4) []) false (0, 0) (4, 0) 1 ∧ (∀ ds, IsPath (aroundWalls (PosTy.pos 4 4) []) false (0, 0) ds (4, 0) → 1 < ds.length) ∧
    ((1 : Nat) : Int) ≤ cols (PosTy.pos 4 4) * cols (PosTy.pos 4 4) :=
  ⟨C167_distance (PosTy.pos 4 4) false (0, 0) (4, 0) (by unfold InGrid; decide) (by unfold InGrid; decide), fun ds h => by
    have := l1_le_path (aroundWalls_adjacent _ _) (by unfold InGrid; decide) h
    have e : l1 (0, 0) (4, 0) = 4 := by decide
    omega, by decide⟩

end Sqrid
