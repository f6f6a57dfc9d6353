import Verif.Props.Quadratic
import Verif.Props.Work
/-!
# What the best-first iterators have found when they end: C129
-/

namespace Sqrid

-- Statements that do not mention a target are about a debug build for a 64-bit machine.
attribute [local instance] debug64

open Spec

/-- C129, A*, in both modes. However often `next` is called, only positions that can be reached are yielded, and at most `2 N² + 1` items, `N` the number of cells. Once
`next` has returned nothing, all positions that can be reached have been yielded, the cost recorded for each is its distance from the origin, and the others have none
(`usize::MAX`). -/
theorem C129_astar [Target] (T : PosTy) (hT : T.Searchable) (C : MapImpl Int) (hC : C.Is T 0) (D : Bool) (go : Int × Int → Dir → Option (Int × Int))
    (hgo : StaysIn T go) (orig dest : Int × Int) (ho : InGrid T orig) (hd : InGrid T dest) (calls : Nat) :
    ∃ items st, (do let it ← AstarIter.new C orig; yields (AstarIter.next T C D go dest) calls it) = .ok (items, st) ∧
      (∀ m ∈ items, Reachable go D orig m.1) ∧ (items.length : Int) ≤ 2 * (cols T * rows T) * (cols T * rows T) + 1 ∧
      (items.length < calls → ∀ q, InGrid T q →
        (Reachable go D orig q → q ∈ items.map Prod.fst) ∧ (∀ k : Nat, IsDist go D orig q k → C.get st.cost q = .ok (k : Int)) ∧
        (¬ Reachable go D orig q → C.get st.cost q = .ok limit)) := by
  obtain ⟨items, st, K, f, s, h1, h2, h3, h4, h5, h6, -⟩ := AstarIter.yields_any hT hC hgo ho hd D 0 calls
  have hreach : ∀ q, s.c q < usizeMax → Reachable go D orig q := fun q hq => by
    obtain ⟨ds, hds⟩ := h3.walk q hq
    exact ⟨ds, (isCostPath_unit.1 hds).1⟩
  refine ⟨items, st, h1, fun m hm => hreach _ (h3.fin _ ((h4 _).2 (List.mem_map_of_mem hm))), ?_, fun hlt q hq => ?_⟩
  · have := hT.cells_eq
    rw [← this, Int.mul_assoc]
    exact_mod_cast h6
  · have hdone : ∀ k : Nat, IsDist go D orig q k → K q ∧ s.c q = k := by
      intro k hk
      have hb : (k : Int) < usizeMax := by
        have := isDist_lt_list (covers hgo ho) hk
        have := cells_lt hT
        omega
      obtain ⟨⟨ds, hds, hlen⟩, hmin⟩ := hk
      obtain ⟨a1, a2⟩ := h3.complete (unitCost_nonneg go) usizeMax_pos (h5 hlt) (isCostPath_unit.2 ⟨hds, rfl⟩) (by omega)
      obtain ⟨es, hes⟩ := h3.walk q (h3.fin q a1)
      obtain ⟨b1, b2⟩ := isCostPath_unit.1 hes
      have := hmin es b1
      exact ⟨a1, by omega⟩
    refine ⟨fun hr => ?_, fun k hk => ?_, fun hr => ?_⟩
    · obtain ⟨k, hk⟩ := reachable_iff_isDist.1 hr
      exact (h4 q).1 (hdone k hk).1
    · rw [h2 q hq, (hdone k hk).2]
    · rw [h2 q hq, ← usizeMax_eq]
      have := h3.c_le q
      by_contra hne
      exact hr (hreach q (by
        have : s.c q ≠ usizeMax := fun h => hne (by rw [h])
        omega))

/-- C129, uniform-cost search, in both modes, for costs whose sums fit. However often `next` is called, only positions that can be reached for less than the limit
(`usize::MAX`) are yielded. Once `next` has returned nothing, all of these have been yielded, the cost recorded for each is the least one, and the others have none. -/
theorem C129_ucs [Target] (T : PosTy) (hT : T.Searchable) (C : MapImpl Int) (hC : C.Is T 0) (D : Bool) (go : Int × Int → Dir → Option ((Int × Int) × Int))
    (hgo : StaysIn T (dropCost go)) (hc : UsizeCosts go) (orig : Int × Int) (ho : InGrid T orig) (hno : NoOverflow go D orig) (calls : Nat) :
    ∃ items st, (do let it ← UcsIter.new C orig; yields (UcsIter.next C D go) calls it) = .ok (items, st) ∧
      (∀ m ∈ items, ∃ k, IsMinCost go D orig m.1 k ∧ k < limit) ∧ (items.length : Int) ≤ 8 * (cols T * rows T) + 1 ∧
      (items.length < calls → ∀ q, InGrid T q →
        (∀ k, IsMinCost go D orig q k → k < limit → q ∈ items.map Prod.fst ∧ C.get st.cost q = .ok k) ∧
        ((¬ ∃ k, IsMinCost go D orig q k ∧ k < limit) → C.get st.cost q = .ok limit)) := by
  obtain ⟨R, hR⟩ := MapImpl.sim_of_is hT.toIsGrid hC
  have hw := hc.nonNeg
  have hG := cost_inGrid (D := D) hgo ho
  have hnext : ∀ (s : BSt) e rest, Heap.pop s.heap = some (e, rest) → s.c e.2.1 < usizeMax → IsMinCost go D orig e.2.1 (s.c e.2.1) →
      UcsIter.next (MapImpl.ideal 0) D go s.ucs = .ok (some e.2, (BSt.after go (fun _ => 0) D s.c e rest).ucs) :=
    fun s e rest hp hlt hm => UcsIter.next_eq hw D hp (hno.room (isMinCost_nonneg hw hm) hlt hm)
  obtain ⟨ys, s', h1, h2, -, h4, h5⟩ := yields_init (L := allPositions T true) (INF := usizeMax) (emb := BSt.ucs) (next := UcsIter.next (MapImpl.ideal 0) D go)
    usizeMax_pos hw (consistent_zero (D := D) (orig := orig) hw) (fun ds q n h => PosTy.mem_allPositions.2 (hG ds q n h)) (fun s hs => UcsIter.next_none hs)
    hnext calls
  obtain ⟨zs, u, g1, g2⟩ := yields_track_init (INF := usizeMax) (emb := BSt.ucs) (next := UcsIter.next (MapImpl.ideal 0) D go)
    (J := fun t ys _ => ∀ q, q ∈ ys.map Prod.fst → 1 ≤ t q) usizeMax_pos hw (consistent_zero (D := D) (orig := orig) hw)
    (by
      intro t n F f s ys e rest t' n' _ j _ _ _ _ ht _ q hq
      rw [List.map_append, List.mem_append] at hq
      rw [ht]
      rcases hq with hq | hq
      · exact .inl (j q hq)
      · exact .inr (by simpa using hq))
    (by intro q hq; simp at hq; subst hq; rw [upd_same]) (fun s hs => UcsIter.next_none hs) hnext calls
  rw [h1] at g1
  injection g1 with g1
  injection g1 with g1 g3
  subst g1
  have hcu : u.c = s'.c := by
    simp only [BSt.ucs] at g3
    injection g3 with g3 _
    exact g3.symm
  have hrel : Out.Rel (fun a b => a.1 = b.1 ∧ UcsIter.Rel T R a.2 b.2) (do let it ← UcsIter.new C orig; yields (UcsIter.next C D go) calls it)
      (.ok (ys, s'.ucs)) := by
    rw [← h1, show yields (UcsIter.next (MapImpl.ideal 0) D go) calls (BSt.init usizeMax orig).ucs =
      (UcsIter.new (MapImpl.ideal 0) orig >>= fun it => yields (UcsIter.next (MapImpl.ideal 0) D go) calls it) from rfl]
    refine (UcsIter.rel_new hR ho).bind fun a b hab => ?_
    exact yields_rel (Q := UcsIter.Rel T R) (fun s t h => (UcsIter.rel_next hR hgo D h).mono fun a b h => ⟨h.1.1, h.2⟩) calls a b hab
  revert hrel
  generalize (do let it ← UcsIter.new C orig; yields (UcsIter.next C D go) calls it) = x
  intro hrel
  cases x with
  | ok x =>
    obtain ⟨items, st⟩ := x
    obtain ⟨e1, e2⟩ := hrel
    simp only at e1 e2
    subst e1
    have hget : ∀ q, InGrid T q → C.get st.cost q = .ok (s'.c q) := fun q hq => by rw [hR.get e2.1 hq]; rfl
    refine ⟨items, st, rfl, fun m hm => ?_, ?_, fun hlt q hq => ?_⟩
    · have hmem : m.1 ∈ items.map Prod.fst := List.mem_map_of_mem hm
      refine ⟨_, h2 _ hmem, ?_⟩
      rcases g2 with g2 | ⟨t, n, F, f, H, j⟩
      · rw [g2] at hm; cases hm
      · rw [← hcu, limit_eq]
        exact H.g.fin _ (j _ hmem)
    · have := hT.cells_eq
      rw [PosTy.allPositions_length] at h4
      rw [← this]
      exact_mod_cast h4
    · have hall := h5 hlt
      refine ⟨fun k hk hkl => ?_, fun hnot => ?_⟩
      · obtain ⟨ds, hds⟩ := hk.1
        have hmem := hall ds q k hds (by rw [← limit_eq]; exact hkl)
        refine ⟨hmem, ?_⟩
        rw [hget q hq, isMinCost_unique (h2 q hmem) hk]
      · rcases g2 with g2 | ⟨t, n, F, f, H, j⟩
        · have := hall [] orig 0 isCostPath_nil usizeMax_pos
          rw [g2] at this
          cases this
        · rw [hget q hq, ← hcu, limit_eq]
          have hle := H.g.c_le q
          by_contra hne
          have hlt' : u.c q < usizeMax := by
            have : u.c q ≠ usizeMax := fun h => hne (by rw [h])
            omega
          obtain ⟨ds, hds⟩ := H.g.walk q hlt'
          have hmem := hall ds q _ hds hlt'
          exact hnot ⟨_, h2 q hmem, by rw [← hcu, limit_eq]; exact hlt'⟩
  | panic => exact hrel.elim
  | ub => exact hrel.elim
  | timeout => exact hrel.elim

-- with diagonals: the iterator ends after six items, two of them the destination; (4,4) is out of reach
example : (do let it ← AstarIter.new (.hash 0) (1, 1)
              let (items, st) ← yields (AstarIter.next (PosTy.pos 4 4) (.hash 0) true (justSteps twoWays (PosTy.pos 4 4)) (3, 1)) 20 it
              let c ← (MapImpl.hash (0 : Int)).get st.cost (3, 1)
              let c' ← (MapImpl.hash (0 : Int)).get st.cost (4, 4)
              .ok (items, c, c')) =
    .ok ([((1, 1), .N), ((2, 1), .W), ((3, 2), .NW), ((3, 1), .S), ((2, 0), .SW), ((3, 1), .NW)], 2, limit) := by decide +kernel

-- the uniform-cost iterator ends as well; (1,0) is a wall
example : (do let it ← UcsIter.new (.hash 0) (0, 0)
              let (items, st) ← yields (UcsIter.next (.hash 0) false (stepCosts (PosTy.pos 2 1) [(1, 0)] swamp)) 9 it
              let c ← (MapImpl.hash (0 : Int)).get st.cost (2, 0)
              let c' ← (MapImpl.hash (0 : Int)).get st.cost (1, 0)
              .ok (items, c, c')) = .ok ([((0, 0), .N), ((0, 1), .N), ((1, 1), .W), ((2, 1), .W), ((2, 0), .S)], 8, limit) := by decide +kernel

end Sqrid
