import Verif.Spec.Areas
import Verif.Props.Bf
import Verif.Props.SetMap
/-!
# The areas of a grid: C149

A program that starts a breadth-first traversal from each position that no traversal before has reached finds the areas of the grid.
-/

namespace Sqrid

-- Statements that do not mention a target are about a debug build for a 64-bit machine.
attribute [local instance] debug64

open Spec

theorem reachable_back {T : PosTy} {D : Bool} {go : GoFn} (hgo : StaysIn T go) {free : P2 → Prop} (hback : BackAndForth T D go free) {p q : P2} (hp : InGrid T p) (hf : free p)
    (h : Reachable go D p q) : InGrid T q ∧ free q ∧ Reachable go D q p := by
  obtain ⟨ds, hds⟩ := h
  induction ds using List.reverseRecOn generalizing q with
  | nil =>
    have := hds.2
    simp only [follow, Option.some.injEq] at this
    subst this
    exact ⟨hp, hf, [], isPath_nil⟩
  | append_singleton ds d ih =>
    obtain ⟨u, h1, h2, h6⟩ := isPath_concat hds
    obtain ⟨h3, h4, bs, h5⟩ := ih h1
    obtain ⟨h7, d', h8, h9⟩ := hback u d q h3 h4 h2 h6
    refine ⟨hgo u d q h3 h6, h7, [d'] ++ bs, isPath_append (q := u) ⟨by simpa using h8, by simp [follow, h9]⟩ h5⟩

theorem reachable_append {D : Bool} {go : GoFn} {p q r : P2} (h1 : Reachable go D p q) (h2 : Reachable go D q r) : Reachable go D p r := by
  obtain ⟨as, ha⟩ := h1
  obtain ⟨bs, hb⟩ := h2
  exact ⟨as ++ bs, isPath_append ha hb⟩

theorem SetImpl.inserts_sim {T : PosTy} {S : SetImpl} {R} (hR : S.Sim T R) (l : List P2) (hl : ∀ p ∈ l, InGrid T p) {s : S.σ} {f : P2 → Bool} (h : R s f) :
    ∃ s' f', l.foldlM S.insert s = .ok s' ∧ R s' f' ∧ ∀ p, f' p = true ↔ f p = true ∨ p ∈ l := by
  induction l generalizing s f with
  | nil => exact ⟨s, f, rfl, h, by simp⟩
  | cons p l ih =>
    obtain ⟨s1, h1, h2⟩ := hR.insert h (hl p (by simp))
    obtain ⟨s', f', h3, h4, h5⟩ := ih (fun q hq => hl q (by simp [hq])) h2
    refine ⟨s', f', by rw [List.foldlM_cons, h1]; exact h3, h4, fun q => ?_⟩
    rw [h5]
    unfold upd
    by_cases e : q = p
    · simp [e]
    · simp [e]

theorem areas_spec [Target] {T : PosTy} (hT : T.IsGrid) {S : SetImpl} {R} (hR : S.Sim T R) {iter} (hiter : Bf.IsIter T iter) {D : Bool} {go : GoFn}
    (hgo : Adjacent T go) {free : P2 → Prop} (hback : BackAndForth T D go free) {fuel : Nat} (hfuel : cols T * rows T < (fuel : Int)) (ps : List P2)
    (hps : ∀ p ∈ ps, InGrid T p ∧ free p) (s : S.σ) (f : P2 → Bool) (hs : R s f)
    (hclosed : ∀ p q, InGrid T p → free p → Reachable go D p q → f p = f q) :
    ∃ as, areas S (fun p => iter D go p fuel) ps s = .ok as ∧ as.flatten.Nodup ∧ (∀ q, q ∈ as.flatten ↔ f q = false ∧ ∃ p ∈ ps, Reachable go D p q) ∧
      ∀ p q, p ∈ as.flatten → ((∃ a ∈ as, p ∈ a ∧ q ∈ a) ↔ Reachable go D p q) := by
  induction ps generalizing s f with
  | nil => exact ⟨[], rfl, by simp, by simp, by simp⟩
  | cons p ps ih =>
    obtain ⟨hp, hfp⟩ := hps p (by simp)
    have hps' : ∀ p ∈ ps, InGrid T p ∧ free p := fun q hq => hps q (by simp [hq])
    unfold areas
    rw [hR.contains hs hp, Out.ok_bind]
    cases hc : f p with
    | true =>
      obtain ⟨as, h1, h2, h3, h4⟩ := ih hps' s f hs hclosed
      refine ⟨as, h1, h2, fun q => ?_, h4⟩
      rw [h3]
      refine and_congr_right fun hq => ⟨fun ⟨u, h5, h6⟩ => ⟨u, by simp [h5], h6⟩, ?_⟩
      rintro ⟨u, h5, h6⟩
      rcases List.mem_cons.1 h5 with rfl | h5
      · have := hclosed _ _ hp hfp h6
        rw [hc, hq] at this
        cases this
      · exact ⟨u, h5, h6⟩
    | false =>
      have hself : ∀ d, go p d ≠ some p := fun d hd => by
        have := (hgo p d p hp hd).2
        revert this
        unfold neighbour
        rw [Prod.ext_iff]
        cases d <;> simp [unit]
      obtain ⟨ls, h1, h2, h3, -⟩ := C50_visits_partial T hT iter hiter D go hgo.staysIn p hp hself fuel hfuel
      have hmem : ∀ q, q ∈ p :: ls.flatten.map Prod.fst ↔ Reachable go D p q := by
        intro q
        rw [List.mem_cons]
        constructor
        · rintro (rfl | hq)
          · exact ⟨[], isPath_nil⟩
          · obtain ⟨⟨q', d⟩, h4, rfl⟩ := List.mem_map.1 hq
            exact ((h2 q').1 ⟨d, h4⟩).1
        · intro hq
          by_cases e : q = p
          · exact .inl e
          · obtain ⟨d, h4⟩ := (h2 q).2 ⟨hq, e⟩
            exact .inr (List.mem_map.2 ⟨_, h4, rfl⟩)
      have hnodup : (p :: ls.flatten.map Prod.fst).Nodup := by
        refine List.nodup_cons.2 ⟨fun hq => ?_, h3⟩
        obtain ⟨⟨q', d⟩, h4, h5⟩ := List.mem_map.1 hq
        exact ((h2 q').1 ⟨d, h4⟩).2 h5
      simp only [Bool.false_eq_true, ↓reduceIte]
      rw [h1, Out.ok_bind]
      generalize hl : p :: ls.flatten.map Prod.fst = l at hmem hnodup ⊢
      obtain ⟨s', f', h4, h5, h6⟩ := SetImpl.inserts_sim hR l (fun q hq => (reachable_back hgo.staysIn hback hp hfp ((hmem q).1 hq)).1) hs
      have hclosed' : ∀ u v, InGrid T u → free u → Reachable go D u v → f' u = f' v := by
        intro u v hu hfu huv
        have e := hclosed u v hu hfu huv
        have h7 : u ∈ l ↔ v ∈ l := by
          rw [hmem, hmem]
          exact ⟨fun h => reachable_append h huv, fun h => reachable_append h (reachable_back hgo.staysIn hback hu hfu huv).2.2⟩
        rw [Bool.eq_iff_iff, h6, h6, e, h7]
      obtain ⟨as, h7, h8, h9, h10⟩ := ih hps' s' f' h5 hclosed'
      rw [h4, Out.ok_bind, h7, Out.ok_bind]
      have hdis : ∀ q, f' q = false ↔ f q = false ∧ q ∉ l := fun q => by
        rw [← Bool.not_eq_true, h6, not_or, Bool.not_eq_true]
      refine ⟨l :: as, rfl, ?_, fun q => ?_, fun u v hu => ?_⟩
      · rw [List.flatten_cons]
        refine List.nodup_append.2 ⟨hnodup, h8, fun u hu v hv => ?_⟩
        rintro rfl
        exact ((hdis _).1 ((h9 _).1 hv).1).2 hu
      · rw [List.flatten_cons, List.mem_append, h9, hdis, hmem]
        constructor
        · rintro (h | ⟨⟨h11, -⟩, u, h12, h13⟩)
          · exact ⟨(hclosed _ _ hp hfp h).symm.trans hc, p, by simp, h⟩
          · exact ⟨h11, u, by simp [h12], h13⟩
        · rintro ⟨h11, u, h12, h13⟩
          rcases List.mem_cons.1 h12 with rfl | h12
          · exact .inl h13
          · by_cases h14 : Reachable go D p q
            · exact .inl h14
            · exact .inr ⟨⟨h11, h14⟩, u, h12, h13⟩
      · rw [List.flatten_cons, List.mem_append] at hu
        by_cases hul : u ∈ l
        · have h11 := (hmem u).1 hul
          obtain ⟨h12, h13, h14⟩ := reachable_back hgo.staysIn hback hp hfp h11
          constructor
          · rintro ⟨a, ha, hua, hva⟩
            rcases List.mem_cons.1 ha with rfl | ha
            · exact reachable_append h14 ((hmem v).1 hva)
            · exact absurd hul ((hdis u).1 ((h9 u).1 (List.mem_flatten.2 ⟨a, ha, hua⟩)).1).2
          · intro huv
            exact ⟨l, by simp, hul, (hmem v).2 (reachable_append h11 huv)⟩
        · have hua := hu.resolve_left hul
          rw [← h10 u v hua]
          constructor
          · rintro ⟨a, ha, h11, h12⟩
            rcases List.mem_cons.1 ha with rfl | ha
            · exact absurd h11 hul
            · exact ⟨a, ha, h11, h12⟩
          · rintro ⟨a, ha, h11, h12⟩
            exact ⟨a, by simp [ha], h11, h12⟩

/-- C149. Where each step leads from a free position to a free position, and can be taken back: starting from free positions, the program finds lists in which every position that
can be reached occurs once; and two positions are in the same list exactly if one can be reached from the other. -/
theorem C149_areas [Target] (T : PosTy) (hT : T.IsGrid) (S : SetImpl) (hS : S.Is T) (iter) (hiter : Bf.IsIter T iter) (D : Bool)
    (go : Int × Int → Dir → Option (Int × Int)) (hgo : Adjacent T go) (free : Int × Int → Prop) (hback : BackAndForth T D go free)
    (fuel : Nat) (hfuel : cols T * rows T < (fuel : Int)) (ps : List (Int × Int)) (hps : ∀ p ∈ ps, InGrid T p ∧ free p) :
    ∃ as, areas S (fun p => iter D go p fuel) ps S.default = .ok as ∧ as.flatten.Nodup ∧ (∀ q, q ∈ as.flatten ↔ ∃ p ∈ ps, Reachable go D p q) ∧
      ∀ p q, p ∈ as.flatten → ((∃ a ∈ as, p ∈ a ∧ q ∈ a) ↔ Reachable go D p q) := by
  obtain ⟨R, hR⟩ := SetImpl.sim_of_is hT hS
  obtain ⟨as, h1, h2, h3, h4⟩ := areas_spec hT hR hiter hgo hback hfuel ps hps _ _ hR.default (fun _ _ _ _ _ => rfl)
  exact ⟨as, h1, h2, fun q => by rw [h3]; simp, h4⟩

/-- Around walls, from positions that are not walls, each step can be taken back. -/
theorem aroundWalls_backAndForth (T : PosTy) (D : Bool) (walls : List (Int × Int)) : BackAndForth T D (aroundWalls T walls) fun p => p ∉ walls := by
  intro p d q hp hfree hd hq
  unfold aroundWalls at hq
  split at hq
  · rename_i h
    injection hq with hq
    subst hq
    refine ⟨h.2, opposite d, by revert hd; cases d <;> simp [Allowed, unit, opposite], ?_⟩
    unfold aroundWalls
    rw [neighbour_opposite, if_pos ⟨hp, hfree⟩]
  · cases hq

/-- C149. In a grid with walls, starting from every position of `Pos::iter()` that is not a wall: every position that is not a wall is in exactly one list, once. -/
theorem C149_walls [Target] (T : PosTy) (hT : T.IsGrid) (S : SetImpl) (hS : S.Is T) (iter) (hiter : Bf.IsIter T iter) (D : Bool) (walls : List (Int × Int))
    (fuel : Nat) (hfuel : cols T * rows T < (fuel : Int)) :
    ∃ all as, collectWith (liftNext (PosIter.next T true)) fuel (PosIter.default T) = .ok all ∧
      areas S (fun p => iter D (aroundWalls T walls) p fuel) (all.filter fun p => p ∉ walls) S.default = .ok as ∧ as.flatten.Nodup ∧
      (∀ q, q ∈ as.flatten ↔ InGrid T q ∧ q ∉ walls) ∧ ∀ p q, InGrid T p → p ∉ walls → ((∃ a ∈ as, p ∈ a ∧ q ∈ a) ↔ Reachable (aroundWalls T walls) D p q) := by
  have hall := C09_iter_collect T hT.wf true fuel (by
    have : 0 < cols T * rows T := Int.mul_pos (by have := hT.wf.1.min_le_max; unfold cols; omega) (by have := hT.wf.2.min_le_max; unfold rows; omega)
    omega)
  have hmem := (C09_iter_each_once T hT.wf true).1
  have hgo := aroundWalls_adjacent T walls
  have hback := aroundWalls_backAndForth T D walls
  obtain ⟨as, h1, h2, h3, h4⟩ := C149_areas T hT S hS iter hiter D _ hgo _ hback fuel hfuel ((allPositions T true).filter fun p => p ∉ walls) (fun p hp => by
    simp only [List.mem_filter, decide_eq_true_eq] at hp
    exact ⟨(hmem p).1 hp.1, hp.2⟩)
  have h5 : ∀ q, q ∈ as.flatten ↔ InGrid T q ∧ q ∉ walls := by
    intro q
    rw [h3]
    constructor
    · rintro ⟨p, hp, hq⟩
      simp only [List.mem_filter, decide_eq_true_eq] at hp
      obtain ⟨h6, h7, -⟩ := reachable_back hgo.staysIn hback ((hmem p).1 hp.1) hp.2 hq
      exact ⟨h6, h7⟩
    · rintro ⟨h6, h7⟩
      exact ⟨q, by simp only [List.mem_filter, decide_eq_true_eq]; exact ⟨(hmem q).2 h6, h7⟩, [], isPath_nil⟩
  exact ⟨_, as, hall, h1, h2, h5, fun p q hp hw => h4 p q ((h5 p).2 ⟨hp, hw⟩)⟩

-- A grid of 3 x 3 with a wall from side to side: two areas.
example : areas (SetImpl.gridbool (PosTy.pos 2 2) 1) (fun p => Bf.iterGrid (PosTy.pos 2 2) 9 false (aroundWalls (PosTy.pos 2 2) [(1, 0), (1, 1), (1, 2)]) p 20)
    ((allPositions (PosTy.pos 2 2) true).filter fun p => p ∉ [(1, 0), (1, 1), (1, 2)]) (SetImpl.gridbool (PosTy.pos 2 2) 1).default =
      .ok [[(0, 0), (0, 1), (0, 2)], [(2, 0), (2, 1), (2, 2)]] := by decide +kernel
-- The condition is needed: if one cannot go back up a cliff, the position below is in two lists.
example : areas (SetImpl.gridbool (PosTy.pos 1 0) 1) (fun p => Bf.iterGrid (PosTy.pos 1 0) 2 false (fun p d => if d = .E then none else aroundWalls (PosTy.pos 1 0) [] p d) p 20)
    (allPositions (PosTy.pos 1 0) true) (SetImpl.gridbool (PosTy.pos 1 0) 1).default = .ok [[(0, 0)], [(1, 0), (0, 0)]] := by decide +kernel

end Sqrid
