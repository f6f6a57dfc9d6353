import Verif.Proofs.Scale
import Verif.Props.Ucs
import Verif.Props.Work
/-! C121: the unit in which the costs are given does not matter. -/

namespace Sqrid

open Spec

attribute [local instance] debug64

/-! ## C121 -/

/-- C121, `ucs_path`. With all the costs multiplied by `k` the search gives the same answer, step by step, if the sums of the larger costs fit. -/
theorem C121_path [Target] (T : PosTy) (hT : T.Searchable) (ucs ucs') (hucs : Ucs.IsSearch T ucs) (hucs' : Ucs.IsSearch T ucs') (D : Bool)
    (go : Int × Int → Dir → Option ((Int × Int) × Int)) (hgo : StaysIn T (dropCost go)) (hw : NonNeg go) (k : Int) (hk : 0 < k) (orig dest : Int × Int)
    (ho : InGrid T orig) (hd : InGrid T dest) (hb : BelowLimit (scaleCost k go) D orig) (fuel : Nat) :
    ucs' D (scaleCost k go) orig dest fuel = ucs D go orig dest fuel := by
  rw [hucs.eq hT hgo ho hd, hucs'.eq hT (by rw [dropCost_scale]; exact hgo) ho hd]
  unfold Ucs.searchPath
  rw [Ucs.searchMapmov_scale hk hw hb]

/-- C121, `UcsIterator`. The items are the same too. -/
theorem C121_iter [Target] (T : PosTy) (hT : T.IsGrid) (C C' : MapImpl Int) (hC : C.Is T 0) (hC' : C'.Is T 0) (D : Bool)
    (go : Int × Int → Dir → Option ((Int × Int) × Int)) (hgo : StaysIn T (dropCost go)) (hw : NonNeg go) (k : Int) (hk : 0 < k) (orig : Int × Int)
    (ho : InGrid T orig) (hb : BelowLimit (scaleCost k go) D orig) (n : Nat) :
    ∃ items st st', (do let it ← UcsIter.new C orig; yields (UcsIter.next C D go) n it) = .ok (items, st) ∧
      (do let it ← UcsIter.new C' orig; yields (UcsIter.next C' D (scaleCost k go)) n it) = .ok (items, st') := by
  obtain ⟨items, s, u, h1, h2⟩ := UcsIter.yields_scale (D := D) hk hw hb n
  have key : ∀ (C : MapImpl Int) (go : WGo) st, C.Is T 0 → StaysIn T (dropCost go) →
      yields (UcsIter.next (MapImpl.ideal 0) D go) n (BSt.init usizeMax orig).ucs = .ok (items, st) →
      ∃ st', (do let it ← UcsIter.new C orig; yields (UcsIter.next C D go) n it) = .ok (items, st') := by
    intro C go st hC hgo h
    obtain ⟨R, hR⟩ := MapImpl.sim_of_is hT hC
    have hrel : Out.Rel (fun a b => a.1 = b.1 ∧ UcsIter.Rel T R a.2 b.2) (do let it ← UcsIter.new C orig; yields (UcsIter.next C D go) n it)
        (.ok (items, st)) := by
      rw [← h, show yields (UcsIter.next (MapImpl.ideal 0) D go) n (BSt.init usizeMax orig).ucs =
        (UcsIter.new (MapImpl.ideal 0) orig >>= fun it => yields (UcsIter.next (MapImpl.ideal 0) D go) n it) from rfl]
      refine (UcsIter.rel_new hR ho).bind fun a b hab => ?_
      exact yields_rel (Q := UcsIter.Rel T R) (fun s t h => (UcsIter.rel_next hR hgo D h).mono fun a b h => ⟨h.1.1, h.2⟩) n a b hab
    revert hrel
    generalize (do let it ← UcsIter.new C orig; yields (UcsIter.next C D go) n it) = x
    intro hrel
    cases x with
    | ok x =>
      obtain ⟨is, st'⟩ := x
      obtain ⟨e, -⟩ := hrel
      simp only at e
      subst e
      exact ⟨st', rfl⟩
    | panic => exact hrel.elim
    | ub => exact hrel.elim
    | timeout => exact hrel.elim
  obtain ⟨st, e⟩ := key C go _ hC hgo h1
  obtain ⟨st', e'⟩ := key C' (scaleCost k go) _ hC' (by rw [dropCost_scale]; exact hgo) h2
  exact ⟨items, st, st', e, e'⟩

/-- C121. With the same cost for all the steps, which cost it is does not matter. -/
theorem C121_uniform [Target] (T : PosTy) (hT : T.Searchable) (ucs ucs') (hucs : Ucs.IsSearch T ucs) (hucs' : Ucs.IsSearch T ucs') (D : Bool)
    (go : Int × Int → Dir → Option (Int × Int)) (hgo : StaysIn T go) (k : Int) (hk : 0 < k) (hlim : k * (cols T * rows T) < limit) (orig dest : Int × Int)
    (ho : InGrid T orig) (hd : InGrid T dest) (fuel : Nat) :
    ucs' D (fun p d => (go p d).map fun q => (q, k)) orig dest fuel = ucs D (fun p d => (go p d).map fun q => (q, 1)) orig dest fuel := by
  have e : (fun p d => (go p d).map fun q => (q, k)) = scaleCost k (fun p d => (go p d).map fun q => (q, 1)) := by
    funext p d
    simp only [scaleCost, Option.map_map, Function.comp_def, Int.mul_one]
  have hgo' : ∀ k : Int, dropCost (fun p d => (go p d).map fun q => (q, k)) = go := by
    intro k
    funext p d
    simp only [dropCost, Option.map_map, Function.comp_def, Option.map_id']
  rw [e]
  refine C121_path T hT ucs ucs' hucs hucs' D _ (by rw [hgo']; exact hgo) ?_ k hk orig dest ho hd ?_ fuel
  · intro p d q w h
    simp only [Option.map_eq_some_iff, Prod.mk.injEq] at h
    obtain ⟨_, _, _, rfl⟩ := h
    omega
  · rw [← e]
    refine belowLimit_of_small (T := T) (by rw [hgo']; exact hgo) ho (Int.le_of_lt hk) (fun p d q w h => ?_) (by rw [hT.cells_eq]; exact hlim)
    simp only [Option.map_eq_some_iff, Prod.mk.injEq] at h
    obtain ⟨_, _, _, rfl⟩ := h
    omega

/-- C121. The factor must not be zero: the search then takes the first path it finds. -/
theorem C121_zero_differs [Target] :
    Ucs.pathHash (PosTy.pos 2 2) false (stepCosts (PosTy.pos 2 2) [] middleCost) (0, 0) (1, 1) 50 = .ok (.ok [.S, .S, .E, .N]) ∧
    Ucs.pathHash (PosTy.pos 2 2) false (scaleCost 0 (stepCosts (PosTy.pos 2 2) [] middleCost)) (0, 0) (1, 1) 50 = .ok (.ok [.E, .S]) := by
  decide_target

/-- C121. The sums must fit: with costs that are too large, a search in a build with overflow checks panics. -/
theorem C121_limit_matters [t : Target] (hc : t.checks = true) :
    Ucs.pathHash (PosTy.pos 2 2) false (stepCosts (PosTy.pos 2 2) [] fun _ _ => 1) (0, 0) (2, 0) 50 = .ok (.ok [.E, .E]) ∧
    Ucs.pathHash (PosTy.pos 2 2) false (scaleCost (limit - 1) (stepCosts (PosTy.pos 2 2) [] fun _ _ => 1)) (0, 0) (2, 0) 50 = .panic := by
  obtain ⟨c, w⟩ := t
  simp only at hc
  subst hc
  cases w <;> decide +kernel

example : (PosTy.pos 2 2).Searchable := PosTy.pos_searchable (by decide) (by decide) (.inl rfl)
example : StaysIn (PosTy.pos 2 2) (dropCost (stepCosts (PosTy.pos 2 2) [] middleCost)) := (stepCosts_adjacent _ _ _).staysIn
theorem middle_scaled : scaleCost 1000 (stepCosts (PosTy.pos 2 2) [] middleCost) = stepCosts (PosTy.pos 2 2) [] fun p d => 1000 * middleCost p d := by
  funext p d
  simp only [scaleCost, stepCosts, Option.map_map, Function.comp_def]
example : NonNeg (stepCosts (PosTy.pos 2 2) [] middleCost) := fun p d q w h => by
  simp only [stepCosts, Option.map_eq_some_iff, Prod.mk.injEq] at h
  obtain ⟨_, _, _, rfl⟩ := h
  exact (middleCost_bounds p d).1
example : BelowLimit (scaleCost 1000 (stepCosts (PosTy.pos 2 2) [] middleCost)) true (0, 0) := by
  rw [middle_scaled]
  exact stepCosts_below (PosTy.pos_searchable (by decide) (by decide) (.inl rfl)) _ _ (by decide) (B := 40000) (by decide)
    (fun p d => by have := (middleCost_bounds p d).2; omega) (by decide)
example : Ucs.pathHash (PosTy.pos 2 2) false (scaleCost 1000 (stepCosts (PosTy.pos 2 2) [] middleCost)) (0, 0) (1, 1) 50 = .ok (.ok [.S, .S, .E, .N]) := by
  decide +kernel
example : Ucs.pathHash (PosTy.pos 2 2) true (fun p d => (aroundWalls (PosTy.pos 2 2) [(1, 1)] p d).map fun q => (q, 7)) (0, 0) (2, 2) 50 =
    .ok (.ok [.E, .SE, .S]) := by decide +kernel

end Sqrid
