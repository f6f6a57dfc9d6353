import Verif.Spec.Patrol
import Verif.Props.Ray
import Verif.Props.SetMap
/-!
# A guard who turns right before walls: C166
-/

namespace Sqrid

-- Statements that do not mention a target are about a debug build for a 64-bit machine.
attribute [local instance] debug64

open Spec

section
variable {T : PosTy} {wall : P2 → Bool}

theorem guardAfter_succ (s : P2 × Dir) (n : Nat) : guardAfter T wall s (n + 1) = (guardAfter T wall s n).bind fun s => guardAfter T wall s 1 := by
  rw [guardAfter]
  cases guardAfter T wall s n with
  | none => rfl
  | some s => simp only [guardAfter, Option.bind_some]

theorem guardAfter_add (s : P2 × Dir) (m n : Nat) : guardAfter T wall s (m + n) = (guardAfter T wall s m).bind fun s => guardAfter T wall s n := by
  induction n with
  | zero => cases guardAfter T wall s m <;> simp [guardAfter]
  | succ n ih =>
    rw [← Nat.add_assoc, guardAfter_succ, ih]
    cases guardAfter T wall s m with
    | none => rfl
    | some s => simp only [Option.bind_some]; rw [← guardAfter_succ]

theorem guardAfter_none {s : P2 × Dir} {m n : Nat} (h : guardAfter T wall s m = none) (hn : m ≤ n) : guardAfter T wall s n = none := by
  obtain ⟨k, rfl⟩ := Nat.le.dest hn
  rw [guardAfter_add, h]
  rfl

/-- The guard looks in one of four directions. -/
def four (d : Dir) : List Dir := [d, right d, right (right d), right (right (right d))]

theorem right_mem_four {d e : Dir} (h : e ∈ four d) : right e ∈ four d := by
  revert h
  cases d <;> cases e <;> decide

theorem guardAfter_mem {p : P2} {d : Dir} (hp : InGrid T p) (n : Nat) (q : P2) (e : Dir) (h : guardAfter T wall (p, d) n = some (q, e)) : InGrid T q ∧ e ∈ four d := by
  induction n generalizing q e with
  | zero =>
    simp only [guardAfter, Option.some.injEq, Prod.mk.injEq] at h
    obtain ⟨rfl, rfl⟩ := h
    exact ⟨hp, by simp [four]⟩
  | succ n ih =>
    unfold guardAfter at h
    cases h1 : guardAfter T wall (p, d) n with
    | none => rw [h1] at h; cases h
    | some s =>
      obtain ⟨q', e'⟩ := s
      obtain ⟨h2, h3⟩ := ih _ _ h1
      rw [h1] at h
      simp only at h
      split at h
      · rename_i h4
        split at h
        · injection h with h; injection h with a b; subst a; subst b
          exact ⟨h2, right_mem_four h3⟩
        · injection h with h; injection h with a b; subst a; subst b
          exact ⟨h4, h3⟩
      · cases h

/-- If the guard has not left after four steps for each position, the guard is somewhere for the second time, and never leaves. -/
theorem leaves_early {p : P2} {d : Dir} (hp : InGrid T p) (h : Leaves T wall (p, d)) : guardAfter T wall (p, d) (4 * (T.nx * T.ny)) = none := by
  by_contra hN
  have hsome : ∀ k ≤ 4 * (T.nx * T.ny), ∃ s, guardAfter T wall (p, d) k = some s := fun k hk => by
    cases h1 : guardAfter T wall (p, d) k with
    | none => exact absurd (guardAfter_none h1 hk) hN
    | some s => exact ⟨s, rfl⟩
  have hrep : ∃ i j, i < j ∧ j ≤ 4 * (T.nx * T.ny) ∧ guardAfter T wall (p, d) i = guardAfter T wall (p, d) j := by
    by_contra hno
    have hnd : ((List.range (4 * (T.nx * T.ny) + 1)).map (guardAfter T wall (p, d))).Nodup := by
      rw [List.Nodup, List.pairwise_map]
      refine List.pairwise_lt_range.imp_of_mem fun {a b} ha hb hab he => hno ⟨a, b, hab, ?_, he⟩
      have := List.mem_range.1 hb
      omega
    have hsub : (List.range (4 * (T.nx * T.ny) + 1)).map (guardAfter T wall (p, d)) ⊆ ((allPositions T true).flatMap fun q => (four d).map fun e => some (q, e)) := by
      intro x hx
      obtain ⟨k, hk, rfl⟩ := List.mem_map.1 hx
      obtain ⟨⟨q, e⟩, hs⟩ := hsome k (by have := List.mem_range.1 hk; omega)
      obtain ⟨h1, h2⟩ := guardAfter_mem hp k q e hs
      rw [hs]
      simp only [List.mem_flatMap, List.mem_map]
      exact ⟨q, PosTy.mem_allPositions.2 h1, e, h2, rfl⟩
    have hlen := (List.subperm_of_subset hnd hsub).length_le
    rw [List.length_map, List.length_range, List.length_flatMap] at hlen
    simp only [List.length_map, four, List.length_cons, List.length_nil, List.map_const', PosTy.allPositions_length, List.sum_replicate_nat] at hlen
    omega
  obtain ⟨i, j, hij, hj, he⟩ := hrep
  -- From then on everything repeats.
  have hall : ∀ k, guardAfter T wall (p, d) k ≠ none := by
    intro k
    induction k using Nat.strongRecOn with
    | ind k ih =>
      by_cases hk : k ≤ j
      · obtain ⟨s, hs⟩ := hsome k (by omega)
        rw [hs]
        simp
      · obtain ⟨m, rfl⟩ := Nat.le.dest (show j ≤ k by omega)
        rw [guardAfter_add, ← he, ← guardAfter_add]
        exact ih (i + m) (by omega)
  obtain ⟨n, hn⟩ := h
  exact hall n hn

theorem patrolStep_eq (hT : T.WF) {p : P2} (hp : InGrid T p) (d : Dir) : patrolStep T wall (p, d) = .ok (guardAfter T wall (p, d) 1) := by
  have hr : d.rotate .E = .ok (right d) := by cases d <;> rfl
  rw [patrolStep]
  simp only [guardAfter]
  rcases addDir_cases hT hp d with ⟨h1, h2⟩ | ⟨⟨e, h1⟩, h2⟩
  · unfold InGrid at h2
    rw [h1, if_pos h2]
    simp only [hr, Out.ok_bind]
    split <;> rfl
  · unfold InGrid at h2
    rw [h1, if_neg h2]

theorem patrol_spec (hT : T.WF) {S : SetImpl} {R} (hR : S.Sim T R) (n : Nat) (p : P2) (d : Dir) (hp : InGrid T p) (seen : S.σ) (f : P2 → Bool) (h : R seen f) :
    (guardAfter T wall (p, d) n ≠ none → patrol T S wall n (p, d) seen = .ok none) ∧
    (guardAfter T wall (p, d) n = none → ∃ seen' f', patrol T S wall n (p, d) seen = .ok (some seen') ∧ R seen' f' ∧
      ∀ q, f' q = true ↔ f q = true ∨ ComesTo T wall (p, d) q) := by
  induction n generalizing p d seen f with
  | zero =>
    refine ⟨fun _ => rfl, fun h => ?_⟩
    simp [guardAfter] at h
  | succ n ih =>
    obtain ⟨seen1, h1, h2⟩ := hR.insert h hp
    have h3 : guardAfter T wall (p, d) (n + 1) = (guardAfter T wall (p, d) 1).bind fun s => guardAfter T wall s n := by rw [Nat.add_comm, guardAfter_add]
    rw [h3]
    have hu : ∀ q, upd f p true q = true ↔ f q = true ∨ q = p := fun q => by
      unfold upd
      split
      · rename_i hq; simp [hq]
      · rename_i hq; simp [hq]
    cases hs : guardAfter T wall (p, d) 1 with
    | none =>
      refine ⟨fun hc => absurd rfl hc, fun _ => ⟨seen1, _, by rw [patrol, h1, Out.ok_bind, patrolStep_eq hT hp, Out.ok_bind, hs], h2, fun q => ?_⟩⟩
      rw [hu]
      refine or_congr_right ⟨?_, ?_⟩
      · rintro rfl
        exact ⟨0, d, rfl⟩
      · rintro ⟨k, e, hk⟩
        cases k with
        | zero =>
          simp only [guardAfter, Option.some.injEq, Prod.mk.injEq] at hk
          exact hk.1.symm
        | succ k =>
          rw [guardAfter_none hs (Nat.succ_le_succ (Nat.zero_le k))] at hk
          cases hk
    | some s =>
      obtain ⟨p', d'⟩ := s
      obtain ⟨h4, h5⟩ := ih p' d' (guardAfter_mem hp 1 _ _ hs).1 seen1 _ h2
      have hrun : patrol T S wall (n + 1) (p, d) seen = patrol T S wall n (p', d') seen1 := by rw [patrol, h1, Out.ok_bind, patrolStep_eq hT hp, Out.ok_bind, hs]
      rw [hrun, Option.bind_some]
      refine ⟨h4, fun hc => ?_⟩
      obtain ⟨seen', f', h6, h7, h8⟩ := h5 hc
      refine ⟨seen', f', h6, h7, fun q => ?_⟩
      rw [h8, hu, or_assoc]
      refine or_congr_right ⟨?_, ?_⟩
      · rintro (rfl | ⟨k, e, hk⟩)
        · exact ⟨0, d, rfl⟩
        · exact ⟨1 + k, e, by rw [guardAfter_add, hs, Option.bind_some, hk]⟩
      · rintro ⟨k, e, hk⟩
        cases k with
        | zero =>
          simp only [guardAfter, Option.some.injEq, Prod.mk.injEq] at hk
          exact .inl hk.1.symm
        | succ k =>
          rw [Nat.add_comm, guardAfter_add, hs, Option.bind_some] at hk
          exact .inr ⟨k, e, hk⟩

end

/-- C166. Four steps for each position of the grid tell whether the guard ever leaves: if so, the set has exactly the positions that the guard comes to, and if there is no set the guard
never leaves. -/
theorem C166_patrol [Target] (T : PosTy) (hT : T.IsGrid) (S : SetImpl) (hS : S.Is T) (wall : Int × Int → Bool) (p : Int × Int) (hp : InGrid T p) (d : Dir) (n : Nat)
    (hn : 4 * (cols T * rows T) ≤ (n : Int)) :
    (¬ Leaves T wall (p, d) → patrol T S wall n (p, d) S.default = .ok none) ∧
    (Leaves T wall (p, d) → ∃ seen, patrol T S wall n (p, d) S.default = .ok (some seen) ∧
      ∀ q, InGrid T q → (S.contains seen q = .ok true ↔ ComesTo T wall (p, d) q)) := by
  obtain ⟨R, hR⟩ := SetImpl.sim_of_is hT hS
  obtain ⟨h1, h2⟩ := patrol_spec (wall := wall) hT.wf hR n p d hp S.default _ hR.default
  refine ⟨fun h => h1 fun hc => h ⟨n, hc⟩, fun h => ?_⟩
  have hc := hT.cells_eq
  obtain ⟨seen, f, h3, h4, h5⟩ := h2 (guardAfter_none (leaves_early hp h) (by omega))
  refine ⟨seen, h3, fun q hq => ?_⟩
  rw [hR.contains h4 hq, Out.ok.injEq, h5]
  simp

/-- C166. One more wall changes what the guard does only if it stands where the guard would come to. So if it keeps a guard in the grid who would leave, it is one of the positions of the set. -/
theorem C166_obstruct [Target] (T : PosTy) (hT : T.IsGrid) (S : SetImpl) (hS : S.Is T) (wall : Int × Int → Bool) (p : Int × Int) (hp : InGrid T p) (d : Dir) (n : Nat)
    (hn : 4 * (cols T * rows T) ≤ (n : Int)) (w : Int × Int) (hw : InGrid T w) (hl : Leaves T wall (p, d))
    (hk : ¬ Leaves T (fun q => wall q || q == w) (p, d)) :
    ∃ seen, patrol T S wall n (p, d) S.default = .ok (some seen) ∧ S.contains seen w = .ok true := by
  obtain ⟨seen, h1, h2⟩ := (C166_patrol T hT S hS wall p hp d n hn).2 hl
  refine ⟨seen, h1, (h2 w hw).2 ?_⟩
  by_contra hc
  apply hk
  obtain ⟨k, hk⟩ := hl
  refine ⟨k, ?_⟩
  have : ∀ k, guardAfter T (fun q => wall q || q == w) (p, d) k = guardAfter T wall (p, d) k := by
    intro k
    induction k with
    | zero => rfl
    | succ k ih =>
      have hne := fun e (h : guardAfter T wall (p, d) (k + 1) = some (w, e)) => hc ⟨k + 1, e, h⟩
      unfold guardAfter at hne ⊢
      rw [ih]
      cases hs : guardAfter T wall (p, d) k with
      | none => rfl
      | some s =>
        obtain ⟨q, e⟩ := s
        rw [hs] at hne
        simp only at hne ⊢
        split
        · rename_i hin
          rw [if_pos hin] at hne
          by_cases hq : neighbour q e = w
          · have hwall : wall (neighbour q e) = true := by
              cases hb : wall (neighbour q e) with
              | true => rfl
              | false => exact absurd (by rw [hb, hq]; rfl) (hne e)
            rw [hwall]
            rfl
          · have : (neighbour q e == w) = false := by simpa using hq
            rw [this, Bool.or_false]
        · rfl
  rw [this, hk]

-- A guard in a grid of 3 by 3, who looks north and turns once.
example : (do
    let r ← patrol (PosTy.pos 2 2) .btree (fun q => q == (1, 0)) 36 ((1, 2), .N) SetImpl.btree.default
    match r with
    | none => .ok []
    | some seen => [(1, 2), (1, 1), (2, 1), (1, 0), (2, 2)].mapM fun q => SetImpl.btree.contains seen q) = .ok [true, true, true, false, false] := by decide +kernel
-- Four walls keep a guard going in a circle, and three of them do not; the fourth is where the guard would come to.
example : (patrol (PosTy.pos 3 3) .btree (fun q => decide (q ∈ [((1 : Int), (0 : Int)), (3, 1), (2, 3), (0, 2)])) 64 ((1, 2), .N) SetImpl.btree.default >>= fun r => .ok r.isSome) =
      .ok false ∧
    (patrol (PosTy.pos 3 3) .btree (fun q => decide (q ∈ [((1 : Int), (0 : Int)), (3, 1), (2, 3)])) 64 ((1, 2), .N) SetImpl.btree.default >>= fun r =>
      match r with
      | none => .ok false
      | some seen => SetImpl.btree.contains seen (0, 2)) = .ok true := by decide +kernel

end Sqrid
