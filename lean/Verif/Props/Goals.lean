import Verif.Props.AllPaths
import Verif.Spec.Goals
/-!
# The cheapest of several goals, with the uniform-cost iterator: C151
-/

namespace Sqrid

-- Statements that do not mention a target are about a debug build for a 64-bit machine.
attribute [local instance] debug64

open Spec

/-- The loop, from the items. -/
theorem firstGoal_yields {σ : Type} {next : σ → Out (Option (P2 × Dir) × σ)} {T : PosTy} {M : MapImpl (Option Dir)} {R} (hM : M.Sim T none R)
    (found : P2 → Bool) (k : Nat) : ∀ {it st : σ} {zs done : List (P2 × Dir)} {s : M.σ}, yields next k it = .ok (zs, st) → zs.length < k →
    (∀ m ∈ zs, InGrid T m.1) → R s (firstDir done) →
    ((∀ m ∈ zs, found m.1 = false) ∧ firstGoal next M found k it s = .ok none) ∨
    (∃ pre m post s', zs = pre ++ m :: post ∧ found m.1 = true ∧ (∀ m ∈ pre, found m.1 = false) ∧ R s' (firstDir (done ++ pre ++ [m])) ∧
      firstGoal next M found k it s = .ok (some (m.1, s'))) := by
  induction k with
  | zero => intro it st zs done s _ hlt; exact absurd hlt (Nat.not_lt_zero _)
  | succ k ih =>
    intro it st zs done s hy hlt hin hr
    unfold yields at hy
    obtain ⟨⟨o, it'⟩, h1, hy⟩ := Out.bind_ok hy
    unfold firstGoal
    rw [h1, Out.ok_bind]
    cases o with
    | none =>
      injection hy with hy
      injection hy with hy _
      subst hy
      exact .inl ⟨by simp, rfl⟩
    | some m =>
      obtain ⟨⟨l, st'⟩, h2, hy⟩ := Out.bind_ok hy
      injection hy with hy
      injection hy with hy _
      subst hy
      obtain ⟨s1, h3, h4⟩ := keepFirst_step hM (hin m (by simp)) hr
      obtain ⟨pos, dir⟩ := m
      simp only at h3 ⊢
      rw [h3, Out.ok_bind]
      by_cases hf : found pos = true
      · rw [if_pos hf]
        exact .inr ⟨[], (pos, dir), l, s1, rfl, hf, by simp, by simpa using h4, rfl⟩
      · rw [if_neg hf]
        rcases ih h2 (by simpa using hlt) (fun x hx => hin x (List.mem_cons_of_mem _ hx)) h4 with ⟨a1, a2⟩ | ⟨pre, m, post, s', a1, a2, a3, a4, a5⟩
        · refine .inl ⟨fun x hx => ?_, a2⟩
          rcases List.mem_cons.1 hx with rfl | hx
          · simpa using hf
          · exact a1 x hx
        · refine .inr ⟨(pos, dir) :: pre, m, post, s', by rw [a1]; rfl, a2, fun x hx => ?_, by simpa using a4, a5⟩
          rcases List.mem_cons.1 hx with rfl | hx
          · simpa using hf
          · exact a3 x hx

/-- Where a position comes first. -/
theorem first_split {l : List (P2 × Dir)} {q : P2} (h : q ∈ l.map Prod.fst) :
    ∃ before x after, l = before ++ x :: after ∧ x.1 = q ∧ q ∉ before.map Prod.fst := by
  induction l with
  | nil => cases h
  | cons m l ih =>
    by_cases hm : m.1 = q
    · exact ⟨[], m, l, rfl, hm, by simp⟩
    · rw [List.map_cons, List.mem_cons] at h
      obtain ⟨before, x, after, h1, h2, h3⟩ := ih (h.resolve_left (Ne.symm hm))
      refine ⟨m :: before, x, after, by rw [h1]; rfl, h2, ?_⟩
      rw [List.map_cons, List.mem_cons]
      rintro (h | h)
      · exact hm h.symm
      · exact h3 h

/-- C151. If no goal can be reached for less than the limit (`usize::MAX`), the program reports that. Otherwise it returns one of the goals that can be reached for the least
cost, and a cheapest path to it; or an error, if that path is longer than the bound of C48. This holds for all costs whose sums fit. -/
theorem C151_cheapest_goal [Target] (T : PosTy) (hT : T.Searchable) (C : MapImpl Int) (hC : C.Is T 0) (M : MapImpl (Option Dir)) (hM : M.Is T none) (D : Bool)
    (go : Int × Int → Dir → Option ((Int × Int) × Int)) (hgo : Adjacent T (dropCost go)) (hc : UsizeCosts go) (orig : Int × Int) (ho : InGrid T orig)
    (hno : NoOverflow go D orig) (found : Int × Int → Bool) (calls : Nat) (hcalls : 8 * (cols T * rows T) + 1 < (calls : Int)) :
    ((∀ q n, found q = true → IsMinCost go D orig q n → limit ≤ n) ∧ ucsGoal T M C D go orig found calls = .ok (.error .destinationUnreachable)) ∨
    (∃ dest n path, found dest = true ∧ IsMinCost go D orig dest n ∧ n < limit ∧ (∀ q m, found q = true → IsMinCost go D orig q m → n ≤ m) ∧
      IsCostPath go D orig path dest n ∧
      ucsGoal T M C D go orig found calls = .ok (if (path.length : Int) ≤ cols T * cols T then .ok (dest, path) else .error .loop)) := by
  have hw := hc.nonNeg
  have hG := cost_inGrid (D := D) hgo.staysIn ho
  obtain ⟨R, hR⟩ := MapImpl.sim_of_is hT.toIsGrid hM
  obtain ⟨items, st, s, h1, h2, -⟩ := UcsIter.yields_inv hT hC hgo.staysIn hc ho hno (WInv.tracked hgo hG) (WInv.init hw hgo ho) calls
  obtain ⟨items', st', h1', hmin, hlen, hdone⟩ := C129_ucs T hT C hC D go hgo.staysIn hc orig ho hno calls
  have e := h1.symm.trans h1'
  injection e with e
  injection e with e _
  subst e
  obtain ⟨items', st'', h1'', -, hord⟩ := C64_cost_order T hT C hC D go hgo.staysIn hc orig ho hno calls
  have e := h1.symm.trans h1''
  injection e with e
  injection e with e _
  subst e
  have hlt : items.length < calls := by omega
  have hin : ∀ m ∈ items, InGrid T m.1 := by
    intro m hm
    obtain ⟨k, ⟨⟨ds, hds⟩, -⟩, -⟩ := hmin m hm
    exact hG _ _ _ hds
  have hall : ∀ q n, IsMinCost go D orig q n → n < limit → q ∈ items.map Prod.fst := by
    intro q n hn hl
    obtain ⟨⟨ds, hds⟩, -⟩ := id hn
    exact ((hdone hlt q (hG _ _ _ hds)).1 n hn hl).1
  obtain ⟨it, hnew, hy⟩ := Out.bind_ok h1
  unfold ucsGoal
  rw [hnew, Out.ok_bind]
  have hfd : firstDir [] = fun _ => none := rfl
  rcases firstGoal_yields hR found calls (done := []) hy hlt hin (by rw [hfd]; exact hR.default) with ⟨a1, a2⟩ | ⟨pre, m, post, s', a1, a2, a3, a4, a5⟩
  · left
    rw [a2]
    refine ⟨fun q n hq hn => ?_, rfl⟩
    by_contra hl
    obtain ⟨x, hx, rfl⟩ := List.mem_map.1 (hall q n hn (by omega))
    rw [a1 x hx] at hq
    cases hq
  · right
    rw [a5]
    obtain ⟨path, n, b1, b2, b3, b4⟩ := UcsIter.way_of_prefix hT hgo hc ho hno h2 a1 (Nat.le_of_lt hlt)
    have hmi : InGrid T m.1 := hin m (by rw [a1]; simp)
    refine ⟨m.1, n, path, a2, b2, b3, fun q k hq hk => ?_, b4, ?_⟩
    · by_contra hkn
      have hqm : q ≠ m.1 := by
        rintro rfl
        have := isMinCost_unique hk b2
        omega
      obtain ⟨before, x, after, c1, c2, c3⟩ := first_split (hall q k hk (by omega))
      have hmb : m ∈ before := by
        have c4 := a1.symm.trans c1
        rcases List.append_eq_append_iff.1 c4 with ⟨as, d1, d2⟩ | ⟨as, d1, d2⟩
        · cases as with
          | nil =>
            simp at d2
            exact absurd (by rw [← c2, d2.1]) hqm
          | cons a as =>
            simp at d2
            rw [d1, d2.1]
            simp
        · cases as with
          | nil =>
            simp at d2
            exact absurd (by rw [← c2, d2.1]) hqm
          | cons a as =>
            simp at d2
            have := a3 x (by rw [d1, d2.1]; simp)
            rw [c2, hq] at this
            cases this
      have := hord before x after c1 (by rw [c2]; exact c3) m hmb n k b2 (by rw [c2]; exact hk)
      omega
    · rw [Out.ok_bind]
      simp only
      rw [List.nil_append] at a4
      have hf : firstDir (pre ++ [m]) m.1 ≠ none := by
        rw [firstDir_new fun x hx he => by
          have := a3 x hx
          rw [he, a2] at this
          cases this]
        simp
      rw [camefrom_ideal hR a4 hT.wf hmi, camefrom_arrives_out hT.wf hmi hf b1, wayOut_searchable hT ho hmi, cols_sq hT.toIsGrid, Out.ok_bind]
      simp only [Int.ofNat_le]
      split <;> rfl

-- Two goals, and costs for which the search takes the way around: the goal (0, 1) is next to the origin, but (1, 1) is cheaper.
example : ucsGoal (PosTy.pos 1 1) (.hash none) (.hash 0) false (stepCosts (PosTy.pos 1 1) [] southCost) (0, 0) (fun p => p == (0, 1) || p == (1, 1)) 60 =
    .ok (.ok ((1, 1), [.E, .S])) := by decide +kernel
example : ucsGoal (PosTy.pos 1 1) (.hash none) (.hash 0) false (stepCosts (PosTy.pos 1 1) [] southCost) (0, 0) (fun p => p == (0, 1)) 60 =
    .ok (.ok ((0, 1), [.E, .S, .W])) := by decide +kernel
example : ucsGoal (PosTy.pos 1 1) (.hash none) (.hash 0) false (stepCosts (PosTy.pos 1 1) [] southCost) (0, 0) (fun p => p == (2, 1)) 60 =
    .ok (.error .destinationUnreachable) := by decide +kernel
example : Adjacent (PosTy.pos 1 1) (dropCost (stepCosts (PosTy.pos 1 1) [] southCost)) := stepCosts_adjacent _ _ _

-- The hypotheses are met in a grid with a wall.
example (found : Int × Int → Bool) :
    let go := unitCost (aroundWalls (PosTy.pos 2 2) [(1, 0)])
    ((∀ q n, found q = true → IsMinCost go false (0, 0) q n → limit ≤ n) ∧
      ucsGoal (PosTy.pos 2 2) (.hash none) (.hash 0) false go (0, 0) found 100 = .ok (.error .destinationUnreachable)) ∨
    (∃ dest n path, found dest = true ∧ IsMinCost go false (0, 0) dest n ∧ n < limit ∧ (∀ q m, found q = true → IsMinCost go false (0, 0) q m → n ≤ m) ∧
      IsCostPath go false (0, 0) path dest n ∧ ucsGoal (PosTy.pos 2 2) (.hash none) (.hash 0) false go (0, 0) found 100 =
        .ok (if (path.length : Int) ≤ cols (PosTy.pos 2 2) * cols (PosTy.pos 2 2) then .ok (dest, path) else .error .loop)) := by
  have hT : (PosTy.pos 2 2).Searchable := PosTy.pos_searchable (by decide) (by decide) (.inl rfl)
  have hgo : Adjacent (PosTy.pos 2 2) (aroundWalls (PosTy.pos 2 2) [(1, 0)]) := aroundWalls_adjacent _ _
  have ho : InGrid (PosTy.pos 2 2) (0, 0) := by unfold InGrid; decide
  exact C151_cheapest_goal (PosTy.pos 2 2) hT _ (.inr (.inl rfl)) _ (.inr (.inl rfl)) false _ (unitCost_adjacent hgo) (unitCost_usize _) (0, 0) ho
    (unitCost_below hT hgo ho).noOverflow found 100 (by decide)

end Sqrid
