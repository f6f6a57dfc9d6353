import Verif.Proofs.Greedy
import Verif.Props.Tight
/-!
# The path that the uniform-cost search returns, told backwards: C140

If the costs are positive and depend only on the position that is entered, then the returned path is known: from the destination one goes back, each time to the neighbour
that is the cheapest to reach, and to the greatest of them if there are several.
-/

namespace Sqrid

-- Statements that do not mention a target are about a debug build for a 64-bit machine.
attribute [local instance] debug64

open Spec

theorem isCostPath_split {go : WGo} {D : Bool} {p r : P2} {as bs : List Dir} {n : Int} (h : IsCostPath go D p (as ++ bs) r n) :
    ∃ q a b, IsCostPath go D p as q a ∧ IsCostPath go D q bs r b ∧ n = a + b := by
  induction bs using List.reverseRecOn generalizing r n with
  | nil => exact ⟨r, n, 0, by simpa using h, isCostPath_nil, by omega⟩
  | append_singleton bs d ih =>
    rw [← List.append_assoc] at h
    obtain ⟨q, m, w, h1, h2, h3, h4⟩ := isCostPath_concat h
    obtain ⟨u, a, b, h5, h6, h7⟩ := ih h1
    exact ⟨u, a, b + w, h5, isCostPath_snoc h6 h2 h3, by omega⟩

/-- The start of a cheapest path is a cheapest path. -/
theorem isCostPath_start {go : WGo} {D : Bool} {p r : P2} {as bs : List Dir} {n : Int} (h : IsCostPath go D p (as ++ bs) r n) (hn : IsMinCost go D p r n) :
    ∃ q a, IsCostPath go D p as q a ∧ IsMinCost go D p q a := by
  obtain ⟨q, a, b, h1, h2, rfl⟩ := isCostPath_split h
  refine ⟨q, a, h1, ⟨as, h1⟩, fun ds m hds => ?_⟩
  have := hn.2 _ _ (isCostPath_append hds h2)
  omega

/-- With positive costs, a path that costs nothing has no steps. -/
theorem isCostPath_pos {go : WGo} {D : Bool} {p q : P2} {ds : List Dir} {n : Int} (hpos : ∀ p d q w, go p d = some (q, w) → 0 < w) (h : IsCostPath go D p ds q n)
    (hds : ds ≠ []) : 0 < n := by
  rcases List.eq_nil_or_concat ds with rfl | ⟨ds, d, rfl⟩
  · exact absurd rfl hds
  · obtain ⟨u, m, w, h1, -, h3, h4⟩ := isCostPath_concat (by simpa using h)
    have := isCostPath_nonneg (fun p d q w h => Int.le_of_lt (hpos p d q w h)) h1
    have := hpos _ _ _ _ h3
    omega

/-- The core of the next theorem: the way back of the map of a search. -/
theorem Ucs.arrives_back [Target] {T : PosTy} {go : WGo} {D : Bool} (hgo : Adjacent T (dropCost go)) (hc : UsizeCosts go) (henter : EnterCost go)
    (hpos : ∀ p d q w, go p d = some (q, w) → 0 < w) {orig dest : P2} (ho : InGrid T orig) {fuel : Nat} {f : P2 → Option Dir}
    (hm : BSt.search go (fun _ => 0) D dest fuel (BSt.init usizeMax orig) (fun _ => none) = .ok (.ok f))
    {as : List Dir} {d : Dir} {bs : List Dir} (ha : Arrives T f orig dest (as ++ d :: bs)) {n : Int} (hn : IsCostPath go D orig (as ++ d :: bs) dest n)
    (hn' : IsMinCost go D orig dest n) {q r : P2} (hq : follow (dropCost go) orig as = some q) (hqr : dropCost go q d = some r) {k : Int} (hk : IsMinCost go D orig q k)
    {q' : P2} {d' : Dir} (hd' : Allowed D d') (hq' : dropCost go q' d' = some r) {k' : Int} (hk' : IsMinCost go D orig q' k') :
    k < k' ∨ k = k' ∧ (q' = q ∨ q'.1 < q.1 ∨ q'.1 = q.1 ∧ q'.2 < q.2) := by
  obtain ⟨q2, a, h1, h2⟩ := isCostPath_start hn hn'
  have e1 : q2 = q := by
    have := h1.1.2
    rw [hq] at this
    injection this with this
    exact this.symm
  subst e1
  have e2 := isMinCost_unique hk h2
  subst e2
  rw [show as ++ d :: bs = (as ++ [d]) ++ bs by simp] at hn
  obtain ⟨r2, b, h3, h4⟩ := isCostPath_start hn hn'
  obtain ⟨q3, m, w, h5, h6, h7, h8⟩ := isCostPath_concat h3
  obtain ⟨rfl, rfl⟩ := isCostPath_fun h1 h5
  have e3 : r2 = r := by
    simp only [dropCost, h7, Option.map_some, Option.some.injEq] at hqr
    exact hqr
  subst e3
  obtain ⟨⟨r3, w'⟩, h9, rfl⟩ := Option.map_eq_some_iff.1 hq'
  have e4 := henter _ _ _ _ _ _ _ h7 h9
  subst e4
  obtain ⟨ds, hds⟩ := hk'.1
  have h10 := h4.2 _ _ (isCostPath_snoc hds hd' h9)
  by_contra hno
  have e5 : k = k' := by omega
  subst e5
  have hne : q' ≠ q2 := by
    rintro rfl
    exact hno (.inr ⟨rfl, .inl rfl⟩)
  have hord : q2.1 < q'.1 ∨ q2.1 = q'.1 ∧ q2.2 < q'.2 := by
    by_contra hno'
    refine hno (.inr ⟨rfl, .inr ?_⟩)
    by_contra hno2
    exact hne (Prod.ext (by omega) (by omega))
  have hq0 : orig ≠ q2 := by
    rintro rfl
    have hk0 := isMinCost_unique hk (isMinCost_self hc.nonNeg)
    subst hk0
    have : ds = [] := by
      by_contra hds'
      have := isCostPath_pos hpos hds hds'
      omega
    subst this
    have := hds.1.2
    simp only [follow, Option.some.injEq] at this
    exact hne this.symm
  refine Ucs.not_from hgo hc ho hm ha hq h7 hk hq0 (fun ds _ => ⟨0, rfl⟩) (isMinCost_self hc.nonNeg) hne hds
    (fun i p j hi1 hi2 hp => ?_) hd' h9 (by rw [Int.zero_add, ← h8]; exact h4) rfl
  rw [Int.zero_add]
  by_cases hi : i = ds.length
  · subst hi
    rw [List.take_length] at hp
    obtain ⟨rfl, rfl⟩ := isCostPath_fun hp hds
    exact .inr ⟨rfl, hord⟩
  · refine .inl ?_
    rw [← List.take_append_drop i ds] at hds
    obtain ⟨u, a, b, h11, h12, h13⟩ := isCostPath_split hds
    obtain ⟨rfl, rfl⟩ := isCostPath_fun hp h11
    have := isCostPath_pos hpos h12 (by
      intro hnil
      have := congrArg List.length hnil
      simp at this
      omega)
    omega

/-- C140. With positive costs that depend only on the position that is entered: each step of the path that the uniform-cost search returns comes from the cheapest of the
neighbours that lead there, and if several are cheapest then from the greatest of them. -/
theorem C140_ucs_back [Target] (T : PosTy) (hT : T.Searchable) (ucs) (hucs : Ucs.IsSearch T ucs) (D : Bool)
    (go : Int × Int → Dir → Option ((Int × Int) × Int)) (hgo : Adjacent T (dropCost go)) (hc : UsizeCosts go) (henter : EnterCost go)
    (hpos : ∀ p d q w, go p d = some (q, w) → 0 < w) (orig dest : Int × Int)
    (hov : Target.checks = true ∨ NoOverflow go D orig) (ho : InGrid T orig) (hd : InGrid T dest) (fuel : Nat)
    (as : List Dir) (d : Dir) (bs : List Dir) (h : ucs D go orig dest fuel = .ok (.ok (as ++ d :: bs)))
    (q r : Int × Int) (hq : follow (dropCost go) orig as = some q) (hqr : dropCost go q d = some r) (k : Int) (hk : IsMinCost go D orig q k)
    (q' : Int × Int) (d' : Dir) (hd' : Allowed D d') (hq' : dropCost go q' d' = some r) (k' : Int) (hk' : IsMinCost go D orig q' k') :
    k < k' ∨ k = k' ∧ (q' = q ∨ q'.1 < q.1 ∨ q'.1 = q.1 ∧ q'.2 < q.2) := by
  obtain ⟨n, hn, hmin⟩ := C63_enter_cost_partial T hT ucs hucs D go hgo hc henter orig dest hov ho hd fuel _ h
  obtain ⟨f, hm, ha⟩ := Ucs.returned_arrives hT hucs hgo hc hov ho hd h
  exact Ucs.arrives_back hgo hc henter hpos ho hm ha hn ⟨⟨_, hn⟩, hmin⟩ hq hqr hk hd' hq' hk'

-- The costs of entering a swamp, in the middle of the grid, are positive.
example (p : Int × Int) (d : Dir) (q : Int × Int) (w : Int) (h : stepCosts (PosTy.pos 2 2) [(1, 0)] swamp p d = some (q, w)) : 0 < w := by
  simp only [stepCosts, Option.map_eq_some_iff, Prod.mk.injEq] at h
  obtain ⟨-, -, -, rfl⟩ := h
  unfold swamp
  split <;> decide
-- Before the end of the path, (2, 1) is reached from (1, 1), and not from (2, 2), to which the ways are longer.
example : Ucs.pathHash (PosTy.pos 2 2) false (stepCosts (PosTy.pos 2 2) [(1, 0)] swamp) (0, 0) (2, 0) 74 = .ok (.ok ([.S, .E] ++ .E :: [.N])) ∧
    follow (dropCost (stepCosts (PosTy.pos 2 2) [(1, 0)] swamp)) (0, 0) [.S, .E] = some (1, 1) ∧
    dropCost (stepCosts (PosTy.pos 2 2) [(1, 0)] swamp) (1, 1) .E = some (2, 1) ∧ dropCost (stepCosts (PosTy.pos 2 2) [(1, 0)] swamp) (2, 2) .N = some (2, 1) := by decide +kernel

/-- There is only one cheapest path on which each step comes from the cheapest neighbour, and from the greatest of them if there are several. -/
theorem back_unique {T : PosTy} {go : WGo} {D : Bool} (hgo : Adjacent T (dropCost go)) (hpos : ∀ p d q w, go p d = some (q, w) → 0 < w) {orig : P2} (ho : InGrid T orig) :
    ∀ (way path : List Dir) (r : P2) (n : Int), IsCostPath go D orig way r n → IsCostPath go D orig path r n → IsMinCost go D orig r n →
      (∀ as d bs q r k q' d' k', way = as ++ d :: bs → follow (dropCost go) orig as = some q → dropCost go q d = some r → IsMinCost go D orig q k →
      Allowed D d' → dropCost go q' d' = some r → IsMinCost go D orig q' k' → k < k' ∨ k = k' ∧ (q' = q ∨ q'.1 < q.1 ∨ q'.1 = q.1 ∧ q'.2 < q.2)) →
      (∀ as d bs q r k q' d' k', path = as ++ d :: bs → follow (dropCost go) orig as = some q → dropCost go q d = some r → IsMinCost go D orig q k →
      Allowed D d' → dropCost go q' d' = some r → IsMinCost go D orig q' k' → k < k' ∨ k = k' ∧ (q' = q ∨ q'.1 < q.1 ∨ q'.1 = q.1 ∧ q'.2 < q.2)) → path = way := by
  have hG := cost_inGrid (D := D) hgo.staysIn ho
  intro way
  induction way using List.reverseRecOn with
  | nil =>
    intro path r n h1 h2 _ _ _
    by_contra hne
    have h3 := isCostPath_pos hpos h2 hne
    obtain ⟨rfl, rfl⟩ := isCostPath_fun h1 isCostPath_nil
    omega
  | append_singleton way d ih =>
    intro path r n h1 h2 h3 h4 h5
    rcases List.eq_nil_or_concat path with rfl | ⟨path, d', rfl⟩
    · have h6 := isCostPath_pos hpos h1 (by simp)
      obtain ⟨rfl, rfl⟩ := isCostPath_fun h2 isCostPath_nil
      omega
    · rw [List.concat_eq_append] at h2 h5 ⊢
      obtain ⟨q, k, a1, a2⟩ := isCostPath_start h1 h3
      obtain ⟨q', k', b1, b2⟩ := isCostPath_start h2 h3
      obtain ⟨u, m, w, c1, c2, c3, c4⟩ := isCostPath_concat h1
      obtain ⟨rfl, rfl⟩ := isCostPath_fun c1 a1
      obtain ⟨u', m', w', d1, d2, d3, d4⟩ := isCostPath_concat h2
      obtain ⟨rfl, rfl⟩ := isCostPath_fun d1 b1
      have e1 : dropCost go u d = some r := by simp [dropCost, c3]
      have e2 : dropCost go u' d' = some r := by simp [dropCost, d3]
      have f1 := h4 way d [] u r m u' d' m' (by simp) a1.1.2 e1 a2 d2 e2 b2
      have f2 := h5 path d' [] u' r m' u d m (by simp) b1.1.2 e2 b2 c2 e1 a2
      have e3 : u = u' := by
        rcases f1 with f1 | ⟨f0, f1 | f1⟩
        · omega
        · exact f1.symm
        · rcases f2 with f2 | ⟨-, f2 | f2⟩
          · omega
          · exact f2
          · exfalso; omega
      subst e3
      have e4 : m = m' := by omega
      subst e4
      have e5 : d = d' := by
        have g1 := (hgo _ _ _ (hG _ _ _ a1) e1).2
        have g2 := (hgo _ _ _ (hG _ _ _ a1) e2).2
        exact neighbour_inj (g1.symm.trans g2)
      subst e5
      rw [ih path u m a1 b1 a2 (fun as d0 bs q r k q' d' k' e => h4 as d0 (bs ++ [d]) q r k q' d' k' (by rw [e]; simp))
        (fun as d0 bs q r k q' d' k' e => h5 as d0 (bs ++ [d]) q r k q' d' k' (by rw [e]; simp))]

/-- C140. This determines the path: a cheapest path on which each step comes from the cheapest neighbour, and from the greatest of them if there are several, is the one
that the search returns, if it returns one. -/
theorem C140_ucs_exact [Target] (T : PosTy) (hT : T.Searchable) (ucs) (hucs : Ucs.IsSearch T ucs) (D : Bool)
    (go : Int × Int → Dir → Option ((Int × Int) × Int)) (hgo : Adjacent T (dropCost go)) (hc : UsizeCosts go) (henter : EnterCost go)
    (hpos : ∀ p d q w, go p d = some (q, w) → 0 < w) (orig dest : Int × Int)
    (hov : Target.checks = true ∨ NoOverflow go D orig) (ho : InGrid T orig) (hd : InGrid T dest) (fuel : Nat)
    (path : List Dir) (h : ucs D go orig dest fuel = .ok (.ok path))
    (way : List Dir) (n : Int) (hway : IsCostPath go D orig way dest n) (hn : IsMinCost go D orig dest n)
    (hback : ∀ as d bs q r k q' d' k', way = as ++ d :: bs → follow (dropCost go) orig as = some q → dropCost go q d = some r → IsMinCost go D orig q k →
      Allowed D d' → dropCost go q' d' = some r → IsMinCost go D orig q' k' → k < k' ∨ k = k' ∧ (q' = q ∨ q'.1 < q.1 ∨ q'.1 = q.1 ∧ q'.2 < q.2)) : path = way := by
  have hpath : ∃ m, IsCostPath go D orig path dest m ∧ ∀ ds m', IsCostPath go D orig ds dest m' → m ≤ m' :=
    C63_enter_cost_partial T hT ucs hucs D go hgo hc henter orig dest hov ho hd fuel _ h
  obtain ⟨m, hm, hmin⟩ := hpath
  have e := isMinCost_unique hn ⟨⟨_, hm⟩, hmin⟩
  subst e
  have hpback : ∀ as d bs q r k q' d' k', path = as ++ d :: bs → follow (dropCost go) orig as = some q → dropCost go q d = some r → IsMinCost go D orig q k →
      Allowed D d' → dropCost go q' d' = some r → IsMinCost go D orig q' k' → k < k' ∨ k = k' ∧ (q' = q ∨ q'.1 < q.1 ∨ q'.1 = q.1 ∧ q'.2 < q.2) := by
    rintro as d bs q r k q' d' k' rfl h1 h2 h3 h4 h5 h6
    exact C140_ucs_back T hT ucs hucs D go hgo hc henter hpos orig dest hov ho hd fuel as d bs h q r h1 h2 k h3 q' d' h4 h5 k' h6
  exact back_unique hgo hpos ho way path dest n hway hm hn hback hpback

/-- A path that the search returns is cheaper than the limit, and not longer than the square of the width. -/
theorem Ucs.returned_bounds [Target] {T : PosTy} (hT : T.Searchable) {ucs} (hucs : Ucs.IsSearch T ucs) {go : WGo} {D : Bool} (hgo : Adjacent T (dropCost go))
    (hc : UsizeCosts go) {orig dest : P2} (hov : Target.checks = true ∨ NoOverflow go D orig) (ho : InGrid T orig) (hd : InGrid T dest) {fuel : Nat} {path : List Dir}
    (h : ucs D go orig dest fuel = .ok (.ok path)) : (∃ n, IsMinCost go D orig dest n ∧ n < limit) ∧ (path.length : Int) ≤ cols T * cols T := by
  obtain ⟨fuel, hfuel, h⟩ := hucs.more (Ucs.steps T) h
  rw [hucs.eq hT hgo.staysIn ho hd] at h
  rcases Ucs.searchPath_spec (D := D) hT hgo hc.nonNeg hov ho hd fuel (Ucs.steps_nat hT.toIsGrid hfuel) with h2 | ⟨-, h2⟩ | ⟨h1, path', -, -, -, h2⟩
  · rw [h2] at h; cases h
  · rw [h2] at h; cases h
  · refine ⟨h1, ?_⟩
    rw [h2] at h
    split at h
    · rename_i hle
      obtain rfl := Except.ok.inj (Out.ok.inj h)
      rw [cols_sq hT.toIsGrid]
      exact_mod_cast hle
    · cases h

/-- C140. And the search does return it, if the costs stay below the limit: unless it has more steps than the square of the width of the grid, in which case it returns
Err(Loop). -/
theorem C140_ucs_found [Target] (T : PosTy) (hT : T.Searchable) (ucs) (hucs : Ucs.IsSearch T ucs) (D : Bool)
    (go : Int × Int → Dir → Option ((Int × Int) × Int)) (hgo : Adjacent T (dropCost go)) (hc : UsizeCosts go) (henter : EnterCost go)
    (hpos : ∀ p d q w, go p d = some (q, w) → 0 < w) (orig dest : Int × Int) (hov : NoOverflow go D orig) (ho : InGrid T orig) (hd : InGrid T dest)
    (fuel : Nat) (hfuel : Ucs.steps T < (fuel : Int))
    (way : List Dir) (n : Int) (hway : IsCostPath go D orig way dest n) (hn : IsMinCost go D orig dest n) (hlim : n < limit)
    (hback : ∀ as d bs q r k q' d' k', way = as ++ d :: bs → follow (dropCost go) orig as = some q → dropCost go q d = some r → IsMinCost go D orig q k →
      Allowed D d' → dropCost go q' d' = some r → IsMinCost go D orig q' k' → k < k' ∨ k = k' ∧ (q' = q ∨ q'.1 < q.1 ∨ q'.1 = q.1 ∧ q'.2 < q.2)) :
    ucs D go orig dest fuel = .ok (if (way.length : Int) ≤ cols T * cols T then .ok way else .error .loop) := by
  have hfuel' := Ucs.steps_nat hT.toIsGrid hfuel
  have hG := cost_inGrid (D := D) hgo.staysIn ho
  have hcost := cost_covers (D := D) (covers hgo.staysIn ho)
  rw [hucs.eq hT hgo.staysIn ho hd]
  obtain ⟨r, h1, h2⟩ := BSt.search_init (L := allPositions T true) (INF := usizeMax) (dest := dest) usizeMax_pos hc.nonNeg (consistent_zero hc.nonNeg) hcost
    (by rwa [PosTy.allPositions_length]) (fun _ => none)
  cases r with
  | error e =>
    have := h2.2 _ _ hway
    rw [limit_eq] at hlim
    omega
  | ok f =>
    obtain ⟨t, n', F, s, H, ht, -⟩ := h2
    obtain ⟨path, b1, -⟩ := H.arrives hgo hG dest ht
    have b2 := Ucs.arrives_cheapest hgo hc.nonNeg henter hG hcost (by rwa [PosTy.allPositions_length]) h1 b1 hn
    have e : path = way := back_unique hgo hpos ho way path dest n hway b2 hn hback fun as d bs q r k q' d' k' e h1' h2' h3 h4 h5 h6 =>
      Ucs.arrives_back hgo hc henter hpos ho h1 (e ▸ b1) (e ▸ b2) hn h1' h2' h3 h4 h5 h6
    subst e
    rw [Ucs.searchPath_of_mapmov ((Ucs.searchMapmov_eq hc.nonNeg hov dest fuel).trans h1)]
    simp only
    obtain ⟨o, a1, ⟨path', rfl, a2, -⟩ | ⟨-, a2⟩⟩ := camefrom_of_inv hT.wf hgo hG H.g ht
    · rw [a1, b1.unique a2, wayOut_searchable hT ho hd]
      simp only [cols_sq hT.toIsGrid, Int.ofNat_le]
    · exact absurd b1 (a2 _)

-- From (0, 0) to (1, 1) with costs of 1: back from (1, 1) to (1, 0), which is greater than (0, 1).
theorem back_example : ∀ as d bs q r k q' d' k', [Dir.E, Dir.S] = as ++ d :: bs → follow (dropCost (unitCost (aroundWalls (PosTy.pos 1 1) []))) (0, 0) as = some q → dropCost (unitCost (aroundWalls (PosTy.pos 1 1) [])) q d = some r → IsMinCost (unitCost (aroundWalls (PosTy.pos 1 1) [])) false (0, 0) q k →
      Allowed false d' → dropCost (unitCost (aroundWalls (PosTy.pos 1 1) [])) q' d' = some r → IsMinCost (unitCost (aroundWalls (PosTy.pos 1 1) [])) false (0, 0) q' k' → k < k' ∨ k = k' ∧ (q' = q ∨ q'.1 < q.1 ∨ q'.1 = q.1 ∧ q'.2 < q.2) := by
  have hgo := aroundWalls_adjacent (PosTy.pos 1 1) []
  have ho : InGrid (PosTy.pos 1 1) (0, 0) := by unfold InGrid; decide
  have hle : ∀ q k, IsMinCost (unitCost (aroundWalls (PosTy.pos 1 1) [])) false (0, 0) q k → l1 (0, 0) q ≤ k := by
    intro q k hk
    obtain ⟨ds, hds⟩ := hk.1
    obtain ⟨h1, rfl⟩ := isCostPath_unit.1 hds
    exact l1_le_path hgo ho h1
  intro as d bs q r k q' d' k' hway hq hr hk hd' hq' hk'
  have h1 := hle q' k' hk'
  rw [dropCost_unitCost] at hq hr hq'
  rcases as with - | ⟨a, as⟩
  · simp only [List.nil_append, List.cons.injEq] at hway
    simp only [follow, Option.some.injEq] at hq
    subst hq
    have := isMinCost_unique hk (isMinCost_self (unitCost_nonneg _))
    by_cases h0 : k' = 0
    · refine .inr ⟨by omega, .inl (Prod.ext ?_ ?_)⟩ <;> simp only [l1] at h1 ⊢ <;> omega
    · have : 0 ≤ l1 (0, 0) q' := by unfold l1; omega
      exact .inl (by omega)
  · rcases as with - | ⟨b, as⟩
    · simp only [List.cons_append, List.nil_append, List.cons.injEq] at hway
      obtain ⟨rfl, rfl, rfl⟩ := hway
      rw [show follow (aroundWalls (PosTy.pos 1 1) []) (0, 0) [.E] = some (1, 0) by decide +kernel, Option.some.injEq] at hq
      subst hq
      rw [show aroundWalls (PosTy.pos 1 1) [] (1, 0) .S = some (1, 1) by decide +kernel, Option.some.injEq] at hr
      subst hr
      have e := isMinCost_unique hk (isMinCost_straight ho [.E] (by simp [Allowed, unit]) (by decide +kernel) (by decide +kernel))
      have h2 : neighbour q' d' = (1, 1) := by
        unfold aroundWalls at hq'
        split at hq'
        · injection hq'
        · cases hq'
      simp only [neighbour, Prod.mk.injEq] at h2
      simp only [List.length_cons, List.length_nil, Nat.zero_add, Nat.cast_one] at e
      subst e
      simp only [l1] at h1
      cases d' <;> simp [Allowed, unit] at hd' h2 <;> first | exact .inl (by omega) | skip
      all_goals
        by_cases h3 : k' = 1
        · refine .inr ⟨by omega, ?_⟩
          first | exact .inl (Prod.ext (by simp only; omega) (by simp only; omega)) | exact .inr (by simp only; omega)
        · exact .inl (by omega)
    · have := congrArg List.length hway
      simp at this
example (fuel : Nat) (path : List Dir) (h : Ucs.pathHash (PosTy.pos 1 1) false (unitCost (aroundWalls (PosTy.pos 1 1) [])) (0, 0) (1, 1) fuel = .ok (.ok path)) :
    path = [.E, .S] := by
  have hgo := aroundWalls_adjacent (PosTy.pos 1 1) []
  have ho : InGrid (PosTy.pos 1 1) (0, 0) := by unfold InGrid; decide
  exact C140_ucs_exact (PosTy.pos 1 1) (PosTy.pos_searchable (by decide) (by decide) (.inl rfl)) _ (.inr (.inl rfl)) false _ (unitCost_adjacent hgo) (unitCost_usize _)
    (unitCost_enter _) (fun p d q w hw => by have := (unitCost_some.1 hw).2; omega) (0, 0) (1, 1) (.inl rfl) ho (by unfold InGrid; decide) fuel path h [.E, .S] 2
    (isCostPath_unit.2 ⟨⟨by simp [Allowed, unit], by decide +kernel⟩, rfl⟩)
    (isMinCost_straight ho [.E, .S] (by simp [Allowed, unit]) (by decide +kernel) (by decide +kernel)) back_example
example : Ucs.pathHash (PosTy.pos 1 1) false (unitCost (aroundWalls (PosTy.pos 1 1) [])) (0, 0) (1, 1) 1000 = .ok (.ok [.E, .S]) := by
  have hgo := aroundWalls_adjacent (PosTy.pos 1 1) []
  have hT : (PosTy.pos 1 1).Searchable := PosTy.pos_searchable (by decide) (by decide) (.inl rfl)
  have ho : InGrid (PosTy.pos 1 1) (0, 0) := by unfold InGrid; decide
  exact C140_ucs_found (PosTy.pos 1 1) hT _ (.inr (.inl rfl)) false _ (unitCost_adjacent hgo) (unitCost_usize _)
    (unitCost_enter _) (fun p d q w hw => by have := (unitCost_some.1 hw).2; omega) (0, 0) (1, 1) (unitCost_below hT hgo ho).noOverflow ho (by unfold InGrid; decide) 1000
    (by decide) [.E, .S] 2 (isCostPath_unit.2 ⟨⟨by simp [Allowed, unit], by decide +kernel⟩, rfl⟩)
    (isMinCost_straight ho [.E, .S] (by simp [Allowed, unit]) (by decide +kernel) (by decide +kernel)) (by decide) back_example
-- In a single column of three, the way has two steps, more than the square of the width.
example : Ucs.pathHash (PosTy.pos 0 2) false (unitCost (aroundWalls (PosTy.pos 0 2) [])) (0, 0) (0, 2) 1000 = .ok (.error .loop) := by decide +kernel
example : Ucs.pathHash (PosTy.pos 1 1) false (unitCost (aroundWalls (PosTy.pos 1 1) [])) (0, 0) (1, 1) 30 = .ok (.ok [.E, .S]) := by decide +kernel

end Sqrid
