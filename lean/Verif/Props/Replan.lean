import Verif.Spec.Replan
import Verif.Props.BfFirst
import Verif.Props.Backwards
import Verif.Props.OpenGrid
/-!
# Parts of a path, and paths calculated anew: C146, C147

C142 and C140 determine the paths of the breadth-first and of the uniform-cost search. Here is what follows for somebody who goes along such a path.
-/

namespace Sqrid

-- Statements that do not mention a target are about a debug build for a 64-bit machine.
attribute [local instance] debug64

open Spec

theorem ComesBefore.append_right {as bs : List Dir} (h : ComesBefore as bs) (cs cs' : List Dir) : ComesBefore (as ++ cs) (bs ++ cs') := by
  obtain ⟨pre, a, as', b, bs', rfl, rfl, h⟩ := h
  exact ⟨pre, a, as' ++ cs, b, bs' ++ cs', by simp, by simp, h⟩

theorem ComesBefore.append_left {as bs : List Dir} (h : ComesBefore as bs) (cs : List Dir) : ComesBefore (cs ++ as) (cs ++ bs) := by
  obtain ⟨pre, a, as', b, bs', rfl, rfl, h⟩ := h
  exact ⟨cs ++ pre, a, as', b, bs', by simp, by simp, h⟩

/-- A returned path is not to the origin, and its length is at most the square of the number of columns. -/
theorem Bf.returned [Target] {T : PosTy} (hT : T.Searchable) {bfs} (hbfs : Bf.IsSearch T bfs) {D : Bool} {go : GoFn}
    (hgo : Adjacent T go) {orig : P2} (ho : InGrid T orig) {found : P2 → Bool} {fuel : Nat} {dest : P2} {path : List Dir}
    (h : bfs D go orig found fuel = .ok (.ok (dest, path))) : dest ≠ orig ∧ (path.length : Int) ≤ cols T * cols T := by
  obtain ⟨fuel, hfuel, h⟩ := hbfs.more (cols T * rows T) h
  have h1 := C52_shortest T hT bfs hbfs D go hgo orig ho found fuel dest path h
  rw [hbfs.eq hT hgo.staysIn ho] at h
  rcases Bf.searchPath_spec hT D found hgo ho fuel (by have := hT.cells_eq; omega) with
    ⟨-, h2⟩ | ⟨dest', n, h1, h2, h3, ⟨h4, path', h5, h6, h7⟩ | ⟨-, h6⟩⟩
  · rw [h2] at h; cases h
  · rw [h7] at h
    injection h with h
    injection h with h
    injection h with e1 e2
    subst e1 e2
    refine ⟨?_, ?_⟩
    · rintro rfl
      exact absurd (h2.2 [] isPath_nil) (by simp)
    · rw [h6]
      have h8 := hT.nx_eq
      have h9 := hT.x0
      have : cols T = (T.nx : Int) := by simp only [cols]; omega
      rw [this]
      exact_mod_cast h4
  · rw [h6] at h; cases h

/-- With enough fuel the search returns a path, if one is known that is short enough. -/
theorem Bf.returns [Target] {T : PosTy} (hT : T.Searchable) {bfs} (hbfs : Bf.IsSearch T bfs) {D : Bool} {go : GoFn}
    (hgo : Adjacent T go) {orig : P2} (ho : InGrid T orig) {found : P2 → Bool} {fuel : Nat} (hfuel : cols T * rows T < (fuel : Int)) {q : P2} {ds : List Dir}
    (hq : found q = true) (hne : q ≠ orig) (hds : IsPath go D orig ds q) (hlen : (ds.length : Int) ≤ cols T * cols T) :
    ∃ dest path, bfs D go orig found fuel = .ok (.ok (dest, path)) := by
  have hex : ∃ n, ∃ q, found q = true ∧ q ≠ orig ∧ IsDist go D orig q n := by
    obtain ⟨n, hn⟩ := reachable_iff_isDist.1 ⟨ds, hds⟩
    exact ⟨n, q, hq, hne, hn⟩
  classical
  obtain ⟨q0, h1, h2, h3⟩ := Nat.find_spec hex
  refine ((C53_exact T hT bfs hbfs D go hgo orig ho found fuel hfuel).2 q0 _ h1 h2 h3 fun q' m h4 h5 h6 => Nat.find_min' hex ⟨q', h4, h5, h6⟩).1 ?_
  obtain ⟨n, hn⟩ := reachable_iff_isDist.1 ⟨ds, hds⟩
  have h4 := Nat.find_min' hex ⟨q, hq, hne, hn⟩
  have h5 := hn.2 ds hds
  omega

/-! ## C146: the parts of a path -/

/-- C146. From any position on the path, a breadth-first search to the same goals returns the rest of the path; if the origin was not itself a goal. -/
theorem C146_bfs_rest [Target] (T : PosTy) (hT : T.Searchable) (bfs) (hbfs : Bf.IsSearch T bfs) (bfs') (hbfs' : Bf.IsSearch T bfs') (D : Bool)
    (go : Int × Int → Dir → Option (Int × Int)) (hgo : Adjacent T go) (orig : Int × Int) (ho : InGrid T orig) (found : Int × Int → Bool) (hfo : found orig = false)
    (fuel : Nat) (dest : Int × Int) (as bs : List Dir) (hbs : bs ≠ []) (h : bfs D go orig found fuel = .ok (.ok (dest, as ++ bs)))
    (q : Int × Int) (hq : follow go orig as = some q) (fuel' : Nat) (hfuel : cols T * rows T < (fuel' : Int)) :
    bfs' D go q found fuel' = .ok (.ok (dest, bs)) := by
  obtain ⟨hf, hpath⟩ := C51_valid_path T hT bfs hbfs D go hgo orig ho found fuel dest _ h
  obtain ⟨q', h1, h2⟩ := isPath_split hpath
  rw [h1.2] at hq
  injection hq with hq
  subst hq
  obtain ⟨hdo, hlen⟩ := Bf.returned hT hbfs hgo ho h
  have hfirst := C142_first T hT bfs hbfs D go hgo orig ho found fuel dest _ h
  have hgoal : ∀ p, found p = true → p ≠ orig := by
    rintro p hp rfl
    rw [hfo] at hp
    cases hp
  have hqd : dest ≠ q' := by
    rintro rfl
    have h0 := List.length_pos_iff.2 hbs
    rcases hfirst dest hf hdo as h1 with h' | ⟨h', -⟩ <;> simp only [List.length_append] at h' <;> omega
  have hqg := isPath_inGrid hgo.staysIn ho h1
  obtain ⟨dest', path', h3⟩ := Bf.returns hT hbfs' hgo hqg hfuel hf hqd h2 (by simp at hlen; omega)
  obtain ⟨hf', hpath'⟩ := C51_valid_path T hT bfs' hbfs' D go hgo q' hqg found fuel' dest' _ h3
  have h4 := hfirst dest' hf' (hgoal _ hf') _ (isPath_append h1 hpath')
  have h5 := C142_first T hT bfs' hbfs' D go hgo q' hqg found fuel' dest' _ h3 dest hf hqd bs h2
  have e : path' = bs := by
    simp only [List.length_append] at h4
    rcases h5 with h5 | ⟨h5, h6 | h6⟩
    · omega
    · exact h6
    · rcases h4 with h4 | ⟨-, h4⟩
      · omega
      · exact (ComesBefore.asymm (ComesBefore.append_left h6 as) (h4.imp Eq.symm id)).elim
  subst e
  have e := hpath'.2
  rw [h2.2] at e
  injection e with e
  rw [h3, e]

-- from (1, 1), two steps along the path
example : Bf.pathHash (PosTy.pos 2 2) false (aroundWalls (PosTy.pos 2 2) [(1, 0)]) (0, 0) (fun p => p == (2, 0)) 10 = .ok (.ok ((2, 0), [.S, .E] ++ [.E, .N])) ∧
    follow (aroundWalls (PosTy.pos 2 2) [(1, 0)]) (0, 0) [.S, .E] = some (1, 1) ∧ Bf.pathGrid (PosTy.pos 2 2) 1 9 false (aroundWalls (PosTy.pos 2 2) [(1, 0)]) (1, 1) (fun p => p == (2, 0)) 10 = .ok (.ok ((2, 0), [.E, .N])) := by
  decide +kernel

/-- C146. The way to any position on the path is the path that a breadth-first search to this position returns. -/
theorem C146_bfs_start [Target] (T : PosTy) (hT : T.Searchable) (bfs) (hbfs : Bf.IsSearch T bfs) (bfs') (hbfs' : Bf.IsSearch T bfs') (D : Bool)
    (go : Int × Int → Dir → Option (Int × Int)) (hgo : Adjacent T go) (orig : Int × Int) (ho : InGrid T orig) (found : Int × Int → Bool)
    (fuel : Nat) (dest : Int × Int) (as bs : List Dir) (has : as ≠ []) (h : bfs D go orig found fuel = .ok (.ok (dest, as ++ bs)))
    (q : Int × Int) (hq : follow go orig as = some q) (fuel' : Nat) (hfuel : cols T * rows T < (fuel' : Int)) :
    bfs' D go orig (fun p => p == q) fuel' = .ok (.ok (q, as)) := by
  obtain ⟨hf, hpath⟩ := C51_valid_path T hT bfs hbfs D go hgo orig ho found fuel dest _ h
  obtain ⟨q', h1, h2⟩ := isPath_split hpath
  rw [h1.2] at hq
  injection hq with hq
  subst hq
  obtain ⟨hdo, hlen⟩ := Bf.returned hT hbfs hgo ho h
  have hfirst := C142_first T hT bfs hbfs D go hgo orig ho found fuel dest _ h dest hf hdo
  have hqo : q' ≠ orig := by
    rintro rfl
    have h0 := List.length_pos_iff.2 has
    rcases hfirst bs h2 with h' | ⟨h', -⟩ <;> simp only [List.length_append] at h' <;> omega
  obtain ⟨dest', path', h3⟩ := Bf.returns hT hbfs' hgo ho (found := fun p => p == q') hfuel (by simp) hqo h1 (by simp at hlen; omega)
  obtain ⟨hf', hpath'⟩ := C51_valid_path T hT bfs' hbfs' D go hgo orig ho _ fuel' dest' _ h3
  have e : dest' = q' := by simpa using hf'
  subst e
  have h4 := hfirst _ (isPath_append hpath' h2)
  have h5 := C142_first T hT bfs' hbfs' D go hgo orig ho _ fuel' dest' _ h3 dest' (by simp) hqo as h1
  have e : path' = as := by
    simp only [List.length_append] at h4
    rcases h5 with h5 | ⟨h5, h6 | h6⟩
    · omega
    · exact h6
    · rcases h4 with h4 | ⟨-, h4⟩
      · omega
      · exact (ComesBefore.asymm (ComesBefore.append_right h6 bs bs) (h4.imp Eq.symm id)).elim
  rw [h3, e]

-- to (1, 1), two steps along the path
example : Bf.pathHash (PosTy.pos 2 2) false (aroundWalls (PosTy.pos 2 2) [(1, 0)]) (0, 0) (fun p => p == (2, 0)) 10 = .ok (.ok ((2, 0), [.S, .E] ++ [.E, .N])) ∧
    Bf.pathGrid (PosTy.pos 2 2) 1 9 false (aroundWalls (PosTy.pos 2 2) [(1, 0)]) (0, 0) (fun p => p == (1, 1)) 10 = .ok (.ok ((1, 1), [.S, .E])) := by
  decide +kernel

/-- The core of the next theorems: the rest of the path is the path that C140 tells. -/
theorem Ucs.rest_back [Target] {T : PosTy} (hT : T.Searchable) {ucs} (hucs : Ucs.IsSearch T ucs) {D : Bool} {go : WGo} (hgo : Adjacent T (dropCost go))
    (hc : UsizeCosts go) (henter : EnterCost go) (hpos : ∀ p d q w, go p d = some (q, w) → 0 < w) {orig dest : P2}
    (hov : Target.checks = true ∨ NoOverflow go D orig) (ho : InGrid T orig) (hd : InGrid T dest) {fuel : Nat} {as bs : List Dir}
    (h : ucs D go orig dest fuel = .ok (.ok (as ++ bs))) {q : P2} (hq : follow (dropCost go) orig as = some q) :
    InGrid T q ∧ ∃ b, IsCostPath go D q bs dest b ∧ IsMinCost go D q dest b ∧ b < limit ∧
    (∀ cs d ds u r k u' d' k', bs = cs ++ d :: ds → follow (dropCost go) q cs = some u → dropCost go u d = some r → IsMinCost go D q u k →
      Allowed D d' → dropCost go u' d' = some r → IsMinCost go D q u' k' → k < k' ∨ k = k' ∧ (u' = u ∨ u'.1 < u.1 ∨ u'.1 = u.1 ∧ u'.2 < u.2)) := by
  obtain ⟨n, hn, hmin⟩ := C63_enter_cost_partial T hT ucs hucs D go hgo hc henter orig dest hov ho hd fuel _ h
  obtain ⟨q', a, b, h1, h2, e⟩ := isCostPath_split hn
  rw [h1.1.2] at hq
  injection hq with hq
  subst hq
  have hqg := cost_inGrid (D := D) hgo.staysIn ho _ _ _ h1
  have ha : IsMinCost go D orig q' a := ⟨⟨as, h1⟩, fun ds m hds => by
    have := hmin _ _ (isCostPath_append hds h2)
    omega⟩
  have hb : IsMinCost go D q' dest b := ⟨⟨bs, h2⟩, fun ds m hds => by
    have := hmin _ _ (isCostPath_append h1 hds)
    omega⟩
  have hlim : b < limit := by
    obtain ⟨⟨n', h3, h4⟩, -⟩ := Ucs.returned_bounds hT hucs hgo hc hov ho hd h
    have := isMinCost_unique h3 ⟨⟨_, hn⟩, hmin⟩
    have := isCostPath_nonneg hc.nonNeg h1
    omega
  refine ⟨hqg, b, h2, hb, hlim, ?_⟩
  rintro cs d ds u r k u' d' k' rfl hu hur hk hd' hu' hk'
  -- the costs from the origin
  obtain ⟨u2, k2, k3, h3, h4, e2⟩ := isCostPath_split h2
  have e3 : u2 = u := by
    have := h3.1.2
    rw [hu] at this
    injection this with this
    exact this.symm
  subst e3
  have e4 : k2 = k := isMinCost_unique ⟨⟨_, h3⟩, fun ds m hds => by
    have := hmin _ _ (isCostPath_append h1 (isCostPath_append hds h4))
    omega⟩ hk
  subst e4
  have hk0 : IsMinCost go D orig u2 (a + k2) := ⟨⟨_, isCostPath_append h1 h3⟩, fun ds m hds => by
    have := hmin _ _ (isCostPath_append hds h4)
    omega⟩
  obtain ⟨ds', hds'⟩ := hk'.1
  obtain ⟨K, hK⟩ := isMinCost_exists (D := D) hc.nonNeg ⟨_, (isCostPath_append h1 hds').1⟩
  have hle := hK.2 _ _ (isCostPath_append h1 hds')
  rcases C140_ucs_back T hT ucs hucs D go hgo hc henter hpos orig dest hov ho hd fuel (as ++ cs) d ds (by rw [List.append_assoc]; exact h) u2 r
    (isCostPath_append h1 h3).1.2 hur (a + k2) hk0 u' d' hd' hu' K hK with h5 | ⟨h5, h6⟩
  · exact .inl (by omega)
  · rcases lt_or_ge k2 k' with h7 | h7
    · exact .inl h7
    · exact .inr ⟨by omega, h6⟩

/-- C146. The same for the uniform-cost search, with positive costs that depend only on the position that is entered: a path that it returns from a position on the path is the
rest of the path. -/
theorem C146_ucs_rest [Target] (T : PosTy) (hT : T.Searchable) (ucs) (hucs : Ucs.IsSearch T ucs) (ucs') (hucs' : Ucs.IsSearch T ucs') (D : Bool)
    (go : Int × Int → Dir → Option ((Int × Int) × Int)) (hgo : Adjacent T (dropCost go)) (hc : UsizeCosts go) (henter : EnterCost go)
    (hpos : ∀ p d q w, go p d = some (q, w) → 0 < w) (orig dest : Int × Int)
    (hov : Target.checks = true ∨ NoOverflow go D orig) (ho : InGrid T orig) (hd : InGrid T dest) (fuel : Nat)
    (as bs : List Dir) (h : ucs D go orig dest fuel = .ok (.ok (as ++ bs)))
    (q : Int × Int) (hq : follow (dropCost go) orig as = some q) (hov' : Target.checks = true ∨ NoOverflow go D q) (fuel' : Nat) (path : List Dir)
    (h' : ucs' D go q dest fuel' = .ok (.ok path)) : path = bs := by
  obtain ⟨hqg, b, h2, hb, -, h3⟩ := Ucs.rest_back hT hucs hgo hc henter hpos hov ho hd h hq
  exact C140_ucs_exact T hT ucs' hucs' D go hgo hc henter hpos q dest hov' hqg hd fuel' path h' bs b h2 hb h3

/-- C146. And the search does return the rest of the path, if no sums of costs from that position go over the limit. -/
theorem C146_ucs_rest_found [Target] (T : PosTy) (hT : T.Searchable) (ucs) (hucs : Ucs.IsSearch T ucs) (ucs') (hucs' : Ucs.IsSearch T ucs') (D : Bool)
    (go : Int × Int → Dir → Option ((Int × Int) × Int)) (hgo : Adjacent T (dropCost go)) (hc : UsizeCosts go) (henter : EnterCost go)
    (hpos : ∀ p d q w, go p d = some (q, w) → 0 < w) (orig dest : Int × Int)
    (hov : Target.checks = true ∨ NoOverflow go D orig) (ho : InGrid T orig) (hd : InGrid T dest) (fuel : Nat)
    (as bs : List Dir) (h : ucs D go orig dest fuel = .ok (.ok (as ++ bs)))
    (q : Int × Int) (hq : follow (dropCost go) orig as = some q) (hov' : NoOverflow go D q) (fuel' : Nat) (hfuel : Ucs.steps T < (fuel' : Int)) :
    ucs' D go q dest fuel' = .ok (.ok bs) := by
  obtain ⟨hqg, b, h2, hb, hlim, h3⟩ := Ucs.rest_back hT hucs hgo hc henter hpos hov ho hd h hq
  rw [C140_ucs_found T hT ucs' hucs' D go hgo hc henter hpos q dest hov' hqg hd fuel' hfuel bs b h2 hb hlim h3, if_pos]
  have := (Ucs.returned_bounds hT hucs hgo hc hov ho hd h).2
  simp only [List.length_append] at this
  omega

-- with a dear column, whose costs meet the conditions (see `C63_enter_cost_partial` and `C140_ucs`)
example : Ucs.pathHash (PosTy.pos 2 2) false (stepCosts (PosTy.pos 2 2) [(1, 0)] swamp) (0, 0) (2, 0) 74 = .ok (.ok ([.S, .E] ++ [.E, .N])) ∧
    follow (dropCost (stepCosts (PosTy.pos 2 2) [(1, 0)] swamp)) (0, 0) [.S, .E] = some (1, 1) ∧ Ucs.pathGrid (PosTy.pos 2 2) 9 false (stepCosts (PosTy.pos 2 2) [(1, 0)] swamp) (1, 1) (2, 0) 74 = .ok (.ok [.E, .N]) := by decide +kernel

/-- C146. The way to any position on the path is the path that the uniform-cost search to this position returns, if it returns one. -/
theorem C146_ucs_start [Target] (T : PosTy) (hT : T.Searchable) (ucs) (hucs : Ucs.IsSearch T ucs) (ucs') (hucs' : Ucs.IsSearch T ucs') (D : Bool)
    (go : Int × Int → Dir → Option ((Int × Int) × Int)) (hgo : Adjacent T (dropCost go)) (hc : UsizeCosts go) (henter : EnterCost go)
    (hpos : ∀ p d q w, go p d = some (q, w) → 0 < w) (orig dest : Int × Int)
    (hov : Target.checks = true ∨ NoOverflow go D orig) (ho : InGrid T orig) (hd : InGrid T dest) (fuel : Nat)
    (as bs : List Dir) (h : ucs D go orig dest fuel = .ok (.ok (as ++ bs)))
    (q : Int × Int) (hq : follow (dropCost go) orig as = some q) (fuel' : Nat) (path : List Dir)
    (h' : ucs' D go orig q fuel' = .ok (.ok path)) : path = as := by
  obtain ⟨n, hn, hmin⟩ := C63_enter_cost_partial T hT ucs hucs D go hgo hc henter orig dest hov ho hd fuel _ h
  obtain ⟨q', a, h1, h2⟩ := isCostPath_start hn ⟨⟨_, hn⟩, hmin⟩
  rw [h1.1.2] at hq
  injection hq with hq
  subst hq
  refine C140_ucs_exact T hT ucs' hucs' D go hgo hc henter hpos orig q' hov ho (cost_inGrid (D := D) hgo.staysIn ho _ _ _ h1) fuel' path h' as a h1 h2 ?_
  rintro cs d ds u r k u' d' k' rfl hu hur hk hd' hu' hk'
  exact C140_ucs_back T hT ucs hucs D go hgo hc henter hpos orig dest hov ho hd fuel cs d (ds ++ bs) (by simpa using h) u r hu hur k hk u' d' hd' hu' k' hk'

/-- C146. And the search does return it. -/
theorem C146_ucs_start_found [Target] (T : PosTy) (hT : T.Searchable) (ucs) (hucs : Ucs.IsSearch T ucs) (ucs') (hucs' : Ucs.IsSearch T ucs') (D : Bool)
    (go : Int × Int → Dir → Option ((Int × Int) × Int)) (hgo : Adjacent T (dropCost go)) (hc : UsizeCosts go) (henter : EnterCost go)
    (hpos : ∀ p d q w, go p d = some (q, w) → 0 < w) (orig dest : Int × Int)
    (hov : NoOverflow go D orig) (ho : InGrid T orig) (hd : InGrid T dest) (fuel : Nat)
    (as bs : List Dir) (h : ucs D go orig dest fuel = .ok (.ok (as ++ bs)))
    (q : Int × Int) (hq : follow (dropCost go) orig as = some q) (fuel' : Nat) (hfuel : Ucs.steps T < (fuel' : Int)) :
    ucs' D go orig q fuel' = .ok (.ok as) := by
  obtain ⟨n, hn, hmin⟩ := C63_enter_cost_partial T hT ucs hucs D go hgo hc henter orig dest (.inr hov) ho hd fuel _ h
  obtain ⟨⟨n', h3, h4⟩, h5⟩ := Ucs.returned_bounds hT hucs hgo hc (.inr hov) ho hd h
  obtain ⟨q', a, b, h1, h2, e⟩ := isCostPath_split hn
  have e1 := isMinCost_unique h3 ⟨⟨_, hn⟩, hmin⟩
  have e2 := isCostPath_nonneg hc.nonNeg h2
  rw [h1.1.2] at hq
  injection hq with hq
  subst hq
  have ha : IsMinCost go D orig q' a := ⟨⟨as, h1⟩, fun ds m hds => by
    have := hmin _ _ (isCostPath_append hds h2)
    omega⟩
  rw [C140_ucs_found T hT ucs' hucs' D go hgo hc henter hpos orig q' hov ho (cost_inGrid (D := D) hgo.staysIn ho _ _ _ h1) fuel' hfuel as a h1 ha (by omega), if_pos]
  · simp only [List.length_append] at h5
    omega
  · rintro cs d ds u r k u' d' k' rfl hu hur hk hd' hu' hk'
    exact C140_ucs_back T hT ucs hucs D go hgo hc henter hpos orig dest (.inr hov) ho hd fuel cs d (ds ++ bs) (by simpa using h) u r hu hur k hk u' d' hd' hu' k' hk'

example : Ucs.pathHash (PosTy.pos 2 2) false (stepCosts (PosTy.pos 2 2) [(1, 0)] swamp) (0, 0) (2, 0) 74 = .ok (.ok ([.S, .E] ++ [.E, .N])) ∧
    Ucs.pathGrid (PosTy.pos 2 2) 9 false (stepCosts (PosTy.pos 2 2) [(1, 0)] swamp) (0, 0) (1, 1) 74 = .ok (.ok [.S, .E]) := by decide +kernel

/-- A path that the uniform-cost search returns with costs of 1: how long it is. -/
theorem Ucs.unit_returned [Target] {T : PosTy} (hT : T.Searchable) {ucs} (hucs : Ucs.IsSearch T ucs) {D : Bool} {go : GoFn} (hgo : Adjacent T go) {orig dest : P2}
    (ho : InGrid T orig) (hd : InGrid T dest) {fuel : Nat} {path : List Dir} (h : ucs D (unitCost go) orig dest fuel = .ok (.ok path)) :
    IsPath go D orig path dest ∧ IsDist go D orig dest path.length ∧ (path.length : Int) ≤ cols T * cols T := by
  have hp : IsPath go D orig path dest := by
    have := C61_valid_path T hT ucs hucs D (unitCost go) (unitCost_adjacent hgo) orig dest ho hd fuel path h
    rwa [dropCost_unitCost] at this
  obtain ⟨n, hn⟩ := reachable_iff_isDist.1 ⟨path, hp⟩
  obtain ⟨fuel, hfuel, h⟩ := hucs.more (Ucs.steps T) h
  obtain ⟨h1, h2⟩ := C62_unit_exact T hT ucs hucs D go hgo orig dest ho hd fuel hfuel n hn
  by_cases hlen : (n : Int) ≤ cols T * cols T
  · obtain ⟨path', h3, h4⟩ := h1 hlen
    rw [h] at h3
    injection h3 with h3
    injection h3 with h3
    subst h3
    exact ⟨hp, by rwa [h4], by rwa [h4]⟩
  · rw [h2 (by omega)] at h
    cases h

/-- C146. With costs of 1 the search does return the rest of the path. -/
theorem C146_ucs_unit_rest [Target] (T : PosTy) (hT : T.Searchable) (ucs) (hucs : Ucs.IsSearch T ucs) (ucs') (hucs' : Ucs.IsSearch T ucs') (D : Bool)
    (go : Int × Int → Dir → Option (Int × Int)) (hgo : Adjacent T go) (orig dest : Int × Int) (ho : InGrid T orig) (hd : InGrid T dest) (fuel : Nat)
    (as bs : List Dir) (h : ucs D (unitCost go) orig dest fuel = .ok (.ok (as ++ bs))) (q : Int × Int) (hq : follow go orig as = some q)
    (fuel' : Nat) (hfuel : Ucs.steps T < (fuel' : Int)) : ucs' D (unitCost go) q dest fuel' = .ok (.ok bs) := by
  obtain ⟨h1, h2, h3⟩ := Ucs.unit_returned hT hucs hgo ho hd h
  obtain ⟨q', h4, h5⟩ := isPath_split h1
  rw [h4.2] at hq
  injection hq with hq
  subst hq
  have hqg := isPath_inGrid hgo.staysIn ho h4
  have h6 : IsDist go D q' dest bs.length := ⟨⟨bs, h5, rfl⟩, fun ds hds => by
    have := h2.2 _ (isPath_append h4 hds)
    simp at this
    omega⟩
  obtain ⟨path, h7, -⟩ := (C62_unit_exact T hT ucs' hucs' D go hgo q' dest hqg hd fuel' hfuel _ h6).1 (by simp at h3; omega)
  rw [h7, C146_ucs_rest T hT ucs hucs ucs' hucs' D (unitCost go) (unitCost_adjacent hgo) (unitCost_usize _) (unitCost_enter _)
    (fun p d q w hw => by have := (unitCost_some.1 hw).2; omega) orig dest (.inr ((unitCost_below hT hgo ho).noOverflow)) ho hd fuel as bs h q'
    (by rw [dropCost_unitCost]; exact h4.2) (.inr ((unitCost_below hT hgo hqg).noOverflow)) fuel' path h7]

example : Ucs.pathHash (PosTy.pos 2 2) true (unitCost (aroundWalls (PosTy.pos 2 2) [(1, 0)])) (0, 0) (2, 0) 74 = .ok (.ok ([.SE] ++ [.NE])) ∧ follow (aroundWalls (PosTy.pos 2 2) [(1, 0)]) (0, 0) [.SE] = some (1, 1) := by decide +kernel

/-- C146. And the way to any position on the path. -/
theorem C146_ucs_unit_start [Target] (T : PosTy) (hT : T.Searchable) (ucs) (hucs : Ucs.IsSearch T ucs) (ucs') (hucs' : Ucs.IsSearch T ucs') (D : Bool)
    (go : Int × Int → Dir → Option (Int × Int)) (hgo : Adjacent T go) (orig dest : Int × Int) (ho : InGrid T orig) (hd : InGrid T dest) (fuel : Nat)
    (as bs : List Dir) (h : ucs D (unitCost go) orig dest fuel = .ok (.ok (as ++ bs))) (q : Int × Int) (hq : follow go orig as = some q)
    (fuel' : Nat) (hfuel : Ucs.steps T < (fuel' : Int)) : ucs' D (unitCost go) orig q fuel' = .ok (.ok as) := by
  obtain ⟨h1, h2, h3⟩ := Ucs.unit_returned hT hucs hgo ho hd h
  obtain ⟨q', h4, h5⟩ := isPath_split h1
  rw [h4.2] at hq
  injection hq with hq
  subst hq
  have hqg := isPath_inGrid hgo.staysIn ho h4
  have h6 : IsDist go D orig q' as.length := ⟨⟨as, h4, rfl⟩, fun ds hds => by
    have := h2.2 _ (isPath_append hds h5)
    simp at this
    omega⟩
  obtain ⟨path, h7, -⟩ := (C62_unit_exact T hT ucs' hucs' D go hgo orig q' ho hqg fuel' hfuel _ h6).1 (by simp at h3; omega)
  rw [h7, C146_ucs_start T hT ucs hucs ucs' hucs' D (unitCost go) (unitCost_adjacent hgo) (unitCost_usize _) (unitCost_enter _)
    (fun p d q w hw => by have := (unitCost_some.1 hw).2; omega) orig dest (.inr ((unitCost_below hT hgo ho).noOverflow)) ho hd fuel as bs h q'
    (by rw [dropCost_unitCost]; exact h4.2) fuel' path h7]

example : Ucs.pathHash (PosTy.pos 2 2) true (unitCost (aroundWalls (PosTy.pos 2 2) [(1, 0)])) (0, 0) (1, 1) 74 = .ok (.ok [.SE]) := by decide +kernel

/-! ## C147: closing other ways -/

theorem aroundWalls_closes (T : PosTy) (p : Int × Int) (walls : List (Int × Int)) : Closes (aroundWalls T walls) (aroundWalls T (p :: walls)) := by
  intro q d r h
  unfold aroundWalls at h ⊢
  split at h
  · rename_i hn
    rw [if_pos ⟨hn.1, fun hc => hn.2 (List.mem_cons_of_mem _ hc)⟩]
    exact h
  · cases h

theorem Spec.Closes.isPath {go go' : GoFn} (hclose : Closes go go') {D : Bool} {ds : List Dir} : ∀ {p q : P2}, IsPath go' D p ds q → IsPath go D p ds q := by
  induction ds with
  | nil => intro p q h; exact h
  | cons d ds ih =>
    intro p q h
    rw [show d :: ds = [d] ++ ds from rfl] at h ⊢
    obtain ⟨r, h1, h2⟩ := isPath_split h
    refine isPath_append (isPath_single (h.1 d (by simp)) (hclose _ _ _ ?_)) (ih h2)
    have := h1.2
    simp only [follow] at this
    split at this
    · cases this
    · rename_i hg; injection this with this; rw [hg, this]

/-- C147. Closing steps that are not on the path, and dropping goals other than the one it leads to, does not change the result. -/
theorem C147_bfs [Target] (T : PosTy) (hT : T.Searchable) (bfs) (hbfs : Bf.IsSearch T bfs) (bfs') (hbfs' : Bf.IsSearch T bfs') (D : Bool)
    (go : Int × Int → Dir → Option (Int × Int)) (hgo : Adjacent T go) (go' : Int × Int → Dir → Option (Int × Int)) (hclose : Closes go go')
    (orig : Int × Int) (ho : InGrid T orig) (found found' : Int × Int → Bool) (hfound : ∀ p, found' p = true → found p = true)
    (fuel : Nat) (dest : Int × Int) (path : List Dir) (h : bfs D go orig found fuel = .ok (.ok (dest, path))) (hdest : found' dest = true)
    (hpath : follow go' orig path = some dest) (fuel' : Nat) (hfuel : cols T * rows T < (fuel' : Int)) :
    bfs' D go' orig found' fuel' = .ok (.ok (dest, path)) := by
  obtain ⟨hf, hpath1⟩ := C51_valid_path T hT bfs hbfs D go hgo orig ho found fuel dest _ h
  have hgo' : Adjacent T go' := fun p d q hp hq => hgo p d q hp (hclose _ _ _ hq)
  obtain ⟨hdo, hlen⟩ := Bf.returned hT hbfs hgo ho h
  have hp' : IsPath go' D orig path dest := ⟨hpath1.1, hpath⟩
  obtain ⟨dest', path', h3⟩ := Bf.returns hT hbfs' hgo' ho hfuel hdest hdo hp' hlen
  obtain ⟨hf', hpath'⟩ := C51_valid_path T hT bfs' hbfs' D go' hgo' orig ho _ fuel' dest' _ h3
  obtain ⟨hdo', -⟩ := Bf.returned hT hbfs' hgo' ho h3
  have h4 := C142_first T hT bfs hbfs D go hgo orig ho found fuel dest _ h dest' (hfound _ hf') hdo' _ (hclose.isPath hpath')
  have h5 := C142_first T hT bfs' hbfs' D go' hgo' orig ho _ fuel' dest' _ h3 dest hdest hdo path hp'
  have e : path' = path := by
    rcases h5 with h5 | ⟨h5, h6 | h6⟩
    · omega
    · exact h6
    · rcases h4 with h4 | ⟨-, h4⟩
      · omega
      · exact (ComesBefore.asymm h6 (h4.imp Eq.symm id)).elim
  subst e
  have e := hpath'.2
  rw [hpath] at e
  injection e with e
  rw [h3, e]

-- (1, 2) is closed, and (2, 0) is no longer a goal
example : Bf.pathHash (PosTy.pos 2 2) false (aroundWalls (PosTy.pos 2 2) [(1, 0)]) (0, 0) (fun p => p == (2, 0) || p == (2, 1)) 10 = .ok (.ok ((2, 1), [.S, .E, .E])) ∧
    Bf.pathHash (PosTy.pos 2 2) false (aroundWalls (PosTy.pos 2 2) [(1, 2), (1, 0)]) (0, 0) (fun p => p == (2, 1)) 10 = .ok (.ok ((2, 1), [.S, .E, .E])) := by
  decide +kernel
example : Closes (aroundWalls (PosTy.pos 2 2) [(1, 0)]) (aroundWalls (PosTy.pos 2 2) [(1, 2), (1, 0)]) := aroundWalls_closes _ _ _

/-- The core of the next theorems: the path is still the one that C140 tells. -/
theorem Ucs.closed_back [Target] {T : PosTy} (hT : T.Searchable) {ucs} (hucs : Ucs.IsSearch T ucs) {D : Bool} {go : WGo} (hgo : Adjacent T (dropCost go)) (hc : UsizeCosts go)
    (henter : EnterCost go) (hpos : ∀ p d q w, go p d = some (q, w) → 0 < w) {go' : WGo} (hclose : ClosesOrRaises go go') {orig dest : P2}
    (hov : Target.checks = true ∨ NoOverflow go D orig) (ho : InGrid T orig) (hd : InGrid T dest) {fuel : Nat} {path : List Dir} (h : ucs D go orig dest fuel = .ok (.ok path))
    (hpath : follow (dropCost go') orig path = some dest) (hcost : pathCost go' orig path = pathCost go orig path) :
    Adjacent T (dropCost go') ∧ (∀ p d q w, go' p d = some (q, w) → 0 < w) ∧ ∃ n, IsCostPath go' D orig path dest n ∧ IsMinCost go' D orig dest n ∧ n < limit ∧
    (∀ cs d ds u r k u' d' k', path = cs ++ d :: ds → follow (dropCost go') orig cs = some u → dropCost go' u d = some r → IsMinCost go' D orig u k →
      Allowed D d' → dropCost go' u' d' = some r → IsMinCost go' D orig u' k' → k < k' ∨ k = k' ∧ (u' = u ∨ u'.1 < u.1 ∨ u'.1 = u.1 ∧ u'.2 < u.2)) := by
  obtain ⟨n, hn, hmin⟩ := C63_enter_cost_partial T hT ucs hucs D go hgo hc henter orig dest hov ho hd fuel _ h
  have hgo' : Adjacent T (dropCost go') := by
    intro p d q hp hq
    obtain ⟨⟨q, w⟩, h1, rfl⟩ := Option.map_eq_some_iff.1 hq
    obtain ⟨w0, h2, -⟩ := hclose _ _ _ _ h1
    exact hgo p d q hp (by simp [dropCost, h2])
  have hpos' : ∀ p d q w, go' p d = some (q, w) → 0 < w := by
    intro p d q w hw
    obtain ⟨w0, h2, h3⟩ := hclose _ _ _ _ hw
    have := hpos _ _ _ _ h2
    omega
  -- every way was possible before, and not dearer
  have hsub : ∀ (p : P2) (ds : List Dir) (q : P2) (m : Int), IsCostPath go' D p ds q m → ∃ m0, IsCostPath go D p ds q m0 ∧ m0 ≤ m := by
    intro p ds
    induction ds using List.reverseRecOn with
    | nil =>
      intro q m hds
      obtain ⟨rfl, rfl⟩ := isCostPath_fun hds isCostPath_nil
      exact ⟨0, isCostPath_nil, Int.le_refl _⟩
    | append_singleton ds d ih =>
      intro q m hds
      obtain ⟨u, a, w, h1, h2, h3, h4⟩ := isCostPath_concat hds
      obtain ⟨a0, h5, h6⟩ := ih u a h1
      obtain ⟨w0, h7, h8⟩ := hclose _ _ _ _ h3
      exact ⟨a0 + w0, isCostPath_snoc h5 h2 h7, by omega⟩
  have hn' : IsCostPath go' D orig path dest n := ⟨⟨hn.1.1, hpath⟩, by rw [hcost]; exact hn.2⟩
  have hmin' : IsMinCost go' D orig dest n := ⟨⟨_, hn'⟩, fun ds m hds => by
    obtain ⟨m0, h1, h2⟩ := hsub _ _ _ _ hds
    have := hmin _ _ h1
    omega⟩
  have hlim : n < limit := by
    obtain ⟨⟨n', h3, h4⟩, -⟩ := Ucs.returned_bounds hT hucs hgo hc hov ho hd h
    have := isMinCost_unique h3 ⟨⟨_, hn⟩, hmin⟩
    omega
  refine ⟨hgo', hpos', n, hn', hmin', hlim, ?_⟩
  rintro cs d ds u r k u' d' k' rfl hu hur hk hd' hu' hk'
  -- the costs before
  obtain ⟨⟨r1, w1⟩, hur1, rfl⟩ := Option.map_eq_some_iff.1 hur
  obtain ⟨w2, hur2, -⟩ := hclose _ _ _ _ hur1
  obtain ⟨⟨r3, w3⟩, hu1, e3⟩ := Option.map_eq_some_iff.1 hu'
  obtain ⟨w4, hu2, -⟩ := hclose _ _ _ _ hu1
  obtain ⟨v, a, b, h1, h2, e1⟩ := isCostPath_split hn
  obtain ⟨v', a', b', h1', h2', e2⟩ := isCostPath_split hn'
  obtain ⟨a0, h3, h4⟩ := hsub _ _ _ _ h1'
  obtain ⟨rfl, rfl⟩ := isCostPath_fun h3 h1
  have e4 : v' = u := by
    have := h1'.1.2
    rw [hu] at this
    injection this with this
    exact this.symm
  subst e4
  obtain ⟨b0, h7, h8⟩ := hsub _ _ _ _ h2'
  obtain ⟨-, rfl⟩ := isCostPath_fun h7 h2
  have hk1 := isMinCost_unique hk (show IsMinCost go' D orig v' a' from ⟨⟨_, h1'⟩, fun es m hes => by
    have := hmin'.2 _ _ (isCostPath_append hes h2')
    omega⟩)
  have hk0 : IsMinCost go D orig v' a0 := ⟨⟨_, h1⟩, fun es m hes => by
    have := hmin _ _ (isCostPath_append hes h2)
    omega⟩
  obtain ⟨es, hes⟩ := hk'.1
  obtain ⟨m0, h5, h6⟩ := hsub _ _ _ _ hes
  obtain ⟨K, hK⟩ := isMinCost_exists (D := D) hc.nonNeg ⟨_, h5.1⟩
  have hle := hK.2 _ _ h5
  rcases C140_ucs_back T hT ucs hucs D go hgo hc henter hpos orig dest hov ho hd fuel cs d ds h v' r1 h1.1.2 (by simp [dropCost, hur2]) a0 hk0 u' d' hd'
    (by simp only at e3; simp [dropCost, hu2, e3]) K hK with h9 | ⟨h9, h10⟩
  · exact .inl (by omega)
  · rcases lt_or_ge k k' with h11 | h11
    · exact .inl h11
    · exact .inr ⟨by omega, h10⟩

/-- C147. With positive costs that depend only on the position that is entered, before and after: closing steps that are not on the path and making other steps dearer
does not change the result of the uniform-cost search, if it returns a path. -/
theorem C147_ucs [Target] (T : PosTy) (hT : T.Searchable) (ucs) (hucs : Ucs.IsSearch T ucs) (ucs') (hucs' : Ucs.IsSearch T ucs') (D : Bool)
    (go : Int × Int → Dir → Option ((Int × Int) × Int)) (hgo : Adjacent T (dropCost go)) (hc : UsizeCosts go) (henter : EnterCost go)
    (hpos : ∀ p d q w, go p d = some (q, w) → 0 < w) (go' : Int × Int → Dir → Option ((Int × Int) × Int)) (hclose : ClosesOrRaises go go') (hc' : UsizeCosts go')
    (henter' : EnterCost go') (orig dest : Int × Int) (hov : Target.checks = true ∨ NoOverflow go D orig) (hov' : Target.checks = true ∨ NoOverflow go' D orig)
    (ho : InGrid T orig) (hd : InGrid T dest) (fuel : Nat) (path : List Dir) (h : ucs D go orig dest fuel = .ok (.ok path))
    (hpath : follow (dropCost go') orig path = some dest) (hcost : pathCost go' orig path = pathCost go orig path) (fuel' : Nat) (path' : List Dir)
    (h' : ucs' D go' orig dest fuel' = .ok (.ok path')) : path' = path := by
  obtain ⟨hgo', hpos', n, hn', hmin', -, hback⟩ := Ucs.closed_back hT hucs hgo hc henter hpos hclose hov ho hd h hpath hcost
  exact C140_ucs_exact T hT ucs' hucs' D go' hgo' hc' henter' hpos' orig dest hov' ho hd fuel' path' h' path n hn' hmin' hback

/-- C147. And the search does return the path again, if the sums of the new costs fit. -/
theorem C147_ucs_found [Target] (T : PosTy) (hT : T.Searchable) (ucs) (hucs : Ucs.IsSearch T ucs) (ucs') (hucs' : Ucs.IsSearch T ucs') (D : Bool)
    (go : Int × Int → Dir → Option ((Int × Int) × Int)) (hgo : Adjacent T (dropCost go)) (hc : UsizeCosts go) (henter : EnterCost go)
    (hpos : ∀ p d q w, go p d = some (q, w) → 0 < w) (go' : Int × Int → Dir → Option ((Int × Int) × Int)) (hclose : ClosesOrRaises go go') (hc' : UsizeCosts go')
    (henter' : EnterCost go') (orig dest : Int × Int) (hov : Target.checks = true ∨ NoOverflow go D orig) (hov' : NoOverflow go' D orig)
    (ho : InGrid T orig) (hd : InGrid T dest) (fuel : Nat) (path : List Dir) (h : ucs D go orig dest fuel = .ok (.ok path))
    (hpath : follow (dropCost go') orig path = some dest) (hcost : pathCost go' orig path = pathCost go orig path) (fuel' : Nat)
    (hfuel : Ucs.steps T < (fuel' : Int)) : ucs' D go' orig dest fuel' = .ok (.ok path) := by
  obtain ⟨hgo', hpos', n, hn', hmin', hlim, hback⟩ := Ucs.closed_back hT hucs hgo hc henter hpos hclose hov ho hd h hpath hcost
  rw [C140_ucs_found T hT ucs' hucs' D go' hgo' hc' henter' hpos' orig dest hov' ho hd fuel' hfuel path n hn' hmin' hlim hback, if_pos]
  exact (Ucs.returned_bounds hT hucs hgo hc hov ho hd h).2

-- the positions of the last row are closed, or dearer
example : ClosesOrRaises (unitCost (aroundWalls (PosTy.pos 2 2) [(1, 0)])) (stepCosts (PosTy.pos 2 2) [(1, 2), (1, 0)] fun p d => if (neighbour p d).2 = 2 then 9 else 1) := by
  intro p d q w' h
  simp only [stepCosts, Option.map_eq_some_iff, Prod.mk.injEq] at h
  obtain ⟨r, h1, rfl, rfl⟩ := h
  exact ⟨1, unitCost_some.2 ⟨aroundWalls_closes _ _ _ _ _ _ h1, rfl⟩, by split <;> decide⟩
example : Ucs.pathHash (PosTy.pos 2 2) false (unitCost (aroundWalls (PosTy.pos 2 2) [(1, 0)])) (0, 0) (2, 0) 74 = .ok (.ok [.S, .E, .E, .N]) ∧
    pathCost (stepCosts (PosTy.pos 2 2) [(1, 2), (1, 0)] fun p d => if (neighbour p d).2 = 2 then 9 else 1) (0, 0) [.S, .E, .E, .N] = pathCost (unitCost (aroundWalls (PosTy.pos 2 2) [(1, 0)])) (0, 0) [.S, .E, .E, .N] ∧
    Ucs.pathHash (PosTy.pos 2 2) false (stepCosts (PosTy.pos 2 2) [(1, 2), (1, 0)] fun p d => if (neighbour p d).2 = 2 then 9 else 1) (0, 0) (2, 0) 74 = .ok (.ok [.S, .E, .E, .N]) := by
  decide +kernel

/-- C147. With costs of 1 the search does return the same path. -/
theorem C147_ucs_unit [Target] (T : PosTy) (hT : T.Searchable) (ucs) (hucs : Ucs.IsSearch T ucs) (ucs') (hucs' : Ucs.IsSearch T ucs') (D : Bool)
    (go : Int × Int → Dir → Option (Int × Int)) (hgo : Adjacent T go) (go' : Int × Int → Dir → Option (Int × Int)) (hclose : Closes go go')
    (orig dest : Int × Int) (ho : InGrid T orig) (hd : InGrid T dest) (fuel : Nat) (path : List Dir) (h : ucs D (unitCost go) orig dest fuel = .ok (.ok path))
    (hpath : follow go' orig path = some dest) (fuel' : Nat) (hfuel : Ucs.steps T < (fuel' : Int)) : ucs' D (unitCost go') orig dest fuel' = .ok (.ok path) := by
  have hgo' : Adjacent T go' := fun p d q hp hq => hgo p d q hp (hclose _ _ _ hq)
  obtain ⟨h1, h2, h3⟩ := Ucs.unit_returned hT hucs hgo ho hd h
  have hp' : IsPath go' D orig path dest := ⟨h1.1, hpath⟩
  have h4 : IsDist go' D orig dest path.length := ⟨⟨path, hp', rfl⟩, fun ds hds => h2.2 _ (hclose.isPath hds)⟩
  obtain ⟨path', h5, h6⟩ := (C62_unit_exact T hT ucs' hucs' D go' hgo' orig dest ho hd fuel' hfuel _ h4).1 h3
  rw [h5, C147_ucs T hT ucs hucs ucs' hucs' D (unitCost go) (unitCost_adjacent hgo) (unitCost_usize _) (unitCost_enter _)
    (fun p d q w hw => by have := (unitCost_some.1 hw).2; omega) (unitCost go')
    (fun p d q w hw => ⟨1, unitCost_some.2 ⟨hclose _ _ _ (unitCost_some.1 hw).1, rfl⟩, by have := (unitCost_some.1 hw).2; omega⟩) (unitCost_usize _) (unitCost_enter _)
    orig dest (.inr (unitCost_below hT hgo ho).noOverflow) (.inr (unitCost_below hT hgo' ho).noOverflow) ho hd fuel path h
    (by rw [dropCost_unitCost]; exact hpath) ?_ fuel' path' h5]
  rw [(isCostPath_unit.2 ⟨hp', rfl⟩).2, (isCostPath_unit.2 ⟨h1, rfl⟩).2]

example : Ucs.pathHash (PosTy.pos 2 2) false (unitCost (aroundWalls (PosTy.pos 2 2) [(1, 0)])) (0, 0) (2, 0) 74 = .ok (.ok [.S, .E, .E, .N]) ∧
    follow (aroundWalls (PosTy.pos 2 2) [(1, 2), (1, 0)]) (0, 0) [.S, .E, .E, .N] = some (2, 0) := by decide +kernel

/-! ## C148: calculating the path anew before each step -/

theorem replan_follows {search : P2 → Out (Res (List Dir))} {go : GoFn} {orig : P2} {path : List Dir} {dest : P2} (hpath : follow go orig path = some dest)
    (h : ∀ as bs q, path = as ++ bs → bs ≠ [] → follow go orig as = some q → search q = .ok (.ok bs)) :
    ∀ k ≤ path.length, replan search go orig k = follow go orig (path.take k) := by
  intro k
  induction k with
  | zero => intro _; rfl
  | succ k ih =>
    intro hk
    have e : path = path.take k ++ path[k] :: path.drop (k + 1) := by simp
    have e2 : path.take (k + 1) = path.take k ++ [path[k]] := by rw [List.take_succ_eq_append_getElem]
    rw [replan, ih (by omega)]
    have h1 := hpath
    rw [e, follow_append] at h1
    cases h2 : follow go orig (path.take k) with
    | none => rw [h2] at h1; cases h1
    | some q =>
      simp only
      have h3 := h _ _ q e (List.cons_ne_nil _ _) h2
      rw [h3, e2, follow_append, h2]
      simp only [follow, Option.bind_some]
      cases go q path[k] <;> rfl

/-- C148. Somebody who calls a breadth-first search to the same goals before each step, and takes the first step of its path, goes along the path that was returned at first;
if the origin was not itself a goal. -/
theorem C148_bfs [Target] (T : PosTy) (hT : T.Searchable) (bfs) (hbfs : Bf.IsSearch T bfs) (D : Bool) (go : Int × Int → Dir → Option (Int × Int)) (hgo : Adjacent T go)
    (orig : Int × Int) (ho : InGrid T orig) (found : Int × Int → Bool) (hfo : found orig = false) (fuel : Nat) (hfuel : cols T * rows T < (fuel : Int))
    (dest : Int × Int) (path : List Dir) (h : bfs D go orig found fuel = .ok (.ok (dest, path))) :
    ∀ k ≤ path.length, replan (fun p => bfs D go p found fuel >>= fun r => .ok (r.map Prod.snd)) go orig k = follow go orig (path.take k) := by
  obtain ⟨hf, hpath⟩ := C51_valid_path T hT bfs hbfs D go hgo orig ho found fuel dest _ h
  refine replan_follows hpath.2 ?_
  rintro as bs q rfl hbs hq
  rw [C146_bfs_rest T hT bfs hbfs bfs hbfs D go hgo orig ho found hfo fuel dest as bs hbs h q hq fuel hfuel]
  rfl

example : Bf.pathHash (PosTy.pos 2 2) false (aroundWalls (PosTy.pos 2 2) [(1, 0)]) (0, 0) (fun p => p == (2, 0)) 10 = .ok (.ok ((2, 0), [.S, .E, .E, .N])) ∧
    replan (fun p => Bf.pathHash (PosTy.pos 2 2) false (aroundWalls (PosTy.pos 2 2) [(1, 0)]) p (fun p => p == (2, 0)) 10 >>= fun r => .ok (r.map Prod.snd)) (aroundWalls (PosTy.pos 2 2) [(1, 0)]) (0, 0) 3 = some (2, 1) := by decide +kernel

/-- C148. The same for the uniform-cost search with costs of 1. -/
theorem C148_ucs [Target] (T : PosTy) (hT : T.Searchable) (ucs) (hucs : Ucs.IsSearch T ucs) (D : Bool) (go : Int × Int → Dir → Option (Int × Int)) (hgo : Adjacent T go)
    (orig dest : Int × Int) (ho : InGrid T orig) (hd : InGrid T dest) (fuel : Nat) (hfuel : Ucs.steps T < (fuel : Int))
    (path : List Dir) (h : ucs D (unitCost go) orig dest fuel = .ok (.ok path)) :
    ∀ k ≤ path.length, replan (fun p => ucs D (unitCost go) p dest fuel) go orig k = follow go orig (path.take k) := by
  obtain ⟨hpath, -, -⟩ := Ucs.unit_returned hT hucs hgo ho hd h
  refine replan_follows hpath.2 ?_
  rintro as bs q rfl hbs hq
  exact C146_ucs_unit_rest T hT ucs hucs ucs hucs D go hgo orig dest ho hd fuel as bs h q hq fuel hfuel

example : Ucs.pathHash (PosTy.pos 2 2) false (unitCost (aroundWalls (PosTy.pos 2 2) [(1, 0)])) (0, 0) (2, 0) 74 = .ok (.ok [.S, .E, .E, .N]) ∧
    replan (fun p => Ucs.pathHash (PosTy.pos 2 2) false (unitCost (aroundWalls (PosTy.pos 2 2) [(1, 0)])) p (2, 0) 74) (aroundWalls (PosTy.pos 2 2) [(1, 0)]) (0, 0) 3 = some (2, 1) := by decide +kernel

/-- C148. The same with positive costs that depend only on the position entered; the sums of the costs have to fit, from wherever one starts. -/
theorem C148_ucs_costs [Target] (T : PosTy) (hT : T.Searchable) (ucs) (hucs : Ucs.IsSearch T ucs) (D : Bool)
    (go : Int × Int → Dir → Option ((Int × Int) × Int)) (hgo : Adjacent T (dropCost go)) (hc : UsizeCosts go) (henter : EnterCost go)
    (hpos : ∀ p d q w, go p d = some (q, w) → 0 < w) (hb : ∀ p, InGrid T p → NoOverflow go D p) (orig dest : Int × Int) (ho : InGrid T orig) (hd : InGrid T dest)
    (fuel : Nat) (hfuel : Ucs.steps T < (fuel : Int)) (path : List Dir) (h : ucs D go orig dest fuel = .ok (.ok path)) :
    ∀ k ≤ path.length, replan (fun p => ucs D go p dest fuel) (dropCost go) orig k = follow (dropCost go) orig (path.take k) := by
  have hpath := C61_valid_path T hT ucs hucs D go hgo orig dest ho hd fuel path h
  refine replan_follows hpath.2 ?_
  rintro as bs q rfl - hq
  obtain ⟨q', h1, h2⟩ := isPath_split hpath
  rw [h1.2] at hq
  injection hq with hq
  subst hq
  have hq := isPath_inGrid hgo.staysIn ho h1
  exact C146_ucs_rest_found T hT ucs hucs ucs hucs D go hgo hc henter hpos orig dest (.inr (hb _ ho)) ho hd fuel as bs h q' h1.2 (hb _ hq) fuel hfuel

-- with a dear column
example : ∀ p, InGrid (PosTy.pos 2 2) p → NoOverflow (stepCosts (PosTy.pos 2 2) [(1, 0)] swamp) false p := fun p hp =>
  (stepCosts_below (PosTy.pos_searchable (by decide) (by decide) (.inl rfl)) _ _ hp (B := 5) (by decide) (fun p d => (swamp_bounds p d).2) (by decide)).noOverflow
example : replan (fun p => Ucs.pathHash (PosTy.pos 2 2) false (stepCosts (PosTy.pos 2 2) [(1, 0)] swamp) p (2, 0) 74)
    (dropCost (stepCosts (PosTy.pos 2 2) [(1, 0)] swamp)) (0, 0) 3 = some (2, 1) := by decide +kernel

end Sqrid
