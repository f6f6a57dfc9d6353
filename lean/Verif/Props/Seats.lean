import Verif.Spec.Seats
import Verif.Props.Tour
import Verif.Props.Areas
import Mathlib.Data.List.ReduceOption
/-!
# Traversals from both ends: C162
-/

namespace Sqrid

-- Statements that do not mention a target are about a debug build for a 64-bit machine.
attribute [local instance] debug64

open Spec

theorem path_back {T : PosTy} {D : Bool} {go : GoFn} (hgo : StaysIn T go) {free : P2 → Prop} (hback : BackAndForth T D go free) {p q : P2} (hp : InGrid T p) (hf : free p)
    {ds : List Dir} (h : IsPath go D p ds q) : InGrid T q ∧ free q ∧ ∃ es, IsPath go D q es p ∧ es.length = ds.length := by
  induction ds using List.reverseRecOn generalizing q with
  | nil =>
    have := h.2
    simp only [follow, Option.some.injEq] at this
    subst this
    exact ⟨hp, hf, [], isPath_nil, rfl⟩
  | append_singleton ds d ih =>
    obtain ⟨u, h1, h2, h6⟩ := isPath_concat h
    obtain ⟨h3, h4, bs, h5, hl⟩ := ih h1
    obtain ⟨h7, d', h8, h9⟩ := hback u d q h3 h4 h2 h6
    refine ⟨hgo u d q h3 h6, h7, [d'] ++ bs, isPath_append (q := u) ⟨by simpa using h8, by simp [follow, h9]⟩ h5, ?_⟩
    simp [hl]

theorem isDist_back {T : PosTy} {D : Bool} {go : GoFn} (hgo : StaysIn T go) {free : P2 → Prop} (hback : BackAndForth T D go free) {p q : P2} (hp : InGrid T p) (hf : free p)
    {n : Nat} (h : IsDist go D p q n) : IsDist go D q p n := by
  obtain ⟨⟨ds, h1, h2⟩, h3⟩ := h
  obtain ⟨h4, h5, es, h6, h7⟩ := path_back hgo hback hp hf h1
  refine ⟨⟨es, h6, by omega⟩, fun fs hfs => ?_⟩
  obtain ⟨-, -, gs, h8, h9⟩ := path_back hgo hback h4 h5 hfs
  have := h3 gs h8
  omega

/-- The distances that are read off the layers. -/
theorem distIn_spec [Target] {T : PosTy} (hT : T.IsGrid) {iter} (hiter : Bf.IsIter T iter) {D : Bool} {go : GoFn} (hgo : Adjacent T go) {orig : P2} (ho : InGrid T orig)
    {fuel : Nat} (hfuel : cols T * rows T < (fuel : Int)) : ∃ ls, iter D go orig fuel = .ok ls ∧ ∀ q n, distIn orig ls q = some n ↔ IsDist go D orig q n := by
  have hself : ∀ d, go orig d ≠ some orig := by
    intro d hd
    have := (hgo orig d orig ho hd).2
    exact neighbour_ne orig d this.symm
  obtain ⟨ls, h1, h2, h3⟩ := C49_layers_partial T hT iter hiter D go (fun p d q hp h => (hgo p d q hp h).1) orig ho hself fuel hfuel
  have hmem : ∀ (i : Nat) l q, ls[i]? = some l → (q ∈ l.map Prod.fst ↔ IsDist go D orig q (i + 1)) := by
    intro i l q hl
    rw [← (h2 i l hl).1 q]
    simp
  refine ⟨ls, h1, fun q n => ?_⟩
  unfold distIn
  by_cases hq : q = orig
  · rw [if_pos hq, hq]
    constructor
    · rintro ⟨⟩
      exact isDist_zero.2 rfl
    · intro h
      rw [isDist_unique h (isDist_zero.2 rfl)]
  · rw [if_neg hq]
    constructor
    · intro h
      obtain ⟨i, h4, rfl⟩ := Option.map_eq_some_iff.1 h
      obtain ⟨hi, h5, -⟩ := List.findIdx?_eq_some_iff_getElem.1 h4
      exact (hmem i _ q (List.getElem?_eq_getElem hi)).1 (by simpa using h5)
    · intro h
      cases n with
      | zero => exact absurd (isDist_zero.1 h) hq
      | succ n =>
        have hlt : n < ls.length := by
          by_contra hc
          exact h3 n q (by omega) h
        refine Option.map_eq_some_iff.2 ⟨n, List.findIdx?_eq_some_iff_getElem.2 ⟨hlt, ?_, fun j hj hc => ?_⟩, rfl⟩
        · have := (hmem n _ q (List.getElem?_eq_getElem hlt)).2 h
          simpa using this
        · have := (hmem j _ q (List.getElem?_eq_getElem (by omega))).1 (by simpa using hc)
          have := isDist_unique h this
          omega

/-- C162. If steps can be taken back, the program finds exactly the positions that some shortest path from `a` to `b` comes past. -/
theorem C162_seats [Target] (T : PosTy) (hT : T.IsGrid) (iter) (hiter : Bf.IsIter T iter) (D : Bool) (go : Int × Int → Dir → Option (Int × Int)) (hgo : Adjacent T go)
    (free : Int × Int → Prop) (hback : BackAndForth T D go free) (a b : Int × Int) (ha : InGrid T a) (hb : InGrid T b) (hfa : free a) (hfb : free b) (fuel : Nat)
    (hfuel : cols T * rows T < (fuel : Int)) (ps : List (Int × Int)) :
    ∃ fromA fromB, iter D go a fuel = .ok fromA ∧ iter D go b fuel = .ok fromB ∧
      ∀ q, q ∈ seats a b fromA fromB ps ↔ q ∈ ps ∧ ∃ ds, IsPath go D a ds b ∧ (∀ es, IsPath go D a es b → ds.length ≤ es.length) ∧ Passes go a ds q := by
  obtain ⟨fromA, h1, h2⟩ := distIn_spec hT hiter (D := D) hgo ha hfuel
  obtain ⟨fromB, h3, h4⟩ := distIn_spec hT hiter (D := D) hgo hb hfuel
  refine ⟨fromA, fromB, h1, h3, fun q => ?_⟩
  unfold seats
  rw [List.mem_filter]
  refine and_congr_right fun _ => ?_
  constructor
  · intro h
    rw [Bool.and_eq_true, beq_iff_eq] at h
    obtain ⟨h5, h6⟩ := h
    obtain ⟨n, hn⟩ := Option.isSome_iff_exists.1 h5
    rw [hn] at h6
    cases hA : distIn a fromA q with
    | none => rw [hA] at h6; cases h6
    | some i =>
      cases hB : distIn b fromB q with
      | none => rw [hA, hB] at h6; cases h6
      | some j =>
        rw [hA, hB] at h6
        injection h6 with h6
        obtain ⟨⟨as, a1, a2⟩, -⟩ := (h2 q i).1 hA
        obtain ⟨⟨bs, b1, b2⟩, -⟩ := isDist_back hgo.staysIn hback hb hfb ((h4 q j).1 hB)
        refine ⟨as ++ bs, isPath_append a1 b1, fun es hes => ?_, as, bs, rfl, a1.2⟩
        have := ((h2 b n).1 hn).2 es hes
        rw [List.length_append]
        omega
  · rintro ⟨ds, d1, d2, as, bs, rfl, d3⟩
    obtain ⟨q', e1, e2⟩ := isPath_split d1
    have : q' = q := by
      have := e1.2
      rw [d3] at this
      injection this with this
      exact this.symm
    subst this
    have hn : IsDist go D a b (as ++ bs).length := ⟨⟨_, d1, rfl⟩, d2⟩
    have hA : IsDist go D a q' as.length := by
      refine ⟨⟨as, e1, rfl⟩, fun es hes => ?_⟩
      have := d2 _ (isPath_append hes e2)
      simp only [List.length_append] at this
      omega
    have hB : IsDist go D q' b bs.length := by
      refine ⟨⟨bs, e2, rfl⟩, fun es hes => ?_⟩
      have := d2 _ (isPath_append e1 hes)
      simp only [List.length_append] at this
      omega
    obtain ⟨hq', hfq', -⟩ := path_back hgo.staysIn hback ha hfa e1
    rw [(h2 b _).2 hn, (h2 q' _).2 hA, (h4 q' _).2 (isDist_back hgo.staysIn hback hq' hfq' hB)]
    simp [sumOf]

theorem aroundWalls_eq_some {T : PosTy} {walls : List P2} {p q : P2} {d : Dir} : aroundWalls T walls p d = some q ↔ q = neighbour p d ∧ InGrid T q ∧ q ∉ walls := by
  unfold aroundWalls
  constructor
  · intro h
    split at h
    · rename_i hc
      injection h with h
      subst h
      exact ⟨rfl, hc⟩
    · cases h
  · rintro ⟨rfl, h⟩
    exact if_pos h

theorem isPath_avoid {T : PosTy} {D : Bool} {walls walls' : List P2} {w : P2} (hw : ∀ p, p ∈ walls → p = w ∨ p ∈ walls') {ds : List Dir} {p q : P2}
    (h : IsPath (aroundWalls T walls') D p ds q) (hav : ∀ d as bs, ds = d :: as ++ bs → follow (aroundWalls T walls') p (d :: as) ≠ some w) : IsPath (aroundWalls T walls) D p ds q := by
  obtain ⟨hall, h⟩ := h
  refine ⟨hall, ?_⟩
  clear hall
  induction ds generalizing p with
  | nil => exact h
  | cons d ds ih =>
    unfold follow at h ⊢
    cases hg : aroundWalls T walls' p d with
    | none => rw [hg] at h; cases h
    | some r =>
      rw [hg] at h
      obtain ⟨e1, e2, e3⟩ := aroundWalls_eq_some.1 hg
      have hrw : r ≠ w := by
        intro hr
        refine hav d [] ds rfl ?_
        simp only [follow, hg, hr]
      have : aroundWalls T walls p d = some r := aroundWalls_eq_some.2 ⟨e1, e2, fun hm => (hw r hm).elim hrw e3⟩
      rw [this]
      refine ih (fun d' as bs hds => ?_) h
      have := hav d (d' :: as) bs (by rw [hds]; rfl)
      rw [follow, hg] at this
      exact this

theorem isPath_fewer {T : PosTy} {D : Bool} {walls walls' : List P2} (hsub : ∀ p ∈ walls', p ∈ walls) {ds : List Dir} {p q : P2} (h : IsPath (aroundWalls T walls) D p ds q) :
    IsPath (aroundWalls T walls') D p ds q := by
  obtain ⟨hall, h⟩ := h
  refine ⟨hall, ?_⟩
  clear hall
  induction ds generalizing p with
  | nil => exact h
  | cons d ds ih =>
    unfold follow at h ⊢
    cases hg : aroundWalls T walls p d with
    | none => rw [hg] at h; cases h
    | some r =>
      rw [hg] at h
      obtain ⟨e1, e2, e3⟩ := aroundWalls_eq_some.1 hg
      rw [aroundWalls_eq_some.2 ⟨e1, e2, fun hm => e3 (hsub r hm)⟩]
      exact ih h

/-- C162. The other program finds how long the shortest paths would be without the wall, from the traversals with it; none if there would be none even so. -/
theorem C162_without_wall [Target] (T : PosTy) (hT : T.IsGrid) (iter) (hiter : Bf.IsIter T iter) (D : Bool) (walls : List (Int × Int)) (a b : Int × Int) (ha : InGrid T a)
    (hb : InGrid T b) (hfa : a ∉ walls) (hfb : b ∉ walls) (fuel : Nat) (hfuel : cols T * rows T < (fuel : Int)) :
    ∃ fromA fromB, iter D (aroundWalls T walls) a fuel = .ok fromA ∧ iter D (aroundWalls T walls) b fuel = .ok fromB ∧
      ∀ w ∈ walls, InGrid T w → ∀ n, withoutWall D a b fromA fromB w = some n ↔ IsDist (aroundWalls T (walls.filter (· ≠ w))) D a b n := by
  obtain ⟨fromA, h1, h2⟩ := distIn_spec hT hiter (D := D) (aroundWalls_adjacent T walls) ha hfuel
  obtain ⟨fromB, h3, h4⟩ := distIn_spec hT hiter (D := D) (aroundWalls_adjacent T walls) hb hfuel
  refine ⟨fromA, fromB, h1, h3, fun w hw hwg n => ?_⟩
  have hback := aroundWalls_backAndForth T D walls
  have hback' := aroundWalls_backAndForth T D (walls.filter (· ≠ w))
  have hstay := (aroundWalls_adjacent T walls).staysIn
  have hstay' := (aroundWalls_adjacent T (walls.filter (· ≠ w))).staysIn
  have hsub : ∀ p ∈ walls.filter (· ≠ w), p ∈ walls := fun p hp => (List.mem_filter.1 hp).1
  have hor : ∀ p, p ∈ walls → p = w ∨ p ∈ walls.filter (· ≠ w) := by
    intro p hp
    by_cases hpw : p = w
    · exact .inl hpw
    · exact .inr (List.mem_filter.2 ⟨hp, by simpa using hpw⟩)
  have hwfree : w ∉ walls.filter (· ≠ w) := fun h => by simpa using (List.mem_filter.1 h).2
  have haw : a ≠ w := fun h => hfa (h ▸ hw)
  have hbw : b ≠ w := fun h => hfb (h ▸ hw)
  -- The candidates are lengths of paths.
  have hup : ∀ m, some m ∈ (distIn a fromA b :: (clockwise D).flatMap fun d => (clockwise D).map fun e =>
      (sumOf (distIn a fromA (neighbour w d)) (distIn b fromB (neighbour w e))).map (· + 2)) → ∃ ds, IsPath (aroundWalls T (walls.filter (· ≠ w))) D a ds b ∧ ds.length = m := by
    intro m hm
    rcases List.mem_cons.1 hm with hm | hm
    · obtain ⟨⟨ds, h5, h6⟩, -⟩ := (h2 b m).1 hm.symm
      exact ⟨ds, isPath_fewer hsub h5, h6⟩
    · obtain ⟨d, hd, hm⟩ := List.mem_flatMap.1 hm
      obtain ⟨e, he, hm⟩ := List.mem_map.1 hm
      cases hA : distIn a fromA (neighbour w d) with
      | none => rw [hA] at hm; cases hm
      | some i =>
        cases hB : distIn b fromB (neighbour w e) with
        | none => rw [hA, hB] at hm; cases hm
        | some j =>
          rw [hA, hB] at hm
          simp only [sumOf, Option.map_some, Option.some.injEq] at hm
          obtain ⟨⟨as, a1, a2⟩, -⟩ := (h2 _ i).1 hA
          obtain ⟨⟨bs, b1, b2⟩, -⟩ := (h4 _ j).1 hB
          obtain ⟨g1, f1, -⟩ := path_back hstay hback ha hfa a1
          obtain ⟨g2, f2, es, e1, e2⟩ := path_back hstay hback hb hfb b1
          -- Into the wall, and out of it.
          have hin : aroundWalls T (walls.filter (· ≠ w)) w d = some (neighbour w d) := aroundWalls_eq_some.2 ⟨rfl, g1, fun h => f1 (hsub _ h)⟩
          have hout : aroundWalls T (walls.filter (· ≠ w)) w e = some (neighbour w e) := aroundWalls_eq_some.2 ⟨rfl, g2, fun h => f2 (hsub _ h)⟩
          obtain ⟨-, d', k1, k2⟩ := hback' w d _ hwg hwfree (mem_clockwise.1 hd) hin
          refine ⟨as ++ ([d', e] ++ es), isPath_append (isPath_fewer hsub a1) (isPath_append (q := neighbour w e) ⟨?_, ?_⟩ (isPath_fewer hsub e1)), ?_⟩
          · intro x hx
            rcases List.mem_cons.1 hx with rfl | hx
            · exact k1
            · rw [List.mem_singleton.1 hx]
              exact mem_clockwise.1 he
          · simp only [follow, k2, hout]
          · simp only [List.length_append, List.length_cons, List.length_nil]
            omega
  -- A shortest path is as long as a candidate.
  have hlow : ∀ m, IsDist (aroundWalls T (walls.filter (· ≠ w))) D a b m → ∃ i ≤ m, some i ∈ (distIn a fromA b :: (clockwise D).flatMap fun d => (clockwise D).map fun e =>
      (sumOf (distIn a fromA (neighbour w d)) (distIn b fromB (neighbour w e))).map (· + 2)) := by
    rintro m ⟨⟨ds, d1, d2⟩, d3⟩
    by_cases hp : Passes (aroundWalls T (walls.filter (· ≠ w))) a ds w
    · obtain ⟨as, bs, rfl, e1⟩ := hp
      obtain ⟨w', e2, e3⟩ := isPath_split d1
      have : w' = w := by
        have := e2.2
        rw [e1] at this
        injection this with this
        exact this.symm
      subst this
      obtain ⟨as, d, rfl⟩ : ∃ as' d, as = as' ++ [d] := by
        rcases List.eq_nil_or_concat as with rfl | ⟨a', d, rfl⟩
        · unfold follow at e1
          injection e1 with e1
          exact absurd e1 haw
        · exact ⟨a', d, by simp⟩
      obtain ⟨e, bs, rfl⟩ : ∃ e bs', bs = e :: bs' := by
        cases bs with
        | nil =>
          have := e3.2
          unfold follow at this
          injection this with this
          exact absurd this.symm hbw
        | cons e bs => exact ⟨e, bs, rfl⟩
      obtain ⟨p, f1, f2, f3⟩ := isPath_concat e2
      obtain ⟨r, f4, f5⟩ := isPath_split (as := [e]) (bs := bs) e3
      have f6 : aroundWalls T (walls.filter (· ≠ w')) w' e = some r := by
        have := f4.2
        unfold follow at this
        cases hg : aroundWalls T (walls.filter (· ≠ w')) w' e with
        | none => rw [hg] at this; cases this
        | some r' =>
          rw [hg] at this
          exact this
      obtain ⟨rfl, k1, k2⟩ := aroundWalls_eq_some.1 f6
      -- Neither part comes past the wall.
      have g1 : IsPath (aroundWalls T walls) D a as p := by
        refine isPath_avoid hor f1 fun x xs ys hx hfx => ?_
        subst hx
        obtain ⟨y, y1, y2⟩ := isPath_split f1
        have := d3 _ (isPath_append (q := w') ⟨y1.1, hfx⟩ e3)
        simp only [List.length_append, List.length_cons, List.length_nil] at this d2
        omega
      have g2 : IsPath (aroundWalls T walls) D (neighbour w' e) bs b := by
        refine isPath_avoid hor f5 fun x xs ys hx hfx => ?_
        subst hx
        obtain ⟨y, y1, y2⟩ := isPath_split f5
        have : y = w' := by
          have := y1.2
          rw [hfx] at this
          injection this with this
          exact this.symm
        subst this
        have := d3 _ (isPath_append e2 y2)
        simp only [List.length_append, List.length_cons, List.length_nil] at this d2
        omega
      obtain ⟨i, hi⟩ := reachable_iff_isDist.1 ⟨as, g1⟩
      have hne : neighbour w' e ∉ walls := by
        intro hm
        rcases hor _ hm with h | h
        · exact neighbour_ne w' e h
        · exact k2 h
      obtain ⟨-, -, cs, c1, c2⟩ := path_back hstay hback k1 hne g2
      obtain ⟨j, hj⟩ := reachable_iff_isDist.1 ⟨cs, c1⟩
      -- The step into the wall, taken back.
      obtain ⟨pg, pf, -⟩ := path_back hstay' hback' ha (fun h => hfa (hsub _ h)) f1
      obtain ⟨-, d', x1, x2⟩ := hback' p d w' pg pf f2 f3
      obtain ⟨rfl, -, -⟩ := aroundWalls_eq_some.1 x2
      refine ⟨i + j + 2, ?_, List.mem_cons_of_mem _ (List.mem_flatMap.2 ⟨d', mem_clockwise.2 x1, List.mem_map.2 ⟨e, mem_clockwise.2 (f4.1 e (by simp)), ?_⟩⟩)⟩
      · have := hi.2 as g1
        have := hj.2 cs c1
        simp only [List.length_append, List.length_cons, List.length_nil] at d2
        omega
      · rw [(h2 _ i).2 hi, (h4 _ j).2 hj]
        rfl
    · have g1 : IsPath (aroundWalls T walls) D a ds b := isPath_avoid hor d1 fun d as bs hds hf => hp ⟨d :: as, bs, hds, hf⟩
      obtain ⟨i, hi⟩ := reachable_iff_isDist.1 ⟨ds, g1⟩
      exact ⟨i, by have := hi.2 ds g1; omega, by rw [(h2 b i).2 hi]; simp⟩
  unfold withoutWall
  rw [List.min?_eq_some_iff]
  simp only [List.reduceOption_mem_iff]
  constructor
  · rintro ⟨m1, m2⟩
    obtain ⟨ds, d1, d2⟩ := hup n m1
    obtain ⟨k, hk⟩ := reachable_iff_isDist.1 ⟨ds, d1⟩
    obtain ⟨i, i1, i2⟩ := hlow k hk
    have := m2 i i2
    have := hk.2 ds d1
    have : k = n := by omega
    exact this ▸ hk
  · intro hn
    obtain ⟨i, i1, i2⟩ := hlow n hn
    obtain ⟨ds, d1, d2⟩ := hup i i2
    have := hn.2 ds d1
    have : i = n := by omega
    subst this
    refine ⟨i2, fun m hm => ?_⟩
    obtain ⟨es, e1, e2⟩ := hup m hm
    have := hn.2 es e1
    omega

-- The positions on shortest paths around a wall, and how much shorter they are without it.
example : (Bf.iterHash false (aroundWalls (PosTy.pos 2 2) [(1, 0), (1, 1)]) (0, 0) 10 >>= fun fromA => Bf.iterHash false (aroundWalls (PosTy.pos 2 2) [(1, 0), (1, 1)]) (2, 1) 10 >>= fun fromB =>
    .ok (seats (0, 0) (2, 1) fromA fromB (allPositions (PosTy.pos 2 2) true), withoutWall false (0, 0) (2, 1) fromA fromB (1, 0), withoutWall false (0, 0) (2, 1) fromA fromB (1, 1))) =
    .ok ([(0, 0), (0, 1), (2, 1), (0, 2), (1, 2), (2, 2)], some 3, some 3) := by decide +kernel
example : (0, 0) ∉ [((1 : Int), (0 : Int)), (1, 1)] ∧ InGrid (PosTy.pos 2 2) (1, 1) := by unfold InGrid; decide

end Sqrid
