import Verif.Props.Areas
import Verif.Spec.Field
/-!
# The distances of all positions, and the way down: C152

A program that keeps the number of the layer of each position in a map has the distances, and finds shortest ways to the origin from anywhere by going down in it.
-/

namespace Sqrid

-- Statements that do not mention a target are about a debug build for a 64-bit machine.
attribute [local instance] debug64

open Spec

theorem setAll_sim {T : PosTy} {C : MapImpl Int} {R} (hR : C.Sim T 0 R) (v : Int) (l : List (P2 × Dir)) (hl : ∀ m ∈ l, InGrid T m.1) {s : C.σ} {f : P2 → Int} (h : R s f) :
    ∃ s' f', l.foldlM (fun field m => C.set field m.1 v) s = .ok s' ∧ R s' f' ∧ ∀ q, f' q = if q ∈ l.map Prod.fst then v else f q := by
  induction l generalizing s f with
  | nil => exact ⟨s, f, rfl, h, by simp⟩
  | cons m l ih =>
    obtain ⟨s1, h1, h2⟩ := hR.set v h (hl m (by simp))
    obtain ⟨s', f', h3, h4, h5⟩ := ih (fun x hx => hl x (by simp [hx])) h2
    refine ⟨s', f', by rw [List.foldlM_cons, h1]; exact h3, h4, fun q => ?_⟩
    rw [h5]
    unfold upd
    by_cases e : q = m.1
    · simp [e]
    · simp only [List.map_cons, List.mem_cons, e, false_or, if_false]

theorem fillLayers_sim {T : PosTy} {C : MapImpl Int} {R} (hR : C.Sim T 0 R) (ls : List (List (P2 × Dir))) : ∀ (k : Int) {s : C.σ} {f : P2 → Int},
    (∀ l ∈ ls, ∀ m ∈ l, InGrid T m.1) → R s f → ∃ s' f', fillLayers C ls k s = .ok s' ∧ R s' f' ∧
      (∀ q, (∀ l ∈ ls, q ∉ l.map Prod.fst) → f' q = f q) ∧
      (∀ q (i : Nat) l, ls[i]? = some l → q ∈ l.map Prod.fst → (∀ (j : Nat) l', ls[j]? = some l' → q ∈ l'.map Prod.fst → j = i) → f' q = k + i + 1) := by
  induction ls with
  | nil => intro k s f _ h; exact ⟨s, f, rfl, h, by simp, by simp⟩
  | cons l ls ih =>
    intro k s f hin h
    obtain ⟨s1, f1, h1, h2, h3⟩ := setAll_sim hR (k + 1) l (hin l (by simp)) h
    obtain ⟨s', f', h4, h5, h6, h7⟩ := ih (k + 1) (fun x hx => hin x (by simp [hx])) h2
    refine ⟨s', f', by unfold fillLayers; rw [h1, Out.ok_bind]; exact h4, h5, fun q hq => ?_, fun q i l' hi hq hu => ?_⟩
    · rw [h6 q fun x hx => hq x (by simp [hx]), h3, if_neg (hq l (by simp))]
    · cases i with
      | zero =>
        simp only [List.getElem?_cons_zero, Option.some.injEq] at hi
        subst hi
        rw [h6 q fun x hx hqx => ?_, h3, if_pos hq]
        · simp
        · obtain ⟨j, hj, rfl⟩ := List.mem_iff_getElem.1 hx
          have := hu (j + 1) _ (by rw [List.getElem?_cons_succ]; exact List.getElem?_eq_getElem hj) hqx
          omega
      | succ i =>
        rw [List.getElem?_cons_succ] at hi
        rw [h7 q i l' hi hq fun j l2 hj hq2 => ?_]
        · push_cast
          omega
        · have := hu (j + 1) l2 (by rw [List.getElem?_cons_succ]; exact hj) hq2
          omega

/-- The first step down. -/
theorem firstLower_spec {C : MapImpl Int} {go : GoFn} {field : C.σ} {p : P2} {k : Int} {f : P2 → Int} (ds : List Dir)
    (hget : ∀ d ∈ ds, ∀ q, go p d = some q → C.get field q = .ok (f q)) :
    (firstLower C go field p k ds = .ok none ∧ ∀ d ∈ ds, ∀ q, go p d = some q → k ≤ f q) ∨
    ∃ d q, d ∈ ds ∧ go p d = some q ∧ f q < k ∧ firstLower C go field p k ds = .ok (some (d, q)) := by
  induction ds with
  | nil => exact .inl ⟨rfl, by simp⟩
  | cons d ds ih =>
    unfold firstLower
    cases hg : go p d with
    | none =>
      simp only
      rcases ih fun x hx => hget x (by simp [hx]) with ⟨h1, h2⟩ | ⟨e, q, h1, h2⟩
      · refine .inl ⟨h1, fun x hx q hq => ?_⟩
        rcases List.mem_cons.1 hx with rfl | hx
        · rw [hg] at hq; cases hq
        · exact h2 x hx q hq
      · exact .inr ⟨e, q, by simp [h1], h2⟩
    | some r =>
      simp only
      rw [hget d (by simp) r hg, Out.ok_bind]
      by_cases hr : f r < k
      · rw [if_pos hr]
        exact .inr ⟨d, r, by simp, hg, hr, rfl⟩
      · rw [if_neg hr]
        rcases ih fun x hx => hget x (by simp [hx]) with ⟨h1, h2⟩ | ⟨e, q, h1, h2⟩
        · refine .inl ⟨h1, fun x hx q hq => ?_⟩
          rcases List.mem_cons.1 hx with rfl | hx
          · rw [hg] at hq
            injection hq with hq
            subst hq
            omega
          · exact h2 x hx q hq
        · exact .inr ⟨e, q, by simp [h1], h2⟩

/-- C152. The map has the distance of each position that can be reached, and the limit (`usize::MAX`) for the others. If each step between free positions can be taken back,
then from each position that can be reached, the way down is a path to the origin and has as many steps as the distance; no path to the origin has fewer. From the other
free positions there is no way down. -/
theorem C152_field [Target] (T : PosTy) (hT : T.IsGrid) (iter) (hiter : Bf.IsIter T iter) (C : MapImpl Int) (hC : C.Is T 0) (D : Bool)
    (go : Int × Int → Dir → Option (Int × Int)) (hgo : Adjacent T go) (orig : Int × Int) (ho : InGrid T orig) (fuel : Nat) (hfuel : cols T * rows T < (fuel : Int)) :
    ∃ ls field, iter D go orig fuel = .ok ls ∧ distanceField C orig ls = .ok field ∧
      (∀ q n, IsDist go D orig q n → C.get field q = .ok (n : Int)) ∧ (∀ q, InGrid T q → ¬ Reachable go D orig q → C.get field q = .ok limit) ∧
      ∀ free : Int × Int → Prop, BackAndForth T D go free → free orig → ∀ steps : Nat, cols T * rows T < (steps : Int) →
        (∀ q n, IsDist go D orig q n → ∃ path, wayDown C D go field steps q = .ok path ∧ IsPath go D q path orig ∧ path.length = n ∧
          ∀ ds, IsPath go D q ds orig → n ≤ ds.length) ∧
        (∀ q, InGrid T q → free q → ¬ Reachable go D orig q → wayDown C D go field steps q = .ok []) := by
  obtain ⟨R, hR⟩ := MapImpl.sim_of_is hT hC
  have hself : ∀ d, go orig d ≠ some orig := by
    intro d hd
    have := (hgo orig d orig ho hd).2
    exact neighbour_ne orig d this.symm
  obtain ⟨ls, h1, h2, h3⟩ := C49_layers_partial T hT iter hiter D go hgo.staysIn orig ho hself fuel hfuel
  have hmem : ∀ (i : Nat) l q, ls[i]? = some l → (q ∈ l.map Prod.fst ↔ IsDist go D orig q (i + 1)) := by
    intro i l q hi
    rw [← (h2 i l hi).1 q]
    constructor
    · intro hq
      obtain ⟨m, hm, rfl⟩ := List.mem_map.1 hq
      exact ⟨m.2, hm⟩
    · rintro ⟨d, hd⟩
      exact List.mem_map.2 ⟨_, hd, rfl⟩
  have hin : ∀ l ∈ ls, ∀ m ∈ l, InGrid T m.1 := by
    intro l hl m hm
    obtain ⟨i, hi, rfl⟩ := List.mem_iff_getElem.1 hl
    exact isDist_inGrid hgo.staysIn ho ((hmem i _ m.1 (List.getElem?_eq_getElem hi)).1 (List.mem_map.2 ⟨m, hm, rfl⟩))
  obtain ⟨s0, h4, h5⟩ := hR.set 0 (hR.new limit) ho
  obtain ⟨field, f, h6, h7, h8, h9⟩ := fillLayers_sim hR ls 0 hin h5
  have hdist : ∀ q n, IsDist go D orig q n → f q = n := by
    intro q n hq
    cases n with
    | zero =>
      rw [isDist_zero] at hq
      subst hq
      rw [h8 q fun l hl hm => ?_, upd_same]
      · rfl
      · obtain ⟨i, hi, rfl⟩ := List.mem_iff_getElem.1 hl
        have := isDist_unique ((hmem i _ q (List.getElem?_eq_getElem hi)).1 hm) (isDist_zero.2 rfl)
        omega
    | succ n =>
      have hn : n < ls.length := by
        by_contra hn
        exact h3 n q (by omega) hq
      rw [h9 q n _ (List.getElem?_eq_getElem hn) ((hmem n _ q (List.getElem?_eq_getElem hn)).2 hq) fun j l' hj hq' => ?_]
      · push_cast
        omega
      · have := isDist_unique ((hmem j _ q hj).1 hq') hq
        omega
  have hfar : ∀ q, ¬ Reachable go D orig q → f q = limit := by
    intro q hq
    rw [h8 q fun l hl hm => ?_, upd_other _ _ ?_]
    · rintro rfl
      exact hq ⟨[], isPath_nil⟩
    · obtain ⟨i, hi, rfl⟩ := List.mem_iff_getElem.1 hl
      exact hq (reachable_iff_isDist.2 ⟨_, (hmem i _ q (List.getElem?_eq_getElem hi)).1 hm⟩)
  have hget : ∀ q, InGrid T q → C.get field q = .ok (f q) := fun q hq => hR.get h7 hq
  refine ⟨ls, field, h1, by unfold distanceField; rw [h4, Out.ok_bind]; exact h6, fun q n hq => ?_, fun q hq hr => ?_, fun free hback hfo steps hsteps => ⟨?_, ?_⟩⟩
  · rw [hget q (isDist_inGrid hgo.staysIn ho hq), hdist q n hq]
  · rw [hget q hq, hfar q hr]
  · have hlow : ∀ q n, IsDist go D orig q n → ∀ ds, IsPath go D q ds orig → n ≤ ds.length := by
      intro q n hq ds hds
      induction ds generalizing q n with
      | nil =>
        have := hds.2
        simp only [follow, Option.some.injEq] at this
        subst this
        have := isDist_unique hq (isDist_zero.2 rfl)
        omega
      | cons d ds ih =>
        obtain ⟨a1, a2⟩ := hds
        simp only [List.mem_cons, forall_eq_or_imp] at a1
        simp only [follow] at a2
        cases hg : go q d with
        | none => rw [hg] at a2; cases a2
        | some r =>
          rw [hg] at a2
          obtain ⟨b1, b2, -⟩ := reachable_back hgo.staysIn hback ho hfo (reachable_iff_isDist.2 ⟨n, hq⟩)
          obtain ⟨-, d', b3, b4⟩ := hback q d r b1 b2 a1.1 hg
          obtain ⟨ds', hds', -⟩ := hq.1
          obtain ⟨m, hm⟩ := reachable_iff_isDist.1 ⟨_, isPath_append hds' (isPath_single a1.1 hg)⟩
          have := ih r m hm ⟨a1.2, a2⟩
          have := isDist_le_edge hm ⟨d', b3, b4⟩ hq
          rw [List.length_cons]
          omega
    have key : ∀ n q, IsDist go D orig q n → ∀ steps, n < steps → ∃ path, wayDown C D go field steps q = .ok path ∧ IsPath go D q path orig ∧ path.length = n := by
      intro n
      induction n with
      | zero =>
        intro q hq steps hs
        obtain ⟨steps, rfl⟩ : ∃ m, steps = m + 1 := ⟨steps - 1, by omega⟩
        have e := isDist_zero.1 hq
        subst e
        refine ⟨[], ?_, isPath_nil, rfl⟩
        unfold wayDown
        rw [hget _ ho, hdist _ 0 hq, Out.ok_bind]
        rfl
      | succ n ih =>
        intro q hq steps hs
        obtain ⟨steps, rfl⟩ : ∃ m, steps = m + 1 := ⟨steps - 1, by omega⟩
        obtain ⟨b1, b2, -⟩ := reachable_back hgo.staysIn hback ho hfo (reachable_iff_isDist.2 ⟨_, hq⟩)
        unfold wayDown
        rw [hget _ b1, hdist _ _ hq, Out.ok_bind, if_neg (by omega), toList_dirs, Out.ok_bind]
        have hnext : ∀ d r, Allowed D d → go q d = some r → ∃ m, IsDist go D orig r m ∧ n ≤ m := by
          intro d r hd hg
          obtain ⟨ds', hds', -⟩ := hq.1
          obtain ⟨m, hm⟩ := reachable_iff_isDist.1 ⟨_, isPath_append hds' (isPath_single hd hg)⟩
          obtain ⟨-, d', b3, b4⟩ := hback q d r b1 b2 hd hg
          have := isDist_le_edge hm ⟨d', b3, b4⟩ hq
          exact ⟨m, hm, by omega⟩
        rcases firstLower_spec (C := C) (go := go) (field := field) (p := q) (k := ((n + 1 : Nat) : Int)) (f := f) (clockwise D)
          (fun d hd r hr => hget r (hgo.staysIn q d r b1 hr)) with ⟨-, c2⟩ | ⟨d, r, c1, c2, c3, c4⟩
        · exfalso
          obtain ⟨p, hp, d, hd, hg⟩ := isDist_pred hq
          obtain ⟨e1, e2, -⟩ := reachable_back hgo.staysIn hback ho hfo (reachable_iff_isDist.2 ⟨_, hp⟩)
          obtain ⟨-, d', e3, e4⟩ := hback p d q e1 e2 hd hg
          have := c2 d' (mem_clockwise.2 e3) p e4
          rw [hdist p n hp] at this
          omega
        · obtain ⟨m, e1, e2⟩ := hnext d r (mem_clockwise.1 c1) c2
          rw [hdist r m e1] at c3
          obtain rfl : m = n := by omega
          obtain ⟨path, e3, e4, e5⟩ := ih r e1 steps (by omega)
          rw [c4, Out.ok_bind]
          simp only
          rw [e3, Out.ok_bind]
          exact ⟨d :: path, rfl, isPath_append (as := [d]) (isPath_single (mem_clockwise.1 c1) c2) e4, by rw [List.length_cons, e5]⟩
    intro q n hq
    have hn := isDist_lt hgo.staysIn ho hq
    have := hT.cells_eq
    obtain ⟨path, a1, a2, a3⟩ := key n q hq steps (by omega)
    exact ⟨path, a1, a2, a3, hlow q n hq⟩
  · intro q hq hfq hr
    obtain ⟨steps, rfl⟩ : ∃ m, steps = m + 1 := ⟨steps - 1, by
      have := hT.cells_eq
      omega⟩
    have hlim : limit ≠ 0 := by unfold limit; split <;> decide
    unfold wayDown
    rw [hget _ hq, hfar q hr, Out.ok_bind, if_neg hlim, toList_dirs, Out.ok_bind]
    rcases firstLower_spec (C := C) (go := go) (field := field) (p := q) (k := limit) (f := f) (clockwise D)
      (fun d hd r hr => hget r (hgo.staysIn q d r hq hr)) with ⟨c1, -⟩ | ⟨d, r, c1, c2, c3, -⟩
    · rw [c1]
      rfl
    · exfalso
      have hrr : ¬ Reachable go D orig r := by
        intro h
        obtain ⟨-, d', e3, e4⟩ := hback q d r hq hfq (mem_clockwise.1 c1) c2
        exact hr (reachable_append h ⟨[d'], isPath_single e3 e4⟩)
      rw [hfar r hrr] at c3
      omega

-- The way down around a wall, and from a position that cannot be reached.
example : (Bf.iterHash false (aroundWalls (PosTy.pos 2 2) [(1, 0), (1, 1)]) (0, 0) 10 >>= fun ls => distanceField (.hash 0) (0, 0) ls >>= fun field =>
    wayDown (.hash 0) false (aroundWalls (PosTy.pos 2 2) [(1, 0), (1, 1)]) field 10 (2, 0)) = .ok [.S, .S, .W, .W, .N, .N] := by decide +kernel
example : (Bf.iterHash false (aroundWalls (PosTy.pos 2 2) [(1, 0), (1, 1), (1, 2)]) (0, 0) 10 >>= fun ls => distanceField (.hash 0) (0, 0) ls >>= fun field =>
    wayDown (.hash 0) false (aroundWalls (PosTy.pos 2 2) [(1, 0), (1, 1), (1, 2)]) field 10 (2, 0)) = .ok [] := by decide +kernel
example : BackAndForth (PosTy.pos 2 2) false (aroundWalls (PosTy.pos 2 2) [(1, 0), (1, 1)]) (fun p => p ∉ [(1, 0), (1, 1)]) :=
  aroundWalls_backAndForth (PosTy.pos 2 2) false [(1, 0), (1, 1)]

end Sqrid
