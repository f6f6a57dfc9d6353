import Verif.Spec.Tour
import Verif.Props.SearchLaws
/-!
# A shortest way past several positions: C160
-/

namespace Sqrid

-- Statements that do not mention a target are about a debug build for a 64-bit machine.
attribute [local instance] debug64

open Spec

theorem first_passed {go : GoFn} {ts : List P2} (hne : ts ≠ []) (ds : List Dir) (p : P2) (h : ∀ t ∈ ts, Passes go p ds t) :
    ∃ as bs t, ds = as ++ bs ∧ t ∈ ts ∧ follow go p as = some t ∧ ∀ u ∈ ts, Passes go t bs u := by
  induction ds generalizing p with
  | nil =>
    obtain ⟨t, ht⟩ := List.exists_mem_of_ne_nil ts hne
    have key : ∀ u ∈ ts, u = p := by
      intro u hu
      obtain ⟨as, bs, h1, h2⟩ := h u hu
      obtain ⟨rfl, rfl⟩ := List.append_eq_nil_iff.1 h1.symm
      unfold follow at h2
      injection h2 with h2
      exact h2.symm
    exact ⟨[], [], p, rfl, key t ht ▸ ht, rfl, h⟩
  | cons d ds ih =>
    by_cases hp : p ∈ ts
    · exact ⟨[], d :: ds, p, rfl, hp, rfl, h⟩
    · have key : ∀ u ∈ ts, ∃ r, go p d = some r ∧ Passes go r ds u := by
        intro u hu
        obtain ⟨as, bs, h1, h2⟩ := h u hu
        cases as with
        | nil =>
          unfold follow at h2
          injection h2 with h2
          exact absurd (h2 ▸ hu) hp
        | cons a as =>
          rw [List.cons_append] at h1
          injection h1 with h1 h3
          subst h1
          unfold follow at h2
          cases hg : go p d with
          | none => rw [hg] at h2; cases h2
          | some r =>
            rw [hg] at h2
            exact ⟨r, rfl, as, bs, h3, h2⟩
      obtain ⟨t, ht⟩ := List.exists_mem_of_ne_nil ts hne
      obtain ⟨r, hr, -⟩ := key t ht
      obtain ⟨as, bs, t, h1, h2, h3, h4⟩ := ih r fun u hu => by
        obtain ⟨r', hr', h5⟩ := key u hu
        rw [hr] at hr'
        injection hr' with hr'
        exact hr' ▸ h5
      exact ⟨d :: as, bs, t, by rw [h1]; rfl, h2, by simp only [follow, hr]; exact h3, h4⟩

theorem shortestOf_spec (f : P2 → Out (Option (List Dir))) (F : P2 → Option (List Dir)) (ts : List P2) (h : ∀ t ∈ ts, f t = .ok (F t)) :
    ∃ r, shortestOf f ts = .ok r ∧ (r = none ↔ ∀ t ∈ ts, F t = none) ∧ (∀ ds, r = some ds → (∃ t ∈ ts, F t = some ds) ∧ ∀ t ∈ ts, ∀ es, F t = some es → ds.length ≤ es.length) := by
  induction ts with
  | nil => exact ⟨none, rfl, by simp, by simp⟩
  | cons t ts ih =>
    obtain ⟨r, h1, h2, h3⟩ := ih fun u hu => h u (by simp [hu])
    refine ⟨shorter (F t) r, by rw [shortestOf, h t (by simp), Out.ok_bind, h1, Out.ok_bind], ?_, ?_⟩
    · cases hF : F t with
      | none => simp [shorter, h2, hF]
      | some a => cases r <;> simp [shorter, hF]
    · intro ds hds
      cases hF : F t with
      | none =>
        rw [hF] at hds
        have hds : r = some ds := hds
        obtain ⟨⟨u, hu, h4⟩, h5⟩ := h3 ds hds
        refine ⟨⟨u, by simp [hu], h4⟩, fun v hv es he => ?_⟩
        rcases List.mem_cons.1 hv with rfl | hv
        · rw [hF] at he; cases he
        · exact h5 v hv es he
      | some a =>
        rw [hF] at hds
        cases r with
        | none =>
          simp only [shorter, Option.some.injEq] at hds
          subst hds
          refine ⟨⟨t, by simp, hF⟩, fun v hv es he => ?_⟩
          rcases List.mem_cons.1 hv with rfl | hv
          · rw [hF] at he
            injection he with he
            rw [he]
          · rw [h2.1 rfl v hv] at he; cases he
        | some b =>
          simp only [shorter, Option.some.injEq] at hds
          obtain ⟨⟨u, hu, h4⟩, h5⟩ := h3 b rfl
          constructor
          · split at hds
            · exact ⟨t, by simp, by rw [hF, hds]⟩
            · exact ⟨u, by simp [hu], by rw [h4, hds]⟩
          · intro v hv es he
            have hl : ds.length ≤ a.length ∧ ds.length ≤ b.length := by
              split at hds <;> subst hds <;> omega
            rcases List.mem_cons.1 hv with rfl | hv
            · rw [hF] at he
              injection he with he
              rw [← he]
              exact hl.1
            · exact Nat.le_trans hl.2 (h5 v hv es he)

/-- C160. With any way to find shortest paths, the program finds a shortest way past all the positions, or none if there is none. -/
theorem C160_tour (T : PosTy) (D : Bool) (go : Int × Int → Dir → Option (Int × Int)) (way : Int × Int → Int × Int → Out (Option (List Dir)))
    (hway : ∀ p t, InGrid T p → InGrid T t → (∃ ds, way p t = .ok (some ds) ∧ IsPath go D p ds t ∧ ∀ es, IsPath go D p es t → ds.length ≤ es.length) ∨
      (way p t = .ok none ∧ ¬ Reachable go D p t)) (p : Int × Int) (hp : InGrid T p) (ts : List (Int × Int)) (hts : ∀ t ∈ ts, InGrid T t) :
    (∃ ds, tour way ts.length p ts = .ok (some ds) ∧ IsTour go D p ts ds ∧ ∀ es, IsTour go D p ts es → ds.length ≤ es.length) ∨
      (tour way ts.length p ts = .ok none ∧ ∀ es, ¬ IsTour go D p ts es) := by
  obtain ⟨left, hleft⟩ : ∃ left, ts.length = left := ⟨_, rfl⟩
  rw [hleft]
  induction left generalizing p ts with
  | zero =>
    have := List.eq_nil_of_length_eq_zero hleft
    subst this
    exact .inl ⟨[], rfl, ⟨⟨p, isPath_nil⟩, by simp⟩, fun _ _ => Nat.zero_le _⟩
  | succ left ih =>
    -- What the program gets for each position that it tries as the first one.
    have hf : ∀ t, ∃ r, t ∈ ts → (do
        match ← way p t with
        | none => .ok none
        | some as =>
          match ← tour way left t (ts.erase t) with
          | none => .ok none
          | some bs => .ok (some (as ++ bs))) = Out.ok r ∧
        (∀ ds, r = some ds → IsTour go D p ts ds) ∧
        (∀ as bs, IsPath go D p as t → IsTour go D t (ts.erase t) bs → ∃ ds, r = some ds ∧ ds.length ≤ as.length + bs.length) := by
      intro t
      by_cases ht : t ∈ ts
      · rcases hway p t hp (hts t ht) with ⟨as, h1, h2, h3⟩ | ⟨h1, h2⟩
        · have hlen : (ts.erase t).length = left := by rw [List.length_erase_of_mem ht]; omega
          rcases ih t (hts t ht) (ts.erase t) (fun u hu => hts u (List.mem_of_mem_erase hu)) hlen with ⟨bs, h4, h5, h6⟩ | ⟨h4, h5⟩
          · refine ⟨some (as ++ bs), fun _ => ⟨by rw [h1, Out.ok_bind]; simp only; rw [h4, Out.ok_bind], ?_, ?_⟩⟩
            · rintro ds ⟨⟩
              obtain ⟨⟨q, hq⟩, h7⟩ := h5
              refine ⟨⟨q, isPath_append h2 hq⟩, fun u hu => ?_⟩
              by_cases hut : u = t
              · exact ⟨as, bs, rfl, hut ▸ h2.2⟩
              · obtain ⟨cs, es, h8, h9⟩ := h7 u ((List.mem_erase_of_ne hut).2 hu)
                exact ⟨as ++ cs, es, by rw [h8, List.append_assoc], by rw [follow_append, h2.2]; exact h9⟩
            · intro as' bs' h7 h8
              refine ⟨_, rfl, ?_⟩
              have := h3 as' h7
              have := h6 bs' h8
              rw [List.length_append]
              omega
          · refine ⟨none, fun _ => ⟨by rw [h1, Out.ok_bind]; simp only; rw [h4, Out.ok_bind], by simp, fun as' bs' _ h8 => absurd h8 (h5 bs')⟩⟩
        · exact ⟨none, fun _ => ⟨by rw [h1, Out.ok_bind], by simp, fun as' bs' h7 _ => absurd ⟨as', h7⟩ h2⟩⟩
      · exact ⟨none, fun h => absurd h ht⟩
    choose F hF using hf
    obtain ⟨r, h1, h2, h3⟩ := shortestOf_spec _ F ts fun t ht => (hF t ht).1
    have hlow : ∀ es, IsTour go D p ts es → ∃ t ∈ ts, ∃ ds, F t = some ds ∧ ds.length ≤ es.length := by
      rintro es ⟨⟨q, hq⟩, h4⟩
      obtain ⟨as, bs, t, rfl, h6, h7, h8⟩ := first_passed (by rintro rfl; simp at hleft) es p h4
      obtain ⟨r', h9, h10⟩ := isPath_split hq
      have : r' = t := by
        have := h9.2
        rw [h7] at this
        injection this with this
        exact this.symm
      subst this
      obtain ⟨ds, h11, h12⟩ := (hF r' h6).2.2 as bs h9 ⟨⟨q, h10⟩, fun u hu => h8 u (List.mem_of_mem_erase hu)⟩
      exact ⟨r', h6, ds, h11, by rw [List.length_append]; omega⟩
    rw [tour]
    cases r with
    | none =>
      refine .inr ⟨h1, fun es hes => ?_⟩
      obtain ⟨t, ht, ds, h4, -⟩ := hlow es hes
      rw [h2.1 rfl t ht] at h4
      cases h4
    | some ds =>
      obtain ⟨⟨t, ht, h4⟩, h5⟩ := h3 ds rfl
      refine .inl ⟨ds, h1, (hF t ht).2.1 ds h4, fun es hes => ?_⟩
      obtain ⟨u, hu, ds', h6, h7⟩ := hlow es hes
      exact Nat.le_trans (h5 u hu ds' h6) h7

/-- C160. Breadth-first search is such a way, in grids that are not taller than wide. -/
theorem C160_bfs [Target] (T : PosTy) (hT : T.Searchable) (hwide : rows T ≤ cols T) (bfs) (hbfs : Bf.IsSearch T bfs) (D : Bool) (go : Int × Int → Dir → Option (Int × Int))
    (hgo : Adjacent T go) (fuel : Nat) (hfuel : cols T * rows T < (fuel : Int)) (p : Int × Int) (hp : InGrid T p) (ts : List (Int × Int)) (hts : ∀ t ∈ ts, InGrid T t)
    :
    (∃ ds, tour (wayBfs fun q found => bfs D go q found fuel) ts.length p ts = .ok (some ds) ∧ IsTour go D p ts ds ∧ ∀ es, IsTour go D p ts es → ds.length ≤ es.length) ∨
      (tour (wayBfs fun q found => bfs D go q found fuel) ts.length p ts = .ok none ∧ ∀ es, ¬ IsTour go D p ts es) := by
  refine C160_tour T D go _ (fun q t hq ht => ?_) p hp ts hts
  unfold wayBfs
  by_cases hqt : q = t
  · rw [if_pos hqt]
    exact .inl ⟨[], rfl, hqt ▸ isPath_nil, fun _ _ => Nat.zero_le _⟩
  · rw [if_neg hqt]
    obtain ⟨h1, h2⟩ := C53_wide_partial T hT hwide bfs hbfs D go hgo q hq (fun r => r == t) (by simp [hqt]) fuel hfuel
    by_cases hr : Reachable go D q t
    · obtain ⟨dest, path, h3⟩ := h1 ⟨t, by simp, hr⟩
      obtain ⟨h4, h5⟩ := C51_valid_path T hT bfs hbfs D go hgo q hq _ fuel dest path h3
      have := beq_iff_eq.1 h4
      subst this
      exact .inl ⟨path, by beta_reduce; rw [h3]; rfl, h5, (C52_shortest T hT bfs hbfs D go hgo q hq _ fuel dest path h3).1.2⟩
    · exact .inr ⟨by beta_reduce; rw [h2 (by rintro ⟨u, hu, h⟩; exact hr (beq_iff_eq.1 hu ▸ h))]; rfl, hr⟩

-- Past three corners of a grid with a wall, from the middle of the upper side.
example : tour (wayBfs fun q found => Bf.pathHash (PosTy.pos 2 2) false (aroundWalls (PosTy.pos 2 2) [(1, 1)]) q found 10) 3 (1, 0) [(0, 2), (2, 0), (2, 2)] =
    .ok (some [.E, .S, .S, .W, .W]) := by decide +kernel
example : tour (wayBfs fun q found => Bf.pathHash (PosTy.pos 2 2) false (aroundWalls (PosTy.pos 2 2) [(0, 1), (1, 2)]) q found 10) 2 (1, 0) [(2, 2), (0, 2)] = .ok none := by
  decide +kernel

/-- C160. Going to the nearest of the positions first does not always give a shortest way: here one of eleven steps, and nine are enough. -/
theorem C160_nearest_first_differs [Target] : ∃ ds es, nearestFirst (fun q found => Bf.pathHash (PosTy.pos 7 0) false (aroundWalls (PosTy.pos 7 0) []) q found 20) 3 (2, 0) [(3, 0), (0, 0), (7, 0)] =
      .ok (some ds) ∧ tour (wayBfs fun q found => Bf.pathHash (PosTy.pos 7 0) false (aroundWalls (PosTy.pos 7 0) []) q found 20) 3 (2, 0) [(3, 0), (0, 0), (7, 0)] = .ok (some es) ∧
      ds.length = 11 ∧ es.length = 9 :=
  ⟨[.E, .W, .W, .W, .E, .E, .E, .E, .E, .E, .E], [.W, .W, .E, .E, .E, .E, .E, .E, .E], by rename Target => t; obtain ⟨c, w⟩ := t; cases c <;> cases w <;> decide +kernel⟩

end Sqrid
