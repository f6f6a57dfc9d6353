import Verif.Proofs.BestFirstSource
import Verif.Proofs.Work
/-!
# The entries of one position have different priorities

With a consistent heuristic the first entry of a position that is popped has the lowest priority, so the entries that remain are strictly worse.
-/

namespace Sqrid

open Spec

structure FInv (h : P2 → Int) (t : P2 → Nat) (s : BSt) : Prop where
  pair : s.heap.Pairwise fun x y => x.2.1 = y.2.1 → x.1 ≠ y.1
  popped : ∀ e ∈ s.heap, 1 ≤ t e.2.1 → s.c e.2.1 + h e.2.1 < e.1

section
variable {go : WGo} {h : P2 → Int} {D : Bool} {INF : Int} {orig dest : P2}

theorem FInv.step {t t' : P2 → Nat} {n n' : Nat} {F F' : Int} {f f' : P2 → Option Dir} {s : BSt} (hw : NonNeg go) (hb : StepsBack go D orig)
    (H : CInv go h D INF orig t n F f s) {e : Entry} {rest : List Entry} (hp : Heap.pop s.heap = some (e, rest))
    (H' : CInv go h D INF orig t' n' F' f' (BSt.after go h D s.c e rest)) (ht : ∀ q, 1 ≤ t' q ↔ 1 ≤ t q ∨ q = e.2.1)
    (hfresh : t e.2.1 = 0 → e.1 = s.c e.2.1 + h e.2.1) (I : FInv h t s) : FInv h t' (BSt.after go h D s.c e rest) := by
  obtain ⟨hmem, -, hperm⟩ := Heap.pop_some hp
  obtain ⟨l, a1, a2, a3, -, -⟩ := H.pushed (e := e) (rest := rest) hw
  have X := expand_spec h D e.2.1 { c := s.c, heap := rest } hw
  change ExpandedBy go h e.2.1 (clockwise D) _ (BSt.after go h D s.c e rest) at X
  generalize BSt.after go h D s.c e rest = s' at X a1 H' ⊢
  have hself : s'.c e.2.1 = s.c e.2.1 := X.self
  have hle : ∀ q, s'.c q ≤ s.c q := X.le
  have hpw : (e :: rest).Pairwise fun x y => x.2.1 = y.2.1 → x.1 ≠ y.1 :=
    (hperm.pairwise_iff (fun {x y} hxy hyx => Ne.symm (hxy hyx.symm))).1 I.pair
  rw [List.pairwise_cons] at hpw
  obtain ⟨ds, hds⟩ := H.g.walk _ (H.g.entry e hmem).1
  have hsrc : ∀ x ∈ l, neighbour x.2.1 x.2.2 = e.2.1 := by
    intro x hx
    obtain ⟨-, -, w, h1, -⟩ := a3 x hx
    exact hb _ _ _ _ _ _ hds h1
  have hprio : ∀ x ∈ l, x.1 < s.c x.2.1 + h x.2.1 ∧ t x.2.1 = 0 ∧ x.2.1 ≠ e.2.1 := by
    intro x hx
    obtain ⟨-, -, w, h1, h2⟩ := a3 x hx
    obtain ⟨-, -, w', h3, h4⟩ := H'.source hb (by rw [a1]; exact List.mem_append_left _ hx)
    rw [hsrc x hx] at h3 h4
    rw [hself] at h4
    have h5 := h1.2
    rw [h3.2] at h5
    injection h5 with h5
    injection h5 with _ h5
    have h6 := hw _ _ _ _ h1.2
    refine ⟨by omega, ?_, ?_⟩
    · by_contra h7
      have := H.opt x.2.1 (by omega) _ _ (isCostPath_snoc hds h1.1 h1.2)
      omega
    · intro h7
      rw [h7] at h2
      omega
  refine ⟨?_, fun x hx h1 => ?_⟩
  · rw [a1, List.pairwise_append]
    refine ⟨?_, hpw.2, fun x hx y hy hxy => ?_⟩
    · have h1 := pushed_nodup a2 hsrc
      rw [List.map_map] at h1
      exact (List.pairwise_map.1 h1).imp fun hne heq => absurd heq hne
    · have h1 := (H.entry y (hperm.mem_iff.2 (List.mem_cons_of_mem _ hy))).2.1
      have h2 := (hprio x hx).1
      rw [hxy] at h2
      omega
  · rw [a1, List.mem_append] at hx
    rcases hx with hx | hx
    · obtain ⟨-, h2, h3⟩ := hprio x hx
      rcases (ht _).1 h1 with h4 | h4
      · omega
      · exact absurd h4 h3
    · have hxs : x ∈ s.heap := hperm.mem_iff.2 (List.mem_cons_of_mem _ hx)
      by_cases h2 : 1 ≤ t x.2.1
      · have := I.popped x hxs h2
        have := hle x.2.1
        omega
      · have h3 := ((ht _).1 h1).resolve_left h2
        have h4 := hfresh (by rw [← h3]; omega)
        have h5 := (H.entry x hxs).2.1
        have h6 := hpw.1 x hx h3.symm
        rw [h3] at h5 ⊢
        omega

theorem FInv.init (hINF : 0 < INF) (hw : NonNeg go) (hc : Consistent go D orig h) (hb : StepsBack go D orig) (f : P2 → Option Dir) :
    FInv h (upd (fun _ => 0) orig 1) (BSt.after go h D (BSt.init INF orig).c (0, orig, Dir.N) []) := by
  obtain ⟨H, -⟩ := CInv.init (h := h) hINF hw hc f
  obtain ⟨l, a1, a2, -⟩ := fold_pushed (go := go) (h := h) orig (clockwise D) { c := (BSt.init INF orig).c, heap := [] }
  change (BSt.after go h D (BSt.init INF orig).c (0, orig, Dir.N) []).heap = _ at a1
  generalize BSt.after go h D (BSt.init INF orig).c (0, orig, Dir.N) [] = s' at H a1 ⊢
  have ho : ∀ q, 1 ≤ upd (fun _ : P2 => (0 : Nat)) orig 1 q ↔ q = orig := by intro q; rw [upd_pos]; simp
  refine ⟨?_, fun e he ht => absurd ((ho _).1 ht) (H.entry e he).1⟩
  have h1 := pushed_nodup (p := orig) (a2.nodup (clockwise_opposites_nodup D)) fun x hx => (ho _).1 (H.source hb (by rw [a1]; simp [hx])).1
  rw [List.map_map] at h1
  rw [a1, List.append_nil]
  exact (List.pairwise_map.1 h1).imp fun hne heq => absurd heq hne

/-- The answer with a consistent heuristic. -/
theorem BSt.search_fresh (hw : NonNeg go) (hc : Consistent go D orig h) (hb : StepsBack go D orig) (fuel : Nat) :
    ∀ {t : P2 → Nat} {n : Nat} {F : Int} {f : P2 → Option Dir} {s : BSt}, CInv go h D INF orig t n F f s → SInv go h D INF orig t f s → FInv h t s → t dest = 0 →
    ∀ {f'}, BSt.search go h D dest fuel s f = .ok (.ok f') →
    ∃ t' n' F' s', CInv go h D INF orig t' n' F' f' s' ∧ SInv go h D INF orig t' f' s' ∧ FInv h t' s' ∧ 1 ≤ t' dest ∧ F' = s'.c dest + h dest := by
  induction fuel with
  | zero => intro t n F f s _ _ _ _ f' h; cases h
  | succ fuel ih =>
    intro t n F f s H S I hd f' hr
    cases hp : Heap.pop s.heap with
    | none => rw [BSt.search_none hp] at hr; cases hr
    | some er =>
      obtain ⟨e, rest⟩ := er
      obtain ⟨h1, h2, t', n', H', S', h4, h5⟩ := S.step hw hc hb H hp
      have I' := I.step hw hb H hp H' h4 h2
      rw [BSt.search_some hp] at hr
      by_cases he : e.2.1 = dest
      · rw [if_pos he] at hr
        injection hr with hr
        injection hr with hr
        subst hr
        refine ⟨t', n', _, _, H', S', I', (h4 _).2 (.inr he.symm), ?_⟩
        rw [← he, h5]
        exact h2 (by rw [he]; exact hd)
      · rw [if_neg he] at hr
        refine ih H' S' I' ?_ hr
        by_contra hne
        rcases (h4 dest).1 (by omega) with h7 | h7
        · omega
        · exact he h7.symm

theorem BSt.search_fresh_init (hINF : 0 < INF) (hw : NonNeg go) (hc : Consistent go D orig h) (hb : StepsBack go D orig) {fuel : Nat} {f f' : P2 → Option Dir}
    (hr : BSt.search go h D dest fuel (BSt.init INF orig) f = .ok (.ok f')) :
    ∃ t n F s, CInv go h D INF orig t n F f' s ∧ SInv go h D INF orig t f' s ∧ FInv h t s ∧ 1 ≤ t dest ∧ F = s.c dest + h dest := by
  cases fuel with
  | zero => cases hr
  | succ fuel =>
    obtain ⟨H, -⟩ := CInv.init hINF hw hc f
    have S := SInv.init hINF hw hc hb f
    have I := FInv.init hINF hw hc hb f
    rw [BSt.search_some (e := (0, orig, Dir.N)) (rest := []) (Heap.pop_single _)] at hr
    simp only at hr
    by_cases he : orig = dest
    · rw [if_pos he] at hr
      injection hr with hr
      injection hr with hr
      subst hr he
      exact ⟨_, _, _, _, H, S, I, by rw [upd_same], by rw [H.g.c_orig]; omega⟩
    · rw [if_neg he] at hr
      exact BSt.search_fresh hw hc hb fuel H S I (by rw [upd_other _ _ (Ne.symm he)]) hr

end

end Sqrid
