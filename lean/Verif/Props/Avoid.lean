import Mathlib.Tactic.IntervalCases
import Verif.Props.Quadratic
import Verif.Props.Ties
/-!
# Positions that a returned path does not visit: C138

A best-first search takes out the entry that ranks highest. As long as it has not arrived, there is an entry for some position on each way to the destination. So a
position that ranks behind every position on some way is never taken out before the destination is, and cannot be on the returned path. For A* with diagonals this
holds as well, although it may then return a path that is not a shortest one.
-/

namespace Sqrid

-- Statements that do not mention a target are about a debug build for a 64-bit machine.
attribute [local instance] debug64

open Spec

/-- As long as the destination has not been popped, some position on the way has an entry that is not behind its place on the way. -/
theorem PInv.some_on {go : WGo} {h : P2 → Int} {D : Bool} {INF : Int} {orig dest : P2} {K : P2 → Prop} {f : P2 → Option Dir} {s : BSt}
    (hw : NonNeg go) (H : GInv go D INF orig K f s) (A : PInv go h D INF orig K s) (hK : ¬ K dest) {path : List Dir} {n : Int}
    (hpath : IsCostPath go D orig path dest n) (hn : n < INF) :
    ∃ as bs q m e, path = as ++ bs ∧ IsCostPath go D orig as q m ∧ e ∈ s.heap ∧ e.2.1 = q ∧ e.1 ≤ m + upd h orig 0 q := by
  by_contra hno
  have key : ∀ as bs q m, path = as ++ bs → IsCostPath go D orig as q m → m < INF → s.c q ≤ m := by
    intro as
    induction as using List.reverseRecOn with
    | nil =>
      intro bs q m _ h1 _
      have h2 := h1.1.2
      injection h2 with h2
      have h3 := h1.2
      injection h3 with h3
      rw [← h2, H.c_orig]
      omega
    | append_singleton as d ih =>
      intro bs q m he h1 hm
      obtain ⟨r, m', w, h2, h3, h4, h5⟩ := isCostPath_concat h1
      have := hw _ _ _ _ h4
      have h6 := ih ([d] ++ bs) r m' (by rw [he, List.append_assoc]) h2 (by omega)
      rcases A.opn r (by omega) with ⟨x, h7, h8, h9⟩ | ⟨-, h7⟩
      · exact absurd ⟨as, [d] ++ bs, r, m', x, by rw [he, List.append_assoc], h2, h7, h8, by omega⟩ hno
      · have := h7 d q w ⟨h3, h4⟩
        omega
  have h1 := key path [] dest n (by simp) hpath hn
  rcases A.opn dest (by omega) with ⟨x, h7, h8, h9⟩ | ⟨h7, -⟩
  · exact hno ⟨path, [], dest, n, x, by simp, hpath, h7, h8, by omega⟩
  · exact hK h7

/-- The origin is only popped at the start. -/
def Started (orig : P2) (s : BSt) : Prop := (∀ x ∈ s.heap, x.2.1 ≠ orig) ∨ ∃ d, s.heap = [(0, orig, d)]

theorem Started.step {go : WGo} {h : P2 → Int} {D : Bool} {INF : Int} {orig : P2} {K : P2 → Prop} {f : P2 → Option Dir} {s : BSt} (hw : NonNeg go)
    (H : GInv go D INF orig K f s) (S : Started orig s) {e : Entry} {rest : List Entry} (hp : Heap.pop s.heap = some (e, rest)) :
    Started orig (BSt.after go h D s.c e rest) := by
  obtain ⟨-, -, hperm⟩ := Heap.pop_some hp
  have hrest : ∀ x ∈ rest, x.2.1 ≠ orig := by
    intro x hx
    rcases S with S | ⟨d, S⟩
    · exact S x (hperm.mem_iff.2 (List.mem_cons_of_mem _ hx))
    · rw [S] at hperm
      have := hperm.length_eq
      simp only [List.length_cons, List.length_nil, Nat.zero_add] at this
      have : rest = [] := List.length_eq_zero_iff.1 (by omega)
      rw [this] at hx
      cases hx
  have X := expand_spec h D e.2.1 { c := s.c, heap := rest } hw
  change ExpandedBy go h e.2.1 (clockwise D) { c := s.c, heap := rest } (BSt.after go h D s.c e rest) at X
  obtain ⟨l, hl, -, hnew⟩ := X.new
  left
  intro x hx
  rw [hl, List.mem_append] at hx
  rcases hx with hx | hx
  · obtain ⟨w, -, h2, h3, h4, h5⟩ := hnew x hx
    simp only at h5
    intro h6
    rw [h6, H.c_orig] at h5
    have := H.c_nonneg e.2.1
    have := hw _ _ _ _ h2
    omega
  · exact hrest x hx

/-- `q` ranks behind every position on the way. -/
def Behind (go : WGo) (h : P2 → Int) (D : Bool) (orig q : P2) (k : Int) (path : List Dir) : Prop :=
  ∀ as bs p m, path = as ++ bs → as ≠ [] → IsCostPath go D orig as p m →
    m + h p < k + h q ∨ m + h p = k + h q ∧ (q.1 < p.1 ∨ q.1 = p.1 ∧ q.2 < p.2)

/-- A position that ranks behind every position on the way to the destination is not popped. -/
theorem PInv.pop_ne {go : WGo} {h : P2 → Int} {D : Bool} {INF : Int} {orig dest q : P2} {K : P2 → Prop} {f : P2 → Option Dir} {s : BSt}
    (hw : NonNeg go) (H : GInv go D INF orig K f s) (A : PInv go h D INF orig K s) (S : Started orig s) (hK : ¬ K dest)
    {path : List Dir} {n : Int} (hpath : IsCostPath go D orig path dest n) (hn : n < INF) (hq : q ≠ orig) {k : Int}
    (hk : ∀ ds m, IsCostPath go D orig ds q m → k ≤ m) (hB : Behind go h D orig q k path) {e : Entry} {rest : List Entry}
    (hp : Heap.pop s.heap = some (e, rest)) : e.2.1 ≠ q := by
  rintro rfl
  obtain ⟨as, bs, p, m, x, h1, h2, h3, h4, h5⟩ := A.some_on hw H hK hpath hn
  obtain ⟨h6, -, -⟩ := Heap.pop_some hp
  have h7 := Heap.pop_top hp x h3
  have h8 := A.ge e h6
  obtain ⟨ds, hds⟩ := H.walk _ (H.entry e h6).1
  have h9 := hk ds _ hds
  rw [upd_other _ _ hq] at h8
  rcases S with S | ⟨d, S⟩
  · have hpo : p ≠ orig := h4 ▸ S x h3
    rw [upd_other _ _ hpo] at h5
    have hnil : as ≠ [] := by
      rintro rfl
      have := h2.1.2
      injection this with this
      exact hpo this.symm
    have := hB as bs p m h1 hnil h2
    subst h4
    unfold Heap.Top at h7
    omega
  · rw [S, List.mem_singleton] at h6
    rw [h6] at hq
    exact hq rfl

/-- The positions that the search pops before it ends. -/
theorem BSt.search_behind {go : WGo} {h : P2 → Int} {D : Bool} {INF : Int} (hw : NonNeg go) {orig dest q : P2} {path : List Dir} {n : Int}
    (hpath : IsCostPath go D orig path dest n) (hn : n < INF) (hq : q ≠ orig) {k : Int}
    (hk : ∀ ds m, IsCostPath go D orig ds q m → k ≤ m) (hB : Behind go h D orig q k path) (fuel : Nat) :
    ∀ {K : P2 → Prop} {f : P2 → Option Dir} {s : BSt}, GInv go D INF orig K f s → PInv go h D INF orig K s → Started orig s → ¬ K dest →
      ¬ K q → ∀ {f'}, BSt.search go h D dest fuel s f = .ok (.ok f') →
    ∃ K' s', GInv go D INF orig K' f' s' ∧ K' dest ∧ ¬ K' q := by
  induction fuel with
  | zero => intro K f s _ _ _ _ _ f' h; cases h
  | succ fuel ih =>
    intro K f s H A S hd hKq f' hr
    cases hp : Heap.pop s.heap with
    | none => rw [BSt.search_none hp] at hr; cases hr
    | some er =>
      obtain ⟨e, rest⟩ := er
      have H' := H.step (h := h) hw hp
      have A' := A.step hw H hp
      have S' := S.step (h := h) (D := D) hw H hp
      have hKq' : ¬ (K q ∨ q = e.2.1) := by
        rintro (h1 | h1)
        · exact hKq h1
        · exact A.pop_ne hw H S hd hpath hn hq hk hB hp h1.symm
      rw [BSt.search_some hp] at hr
      by_cases he : e.2.1 = dest
      · rw [if_pos he] at hr
        injection hr with hr
        injection hr with hr
        subst hr
        exact ⟨_, _, H', .inr he.symm, hKq'⟩
      · rw [if_neg he] at hr
        refine ih H' A' S' ?_ hKq' hr
        rintro (h1 | h1)
        · exact hd h1
        · exact he h1.symm

theorem Started.init (INF : Int) (orig : P2) : Started orig (BSt.init INF orig) := .inr ⟨_, rfl⟩

/-- C138. The path that the uniform-cost search returns does not visit a position `q`, other than the origin, that no way reaches for less than `k`, if there is a way
to the destination on which each position is reached for less than `k`, or for `k` if it is greater than `q` in the order of the positions. -/
theorem C138_ucs [Target] (T : PosTy) (hT : T.Searchable) (ucs) (hucs : Ucs.IsSearch T ucs) (D : Bool)
    (go : Int × Int → Dir → Option ((Int × Int) × Int)) (hgo : Adjacent T (dropCost go)) (hc : UsizeCosts go) (orig dest : Int × Int)
    (hov : Target.checks = true ∨ NoOverflow go D orig) (ho : InGrid T orig) (hd : InGrid T dest) (fuel : Nat)
    (q : Int × Int) (hq : q ≠ orig) (k : Int) (hk : ∀ ds m, IsCostPath go D orig ds q m → k ≤ m) (way : List Dir) (n : Int) (hway : IsCostPath go D orig way dest n)
    (hbehind : ∀ i p j, 1 ≤ i → i ≤ way.length → IsCostPath go D orig (way.take i) p j → j < k ∨ j = k ∧ (q.1 < p.1 ∨ q.1 = p.1 ∧ q.2 < p.2))
    (as bs : List Dir) (h : ucs D go orig dest fuel = .ok (.ok (as ++ bs))) : follow (dropCost go) orig as ≠ some q := by
  intro has
  rw [hucs.eq hT hgo.staysIn ho hd] at h
  have hG := cost_inGrid (D := D) hgo.staysIn ho
  rcases hov.elim (fun hck => Ucs.searchMapmov_cases (D := D) (orig := orig) hck hc.nonNeg dest fuel)
    (fun hno => .inr (Ucs.searchMapmov_eq hc.nonNeg hno dest fuel)) with hpan | heq'
  · rw [Ucs.searchPath_panic hpan] at h; cases h
  cases hm : Ucs.searchMapmov (MapImpl.ideal none) (MapImpl.ideal 0) D go orig dest fuel with
  | ok r =>
    rw [Ucs.searchPath_of_mapmov hm] at h
    cases r with
    | error e => cases h
    | ok f =>
      rw [heq'] at hm
      have ha := camefrom_arrives hT.wf hd h
      have hlt : n < usizeMax := by
        by_contra hge
        obtain ⟨t, n', F, s, H, -, hK, -⟩ := BSt.search_source_init usizeMax_pos hc.nonNeg (consistent_zero hc.nonNeg) (stepsBack_of_adjacent hgo hG) hm
        obtain ⟨q', hq', hqa⟩ := ha.pre (K := fun q => 1 ≤ t q) (H.g.back_step hgo hG) hK as bs rfl
        rw [(H.g.arrives_path hgo hG hqa hq').2] at has
        injection has with has
        subst has
        have h1 := H.g.fin _ hq'
        obtain ⟨ds, hds⟩ := H.g.walk _ h1
        have h2 := hk ds _ hds
        cases way with
        | nil =>
          have h3 := hway.2
          injection h3 with h3
          have := usizeMax_pos
          omega
        | cons d ds =>
          have := hbehind (d :: ds).length dest n (by simp) (Nat.le_refl _) (by rw [List.take_length]; exact hway)
          omega
      obtain ⟨K, s, H, hK, hW⟩ := BSt.search_behind hc.nonNeg hway hlt hq hk (h := fun _ => 0) (fun as bs p m he hnil hp => by
          have := hbehind as.length p m (List.length_pos_of_ne_nil hnil) (by rw [he]; simp) (by rw [he, List.take_left' rfl]; exact hp)
          simp only
          omega) fuel (GInv.init _ _ usizeMax_pos _ _) (PInv.init _ _ _ _ _) (Started.init _ _) (fun h => h) (fun h => h) hm
      obtain ⟨q', hq', hqa⟩ := ha.pre (K := K) (H.back_step hgo hG) hK as bs rfl
      rw [(H.arrives_path hgo hG hqa hq').2] at has
      injection has with has
      exact hW (has ▸ hq')
  | panic => unfold Ucs.searchPath at h; rw [hm] at h; cases h
  | ub => unfold Ucs.searchPath at h; rw [hm] at h; cases h
  | timeout => unfold Ucs.searchPath at h; rw [hm] at h; cases h

-- From (0, 0) to (2, 0), with costs of 1: the path does not visit (0, 2), which also takes two steps but is less than (2, 0).
example (as bs : List Dir) (h : Ucs.pathHash (PosTy.pos 2 2) false (unitCost (aroundWalls (PosTy.pos 2 2) [(1, 1)])) (0, 0) (2, 0) 300 = .ok (.ok (as ++ bs))) :
    follow (dropCost (unitCost (aroundWalls (PosTy.pos 2 2) [(1, 1)]))) (0, 0) as ≠ some (0, 2) := by
  have hgo := aroundWalls_adjacent (PosTy.pos 2 2) [(1, 1)]
  refine C138_ucs (PosTy.pos 2 2) (PosTy.pos_searchable (by decide) (by decide) (.inl rfl)) _ (.inr (.inl rfl)) false _ (unitCost_adjacent hgo) (unitCost_usize _) (0, 0) (2, 0)
    (.inl rfl) (by unfold InGrid; decide) (by unfold InGrid; decide) 300 (0, 2) (by decide) 2 (fun ds m hds => ?_) [.E, .E] 2
    (isCostPath_unit.2 ⟨⟨by simp [Allowed, unit], by decide +kernel⟩, rfl⟩) (fun i p j h1 h2 hp => ?_) as bs h
  · obtain ⟨h1, rfl⟩ := isCostPath_unit.1 hds
    exact l1_le_path hgo (by unfold InGrid; decide) h1
  · obtain ⟨h3, rfl⟩ := isCostPath_unit.1 hp
    have h4 := h3.2
    simp only [List.length_cons, List.length_nil] at h2
    interval_cases i
    · rw [show follow (aroundWalls (PosTy.pos 2 2) [(1, 1)]) (0, 0) (List.take 1 [.E, .E]) = some (1, 0) by decide +kernel, Option.some.injEq] at h4
      subst h4
      decide
    · rw [show follow (aroundWalls (PosTy.pos 2 2) [(1, 1)]) (0, 0) (List.take 2 [.E, .E]) = some (2, 0) by decide +kernel, Option.some.injEq] at h4
      subst h4
      decide
example : Ucs.pathHash (PosTy.pos 2 2) false (unitCost (aroundWalls (PosTy.pos 2 2) [(1, 1)])) (0, 0) (2, 0) 300 = .ok (.ok [.E, .E]) := by decide +kernel

/-- C138. The same for A*, with and without diagonals: what counts for a position is the number of steps to it and its Manhattan distance to the destination, added up. -/
theorem C138_astar [Target] (T : PosTy) (hT : T.Searchable) (astar) (hastar : Astar.IsSearch T astar) (D : Bool)
    (go : Int × Int → Dir → Option (Int × Int)) (hgo : Adjacent T go) (orig dest : Int × Int) (ho : InGrid T orig) (hd : InGrid T dest) (fuel : Nat)
    (q : Int × Int) (hq : q ≠ orig) (k : Int) (hk : ∀ ds, IsPath go D orig ds q → k ≤ ds.length) (way : List Dir) (hway : IsPath go D orig way dest)
    (hbehind : ∀ i p, 1 ≤ i → i ≤ way.length → follow go orig (way.take i) = some p →
      i + l1 p dest < k + l1 q dest ∨ i + l1 p dest = k + l1 q dest ∧ (q.1 < p.1 ∨ q.1 = p.1 ∧ q.2 < p.2))
    (as bs : List Dir) (h : astar D go orig dest fuel = .ok (.ok (as ++ bs))) : follow go orig as ≠ some q := by
  intro has
  have hpath := C55_valid_path T hT astar hastar D go hgo orig dest ho hd fuel _ h
  rw [hastar.eq hT hgo.staysIn ho hd] at h
  have hG := unit_inGrid (D := D) hgo.staysIn ho
  have hadj := unit_adjacent hgo
  cases hr : Astar.searchMapmov T (MapImpl.ideal none) (MapImpl.ideal 0) D go orig dest fuel with
  | panic => unfold Astar.searchPath at h; rw [hr] at h; cases h
  | ub => unfold Astar.searchPath at h; rw [hr] at h; cases h
  | timeout => unfold Astar.searchPath at h; rw [hr] at h; cases h
  | ok r =>
    rw [Astar.searchPath_of_mapmov hr] at h
    cases r with
    | error e => cases h
    | ok f =>
      rw [Astar.searchMapmov_eq hT hgo.staysIn ho hd] at hr
      have ha := camefrom_arrives hT.wf hd h
      have hlt : (way.length : Int) < usizeMax := by
        have hreach : Reachable go D orig q :=
          ⟨as, fun d hd' => hpath.1 d (List.mem_append_left _ hd'), has⟩
        obtain ⟨k', hk'⟩ := reachable_iff_isDist.1 hreach
        have h1 := isDist_lt_list (covers hgo.staysIn ho) hk'
        have h2 := (hT.astarFits (D := D) hgo.staysIn ho hd q hreach).2
        obtain ⟨⟨ds, h3, h4⟩, -⟩ := hk'
        have h5 := hk ds h3
        have h6 : 0 ≤ l1 q dest := by simp only [l1]; omega
        cases way with
        | nil => exact usizeMax_pos
        | cons d ds =>
          have h7 := hbehind (d :: ds).length dest (by simp) (Nat.le_refl _) (by rw [List.take_length]; exact hway.2)
          have h8 : l1 dest dest = 0 := by simp [l1]
          omega
      obtain ⟨K, s, H, hK, hW⟩ := BSt.search_behind (unitCost_nonneg go) (isCostPath_unit.2 ⟨hway, rfl⟩) hlt hq (h := fun q => l1 q dest)
        (fun ds m hds => by obtain ⟨h1, rfl⟩ := isCostPath_unit.1 hds; exact hk ds h1)
        (fun as bs p m he hnil hp => by
          obtain ⟨h1, rfl⟩ := isCostPath_unit.1 hp
          exact hbehind as.length p (List.length_pos_of_ne_nil hnil) (by rw [he]; simp) (by rw [he, List.take_left' rfl]; exact h1.2)) fuel
        (GInv.init _ _ usizeMax_pos _ _) (PInv.init _ _ _ _ _) (Started.init _ _) (fun h => h) (fun h => h) hr
      obtain ⟨q', hq', hqa⟩ := ha.pre (K := K) (H.back_step hadj hG) hK as bs rfl
      have hp := H.arrives_path hadj hG hqa hq'
      rw [dropCost_unitCost] at hp
      rw [hp.2] at has
      injection has with has
      exact hW (has ▸ hq')

-- From (0, 0) to (2, 0), with diagonals: the path does not visit (0, 1).
example (as bs : List Dir) (h : Astar.pathHash (PosTy.pos 2 2) true (aroundWalls (PosTy.pos 2 2) [(1, 1)]) (0, 0) (2, 0) 300 = .ok (.ok (as ++ bs))) :
    follow (aroundWalls (PosTy.pos 2 2) [(1, 1)]) (0, 0) as ≠ some (0, 1) := by
  have hgo := aroundWalls_adjacent (PosTy.pos 2 2) [(1, 1)]
  refine C138_astar (PosTy.pos 2 2) (PosTy.pos_searchable (by decide) (by decide) (.inl rfl)) _ (.inr (.inl rfl)) true _ hgo (0, 0) (2, 0)
    (by unfold InGrid; decide) (by unfold InGrid; decide) 300 (0, 1) (by decide) 1 (fun ds hds => ?_) [.E, .E] ⟨fun _ _ => .inl rfl, by decide +kernel⟩
    (fun i p h1 h2 h4 => ?_) as bs h
  · exact linf_le_path hgo (by unfold InGrid; decide) hds
  · simp only [List.length_cons, List.length_nil] at h2
    interval_cases i
    · rw [show follow (aroundWalls (PosTy.pos 2 2) [(1, 1)]) (0, 0) (List.take 1 [.E, .E]) = some (1, 0) by decide +kernel, Option.some.injEq] at h4
      subst h4
      decide
    · rw [show follow (aroundWalls (PosTy.pos 2 2) [(1, 1)]) (0, 0) (List.take 2 [.E, .E]) = some (2, 0) by decide +kernel, Option.some.injEq] at h4
      subst h4
      decide
example : Astar.pathHash (PosTy.pos 2 2) true (aroundWalls (PosTy.pos 2 2) [(1, 1)]) (0, 0) (2, 0) 300 = .ok (.ok [.E, .E]) := by decide +kernel

end Sqrid
