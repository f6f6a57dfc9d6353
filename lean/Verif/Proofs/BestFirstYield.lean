import Verif.Proofs.Astar
/-! What iterating over the best-first machine yields, with a consistent heuristic; and cases in which the recorded directions are those of the cheapest path. -/

namespace Sqrid

open Spec

section
variable {go : WGo} {h : P2 → Int} {D : Bool} {INF : Int} {orig : P2}

theorem isMinCost_unique {p q : P2} {m n : Int} (h1 : IsMinCost go D p q m) (h2 : IsMinCost go D p q n) : m = n := by
  obtain ⟨⟨a, ha⟩, ha'⟩ := h1
  obtain ⟨⟨b, hb⟩, hb'⟩ := h2
  have := ha' _ _ hb
  have := hb' _ _ ha
  omega

theorem isMinCost_exists {p q : P2} (hw : NonNeg go) (hr : Reachable (dropCost go) D p q) : ∃ n, IsMinCost go D p q n := by
  obtain ⟨ds, hds⟩ := hr
  obtain ⟨n, hn⟩ := isPath_cost hds
  have key : ∀ k : Nat, ∀ ds n, IsCostPath go D p ds q n → n ≤ k → ∃ m, IsMinCost go D p q m := by
    intro k
    induction k with
    | zero =>
      intro ds n hn hle
      refine ⟨n, ⟨ds, hn⟩, fun ds' m hm => ?_⟩
      have := isCostPath_nonneg hw hm
      omega
    | succ k ih =>
      intro ds n hn hle
      by_cases hex : ∃ ds' m, IsCostPath go D p ds' q m ∧ m < n
      · obtain ⟨ds', m, hm, hlt⟩ := hex
        exact ih ds' m hm (by omega)
      · refine ⟨n, ⟨ds, hn⟩, fun ds' m hm => ?_⟩
        by_contra hlt
        exact hex ⟨ds', m, hm, by omega⟩
  have h0 := isCostPath_nonneg hw hn
  exact key n.toNat ds n hn (by omega)

theorem CInv.isMinCost {t : P2 → Nat} {n : Nat} {F : Int} {f : P2 → Option Dir} {s : BSt} (H : CInv go h D INF orig t n F f s) {q : P2} (hq : 1 ≤ t q) :
    IsMinCost go D orig q (s.c q) := ⟨H.g.walk q (H.g.fin q hq), H.opt q hq⟩

/-- Positions are first yielded in order of cost plus heuristic. -/
def YieldOrder (go : WGo) (h : P2 → Int) (D : Bool) (orig : P2) (known : P2 → Prop) (ys : List (P2 × Dir)) : Prop :=
  ∀ pre m post, ys = pre ++ m :: post → ¬ known m.1 → m.1 ∉ pre.map Prod.fst → ∀ u, known u ∨ u ∈ pre.map Prod.fst →
    ∀ a b, IsMinCost go D orig u a → IsMinCost go D orig m.1 b → a + h u ≤ b + h m.1

theorem yields_cons {L : List P2} {σ : Type} {next : σ → Out (Option (P2 × Dir) × σ)} {emb : BSt → σ} (hINF : 0 < INF) (hw : NonNeg go)
    (hc : Consistent go D orig h) (hG : ∀ ds q n, IsCostPath go D orig ds q n → q ∈ L)
    (hnone : ∀ s, Heap.pop s.heap = none → next (emb s) = .ok (none, emb s))
    (hnext : ∀ s e rest, Heap.pop s.heap = some (e, rest) → s.c e.2.1 < INF → IsMinCost go D orig e.2.1 (s.c e.2.1) →
      next (emb s) = .ok (some e.2, emb (BSt.after go h D s.c e rest))) (k : Nat) :
    ∀ {t : P2 → Nat} {n : Nat} {F : Int} {f : P2 → Option Dir} {s : BSt}, CInv go h D INF orig t n F f s →
    ∃ ys s' t' n' F' f', yields next k (emb s) = .ok (ys, emb s') ∧ CInv go h D INF orig t' n' F' f' s' ∧
      (∀ q, 1 ≤ t' q ↔ 1 ≤ t q ∨ q ∈ ys.map Prod.fst) ∧ YieldOrder go h D orig (fun q => 1 ≤ t q) ys ∧ ys.length ≤ cMeasure L t s.heap ∧
      (ys.length < k → ∀ ds q m, IsCostPath go D orig ds q m → m < INF → 1 ≤ t' q) := by
  induction k with
  | zero =>
    intro t n F f s H
    refine ⟨[], s, t, n, F, f, rfl, H, by simp, ?_, by simp, by simp⟩
    intro pre m post he
    exact absurd he.symm (by simp)
  | succ k ih =>
    intro t n F f s H
    cases hp : Heap.pop s.heap with
    | none =>
      refine ⟨[], s, t, n, F, f, ?_, H, by simp, ?_, by simp, fun _ ds q m hm hlt => ?_⟩
      · unfold yields
        rw [hnone s hp]
        rfl
      · intro pre m post he
        exact absurd he.symm (by simp)
      · exact (H.g.complete hw hINF (Heap.pop_none hp) hm hlt).1
    | some er =>
      obtain ⟨e, rest⟩ := er
      obtain ⟨h1, h2, h3, t1, n1, H1, h4, h5, h6⟩ := H.step hw hc hp
      have hfin := (H.g.entry e (Heap.pop_some hp).1).1
      have hmc : IsMinCost go D orig e.2.1 (s.c e.2.1) := ⟨H.g.walk _ hfin, h3⟩
      have hgrid : e.2.1 ∈ L := by
        obtain ⟨ds, hds⟩ := hmc.1
        exact hG _ _ _ hds
      obtain ⟨ys, s', t', n', F', f', a1, a2, a3, a4, a5, a6⟩ := ih H1
      refine ⟨e.2 :: ys, s', t', n', F', f', ?_, a2, fun q => ?_, ?_, ?_, fun hlt => a6 (by simpa using hlt)⟩
      · unfold yields
        rw [hnext s e rest hp hfin hmc, Out.ok_bind]
        simp only
        rw [a1]
        rfl
      · rw [a3 q, h4 q, List.map_cons, List.mem_cons, or_assoc]
      · intro pre m post he hm hpre u hu a b ha hb
        cases pre with
        | nil =>
          simp only [List.nil_append] at he
          injection he with he1 he2
          subst he1
          simp only [List.map_nil, List.not_mem_nil, or_false] at hu
          have e1 := isMinCost_unique ha (H.isMinCost hu)
          have e2 := isMinCost_unique hb hmc
          have := H.le_F u hu
          have := h2 (by omega)
          omega
        | cons x pre =>
          simp only [List.cons_append] at he
          injection he with he1 he2
          subst he1
          simp only [List.map_cons, List.mem_cons, not_or] at hpre hu
          refine a4 pre m post he2 (fun hk => ?_) hpre.2 u ?_ a b ha hb
          · rcases (h4 m.1).1 hk with hk | hk
            · exact hm hk
            · exact hpre.1 hk
          · rcases hu with hu | hu | hu
            · exact .inl ((h4 u).2 (.inl hu))
            · exact .inl ((h4 u).2 (.inr hu))
            · exact .inr hu
      · have := h6 L hgrid
        simp only [List.length_cons]
        omega

theorem yields_init {L : List P2} {σ : Type} {next : σ → Out (Option (P2 × Dir) × σ)} {emb : BSt → σ} (hINF : 0 < INF) (hw : NonNeg go)
    (hc : Consistent go D orig h) (hG : ∀ ds q n, IsCostPath go D orig ds q n → q ∈ L)
    (hnone : ∀ s, Heap.pop s.heap = none → next (emb s) = .ok (none, emb s))
    (hnext : ∀ s e rest, Heap.pop s.heap = some (e, rest) → s.c e.2.1 < INF → IsMinCost go D orig e.2.1 (s.c e.2.1) →
      next (emb s) = .ok (some e.2, emb (BSt.after go h D s.c e rest))) (k : Nat) :
    ∃ ys s', yields next k (emb (BSt.init INF orig)) = .ok (ys, emb s') ∧ (∀ q, q ∈ ys.map Prod.fst → IsMinCost go D orig q (s'.c q)) ∧
      YieldOrder go h D orig (fun _ => False) ys ∧ ys.length ≤ 8 * L.length + 1 ∧
      (ys.length < k → ∀ ds q m, IsCostPath go D orig ds q m → m < INF → q ∈ ys.map Prod.fst) := by
  cases k with
  | zero =>
    refine ⟨[], _, rfl, by simp, ?_, by simp, by simp⟩
    intro pre m post he
    exact absurd he.symm (by simp)
  | succ k =>
    obtain ⟨H, hlen⟩ := CInv.init hINF hw hc (fun _ => none)
    have hc0 : (BSt.init INF orig).c orig = 0 := by simp [BSt.init, upd_same]
    have hmc : IsMinCost go D orig orig 0 := ⟨⟨[], isCostPath_nil⟩, fun ds m hm => isCostPath_nonneg hw hm⟩
    have e1 := hnext (BSt.init INF orig) (0, orig, Dir.N) [] (Heap.pop_single _) (by simp only; omega) (by simp only; rw [hc0]; exact hmc)
    obtain ⟨ys, s', t', n', F', f', a1, a2, a3, a4, a5, a6⟩ := yields_cons (L := L) hINF hw hc hG hnone hnext k H
    have hk : ∀ q, 1 ≤ upd (fun _ : P2 => (0 : Nat)) orig 1 q ↔ q = orig := by intro q; rw [upd_pos]; simp
    have hmem : ∀ q, 1 ≤ t' q ↔ q ∈ ((orig, Dir.N) :: ys).map Prod.fst := by
      intro q
      rw [a3 q, hk q, List.map_cons, List.mem_cons]
    refine ⟨(orig, Dir.N) :: ys, s', ?_, fun q hq => a2.isMinCost ((hmem q).2 hq), ?_, ?_, fun hlt ds q m hm hq => ?_⟩
    · unfold yields
      rw [e1, Out.ok_bind]
      simp only
      rw [a1]
      rfl
    · intro pre m post he _ hpre u hu a b ha hb
      cases pre with
      | nil => rcases hu with hu | hu
               · exact hu.elim
               · simp at hu
      | cons x pre =>
        simp only [List.cons_append] at he
        injection he with he1 he2
        subst he1
        simp only [List.map_cons, List.mem_cons, not_or, false_or] at hpre hu
        refine a4 pre m post he2 (fun hk' => hpre.1 ((hk _).1 hk')) hpre.2 u ?_ a b ha hb
        rcases hu with hu | hu
        · exact .inl ((hk u).2 hu)
        · exact .inr hu
    · have ho : orig ∈ L := hG _ _ _ isCostPath_nil
      have hlt : L.countP (fun q => decide (upd (fun _ : P2 => (0 : Nat)) orig 1 q = 0)) <
          L.countP (fun _ => true) := by
        refine countP_lt (fun _ _ => rfl) ho rfl (by simp [upd_same])
      rw [List.countP_true] at hlt
      unfold cMeasure at a5
      simp only [List.length_cons]
      omega
    · exact (hmem q).1 (a6 (by simpa using hlt) ds q m hm hq)

/-! ### When the recorded directions are tight -/

/-- If every recorded step is one of a cheapest path, the path is a cheapest one. -/
theorem CInv.arrives_tight {T : PosTy} {t : P2 → Nat} {n : Nat} {F : Int} {f : P2 → Option Dir}
    {s : BSt} (hgo : Adjacent T (dropCost go)) (hG : ∀ ds q n, IsCostPath go D orig ds q n → InGrid T q) (H : CInv go h D INF orig t n F f s)
    (tight : ∀ q d u w, 1 ≤ t q → q ≠ orig → f q = some d → 1 ≤ t u → WEdge go D u (opposite d) q w → s.c u + w + h q ≤ F → s.c u + w = s.c q)
    (q : P2) (hq : 1 ≤ t q) : ∃ path, Arrives T f orig q path ∧ IsCostPath go D orig path q (s.c q) := by
  induction hk : t q using Nat.strong_induction_on generalizing q with
  | _ k ih =>
    by_cases ho : q = orig
    · subst ho; exact ⟨[], .here, by rw [H.g.c_orig]; exact isCostPath_nil⟩
    · obtain ⟨d, u, w, h1, h2, h3, h4, h7⟩ := H.back q hq ho
      obtain ⟨path, h5, h6⟩ := ih (t u) (by omega) u h2 rfl
      have hu : InGrid T u := by
        obtain ⟨ds, hds⟩ := H.g.walk u (H.g.fin u h2)
        exact hG _ _ _ hds
      have hg : dropCost go u (opposite d) = some q := by simp [dropCost, h4.2]
      have e : neighbour q d = u := by rw [(hgo u _ q hu hg).2, neighbour_opposite']
      refine ⟨path ++ [opposite d], .step ho h1 (e ▸ hu) (e ▸ h5), ?_⟩
      rw [← tight q d u w hq ho h1 h2 h4 h7]
      exact isCostPath_snoc h6 h4.1 h4.2

/-- With such costs and no heuristic, every entry of the heap and every recorded direction is tight. -/
structure EInv (go : WGo) (D : Bool) (INF : Int) (orig : P2) (K : P2 → Prop) (f : P2 → Option Dir) (s : BSt) : Prop where
  entry : ∀ e ∈ s.heap, e.1 = s.c e.2.1
  reached : ∀ q, s.c q < INF → q ≠ orig → ∃ u d w, K u ∧ WEdge go D u d q w ∧ s.c q = s.c u + w
  back : ∀ q, K q → q ≠ orig → ∃ d u w, f q = some d ∧ K u ∧ WEdge go D u (opposite d) q w ∧ s.c u + w = s.c q

theorem EInv.init (hINF : 0 < INF) (f : P2 → Option Dir) : EInv go D INF orig (fun _ => False) f (BSt.init INF orig) := by
  refine ⟨fun e he => ?_, fun q hq hne => ?_, fun _ h => h.elim⟩
  · simp only [BSt.init, List.mem_singleton] at he
    subst he
    simp [BSt.init, upd_same]
  · simp only [BSt.init, upd_other _ _ hne] at hq
    omega

theorem EInv.step {K : P2 → Prop} {f : P2 → Option Dir} {s : BSt} (hw : NonNeg go) (hen : EnterCost go) (G : GInv go D INF orig K f s)
    (E : EInv go D INF orig K f s) {e : Entry} {rest : List Entry} (hp : Heap.pop s.heap = some (e, rest)) (hF : ∀ u, K u → s.c u ≤ e.1)
    (hsrc : e.2.1 ≠ orig → ∃ u w, K u ∧ WEdge go D u (opposite e.2.2) e.2.1 w ∧ e.1 = s.c u + w) :
    EInv go D INF orig (fun q => K q ∨ q = e.2.1) (upd f e.2.1 (some e.2.2)) (BSt.after go (fun _ => 0) D s.c e rest) := by
  obtain ⟨hmem, hmin, hperm⟩ := Heap.pop_some hp
  have hrest : ∀ x ∈ rest, x ∈ s.heap := fun x hx => hperm.mem_iff.2 (List.mem_cons_of_mem _ hx)
  have X := expand_spec (fun _ => 0) D e.2.1 { c := s.c, heap := rest } hw
  change ExpandedBy go (fun _ => 0) e.2.1 (clockwise D) _ (BSt.after go (fun _ => 0) D s.c e rest) at X
  generalize BSt.after go (fun _ => 0) D s.c e rest = s' at X ⊢
  obtain ⟨l, hl, -, hnew⟩ := X.new
  simp only at hl hnew
  have he1 := E.entry e hmem
  have hpfin := (G.entry e hmem).1
  have hA : ∀ q, s.c q < INF → s'.c q = s.c q := by
    intro q hq
    have hle := X.le q
    simp only at hle
    by_contra hne
    obtain ⟨x, h1, h2, h3, w, h4, h5, h6⟩ := X.dec q (by simp only; omega)
    simp only at h6
    have hwn := hw _ _ _ _ h5
    have hcn := G.c_nonneg e.2.1
    have hqo : q ≠ orig := by
      rintro rfl
      have := G.c_orig
      omega
    obtain ⟨u, d, w', h7, h8, h9⟩ := E.reached q hq hqo
    have := hen _ _ _ _ _ _ _ h5 h8.2
    have := hF u h7
    omega
  have hself : s'.c e.2.1 = s.c e.2.1 := X.self
  refine ⟨fun x hx => ?_, fun q hq hne => ?_, fun q hq hne => ?_⟩
  · rw [hl, List.mem_append] at hx
    rcases hx with hx | hx
    · obtain ⟨w, h1, h2, h3, h4, h5⟩ := hnew x hx
      obtain ⟨y, -, -, -, w', h6, h7, h8⟩ := X.dec x.2.1 (by simp only; omega)
      simp only at h8
      have := hen _ _ _ _ _ _ _ h2 h7
      omega
    · rw [hA _ (G.entry x (hrest x hx)).1]
      exact E.entry x (hrest x hx)
  · by_cases hqi : s.c q < INF
    · obtain ⟨u, d, w, h1, h2, h3⟩ := E.reached q hqi hne
      exact ⟨u, d, w, .inl h1, h2, by rw [hA q hqi, hA u (G.fin u h1)]; exact h3⟩
    · obtain ⟨x, h1, h2, h3, w, h4, h5, h6⟩ := X.dec q (by simp only; omega)
      exact ⟨e.2.1, _, w, .inr rfl, ⟨mem_clockwise.1 h4, h5⟩, by rw [hself]; exact h6⟩
  · by_cases hqe : q = e.2.1
    · subst hqe
      obtain ⟨u, w, h1, h2, h3⟩ := hsrc hne
      exact ⟨e.2.2, u, w, upd_same _ _ _, .inl h1, h2, by rw [hA u (G.fin u h1), hself]; omega⟩
    · obtain ⟨d, u, w, h1, h2, h3, h4⟩ := E.back q (hq.resolve_right hqe) hne
      exact ⟨d, u, w, by rw [upd_other _ _ hqe]; exact h1, .inl h2, h3,
        by rw [hA u (G.fin u h2), hA q (G.fin q (hq.resolve_right hqe))]; exact h4⟩

/-- The answer with such costs. -/
def EAnswer (go : WGo) (D : Bool) (INF : Int) (orig dest : P2) (r : Res (P2 → Option Dir)) : Prop :=
  match r with
  | .error e => e = .destinationUnreachable ∧ ∀ ds n, IsCostPath go D orig ds dest n → INF ≤ n
  | .ok f => ∃ t n F s, CInv go (fun _ => 0) D INF orig t n F f s ∧ EInv go D INF orig (fun q => 1 ≤ t q) f s ∧ 1 ≤ t dest

theorem consistent_zero (hw : NonNeg go) : Consistent go D orig (fun _ => 0) := by
  intro ds n u d r w _ h
  have := hw _ _ _ _ h.2
  simp only
  omega

theorem BSt.search_enter {L : List P2} (hINF : 0 < INF) {dest : P2} (hw : NonNeg go) (hen : EnterCost go)
    (hG : ∀ ds q n, IsCostPath go D orig ds q n → q ∈ L) (fuel : Nat) :
    ∀ {t : P2 → Nat} {n : Nat} {F : Int} {f : P2 → Option Dir} {s : BSt}, CInv go (fun _ => 0) D INF orig t n F f s →
      EInv go D INF orig (fun q => 1 ≤ t q) f s → t dest = 0 → cMeasure L t s.heap < fuel →
    ∃ r, BSt.search go (fun _ => 0) D dest fuel s f = .ok r ∧ EAnswer go D INF orig dest r := by
  induction fuel with
  | zero => intro t n F f s _ _ _ h; exact absurd h (Nat.not_lt_zero _)
  | succ fuel ih =>
    intro t n F f s H E hd hfuel
    cases hp : Heap.pop s.heap with
    | none =>
      refine ⟨_, BSt.search_none hp, rfl, fun ds m hm => ?_⟩
      by_contra hlt
      have := (H.g.complete hw hINF (Heap.pop_none hp) hm (by omega)).1
      omega
    | some er =>
      obtain ⟨e, rest⟩ := er
      obtain ⟨h1, h2, h3, t', n', H', h4, h5, h6⟩ := H.step hw (consistent_zero hw) hp
      have E' := E.step hw hen H.g hp (fun u hu => by have := H.le_F u hu; omega) (fun _ => by
        obtain ⟨-, -, u, w, a1, a2, a3, -⟩ := H.entry e (Heap.pop_some hp).1
        exact ⟨u, w, a1, a2, by omega⟩)
      have hK : (fun q => 1 ≤ t q ∨ q = e.2.1) = fun q => 1 ≤ t' q := by
        funext q
        exact propext (h4 q).symm
      rw [hK] at E'
      rw [BSt.search_some hp]
      by_cases he : e.2.1 = dest
      · rw [if_pos he]
        exact ⟨_, rfl, t', n', _, _, H', E', (h4 _).2 (.inr he.symm)⟩
      · rw [if_neg he]
        have hgrid : e.2.1 ∈ L := by
          obtain ⟨ds, hds⟩ := H.g.walk _ (H.g.entry e (Heap.pop_some hp).1).1
          exact hG _ _ _ hds
        refine ih H' E' ?_ ?_
        · by_contra hne
          rcases (h4 dest).1 (by omega) with h7 | h7
          · omega
          · exact he h7.symm
        · have := h6 L hgrid
          omega

theorem BSt.search_enter_init {L : List P2} (hINF : 0 < INF) {dest : P2} (hw : NonNeg go) (hen : EnterCost go)
    (hG : ∀ ds q n, IsCostPath go D orig ds q n → q ∈ L) {fuel : Nat} (hfuel : 8 * L.length + 1 < fuel) (f : P2 → Option Dir) :
    ∃ r, BSt.search go (fun _ => 0) D dest fuel (BSt.init INF orig) f = .ok r ∧ EAnswer go D INF orig dest r := by
  obtain ⟨fuel, rfl⟩ : ∃ m, fuel = m + 1 := ⟨fuel - 1, by omega⟩
  obtain ⟨H, hlen⟩ := CInv.init hINF hw (consistent_zero (D := D) (orig := orig) hw) f
  have E := (EInv.init (go := go) (D := D) (orig := orig) hINF f).step hw hen (GInv.init go D hINF orig f) (Heap.pop_single _)
    (fun _ h => h.elim) (fun h => absurd rfl h)
  simp only at E
  have hK : (fun q => False ∨ q = orig) = fun q => 1 ≤ upd (fun _ => 0) orig 1 q := by
    funext q
    refine propext ?_
    rw [upd_pos]
    simp
  rw [hK] at E
  rw [BSt.search_some (e := (0, orig, Dir.N)) (rest := []) (Heap.pop_single _)]
  simp only
  by_cases he : orig = dest
  · rw [if_pos he]
    subst he
    exact ⟨_, rfl, _, _, _, _, H, E, by rw [upd_same]⟩
  · rw [if_neg he]
    refine BSt.search_enter hINF hw hen hG fuel H E (by rw [upd_other _ _ (Ne.symm he)]) ?_
    have ho : orig ∈ L := hG _ _ _ isCostPath_nil
    have hlt : L.countP (fun q => decide (upd (fun _ : P2 => (0 : Nat)) orig 1 q = 0)) <
        L.countP (fun _ => true) := by
      refine countP_lt (fun _ _ => rfl) ho rfl (by simp [upd_same])
    rw [List.countP_true] at hlt
    unfold cMeasure
    omega

end

end Sqrid
