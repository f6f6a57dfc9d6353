import Verif.Proofs.HeapTop
import Verif.Proofs.Work
import Verif.Proofs.BestFirstSearch
/-!
# A way that a best-first search takes without looking further

If every position on a way ranks before everything that was put in the heap from the positions before it, the positions on the way are taken out one after the other.
-/

namespace Sqrid

open Spec

/-- The step `d` to `r`, which costs `v` in all, leaves the way at a position before the end of `as`, and does not lead back. -/
def Offered (go : WGo) (D : Bool) (orig : P2) (as : List Dir) (r : P2) (v : Int) : Prop :=
  ∃ as1 d0 as2 q g d w, as = as1 ++ d0 :: as2 ∧ IsCostPath go D orig as1 q g ∧ WEdge go D q d r w ∧ v = g + w ∧ d ≠ d0 ∧
    ∀ as' bs', as1 = as' ++ bs' → follow (dropCost go) orig as' ≠ some r

theorem Offered.mono {go : WGo} {D : Bool} {orig : P2} {as : List Dir} {r : P2} {v : Int} (h : Offered go D orig as r v) (bs : List Dir) :
    Offered go D orig (as ++ bs) r v := by
  obtain ⟨as1, d0, as2, q, g, d, w, rfl, h⟩ := h
  exact ⟨as1, d0, as2 ++ bs, q, g, d, w, by simp, h⟩

/-- Every position on the way ranks before what is offered before it. -/
def Greedy (go : WGo) (h : P2 → Int) (D : Bool) (orig : P2) (way : List Dir) : Prop :=
  ∀ as bs p g, way = as ++ bs → IsCostPath go D orig as p g → ∀ r v, Offered go D orig as r v →
    g + h p < v + h r ∨ g + h p = v + h r ∧ (r.1 < p.1 ∨ r.1 = p.1 ∧ r.2 < p.2)

/-- The way does not meet itself. -/
def NoCycle (go : WGo) (orig : P2) (way : List Dir) : Prop :=
  ∀ as1 d as2 bs q, way = as1 ++ d :: as2 ++ bs → follow (dropCost go) orig as1 = some q → follow (dropCost go) orig (as1 ++ d :: as2) ≠ some q

/-- The state when the position after `as` is to be popped. -/
structure GreedyInv (go : WGo) (h : P2 → Int) (D : Bool) (INF : Int) (orig : P2) (as : List Dir) (p : P2) (g : Int) (f : P2 → Option Dir) (s : BSt) : Prop where
  here : ∃ e rest, s.heap.Perm (e :: rest) ∧ e.2.1 = p ∧ e.1 = g + upd h orig 0 p ∧ (∀ as' d, as = as' ++ [d] → e.2.2 = opposite d) ∧
    ∀ x ∈ rest, ∃ v, Offered go D orig as x.2.1 v ∧ x.1 = v + h x.2.1
  known : ∀ q, s.c q < INF → (∃ as' bs', as = as' ++ bs' ∧ IsCostPath go D orig as' q (s.c q)) ∨ Offered go D orig as q (s.c q)
  le : ∀ q, s.c q ≤ INF
  exact : ∀ as' bs' q g', as = as' ++ bs' → IsCostPath go D orig as' q g' → s.c q = g'
  recorded : ∀ as' d d' bs' q, as = as' ++ d :: d' :: bs' → follow (dropCost go) orig (as' ++ [d]) = some q → f q = some (opposite d)

theorem GreedyInv.init (go : WGo) (h : P2 → Int) (D : Bool) {INF : Int} (hINF : 0 < INF) (orig : P2) (f : P2 → Option Dir) :
    GreedyInv go h D INF orig [] orig 0 f (BSt.init INF orig) := by
  refine ⟨⟨_, [], List.Perm.refl _, rfl, by simp [upd_same], by simp, by simp⟩, fun q hq => .inl ⟨[], [], rfl, ?_⟩, fun q => ?_, ?_, by simp⟩
  · by_cases hqo : q = orig
    · subst hqo
      simp only [BSt.init, upd_same]
      exact isCostPath_nil
    · simp [BSt.init, upd_other _ _ hqo] at hq
  · by_cases hqo : q = orig
    · subst hqo; simp only [BSt.init, upd_same]; omega
    · simp [BSt.init, upd_other _ _ hqo]
  · intro as' bs' q g' he hp
    obtain ⟨rfl, -⟩ := List.append_eq_nil_iff.1 he.symm
    have h1 := hp.1.2
    injection h1 with h1
    have h2 := hp.2
    injection h2 with h2
    subst h1 h2
    simp [BSt.init, upd_same]

theorem isCostPath_fun {go : WGo} {D : Bool} {p : P2} {ds : List Dir} {q q' : P2} {m m' : Int} (h : IsCostPath go D p ds q m) (h' : IsCostPath go D p ds q' m') :
    q = q' ∧ m = m' := by
  have h1 := h.1.2
  rw [h'.1.2] at h1
  have h2 := h.2
  rw [h'.2] at h2
  injection h1 with h1
  injection h2 with h2
  exact ⟨h1.symm, h2.symm⟩

theorem isCostPath_prefix {go : WGo} {D : Bool} {p : P2} {as bs : List Dir} {q : P2} {m : Int} (hw : NonNeg go) (h : IsCostPath go D p (as ++ bs) q m) :
    ∃ q' m', IsCostPath go D p as q' m' ∧ m' ≤ m := by
  induction bs using List.reverseRecOn generalizing q m with
  | nil => exact ⟨q, m, by simpa using h, Int.le_refl _⟩
  | append_singleton bs d ih =>
    rw [← List.append_assoc] at h
    obtain ⟨r, m1, w, h1, -, h3, h4⟩ := isCostPath_concat h
    obtain ⟨q', m', h5, h6⟩ := ih h1
    have := hw _ _ _ _ h3
    exact ⟨q', m', h5, by omega⟩

theorem NoCycle.ne_orig {go : WGo} {orig p : P2} {as bs : List Dir} (hC : NoCycle go orig (as ++ bs)) (hne : as ≠ [])
    (hp : follow (dropCost go) orig as = some p) : p ≠ orig := by
  rintro rfl
  cases as with
  | nil => exact hne rfl
  | cons d as2 => exact hC [] d as2 bs p (by simp) rfl hp

/-- The entry that is popped. -/
theorem GreedyInv.pop {go : WGo} {h : P2 → Int} {D : Bool} {INF : Int} {orig : P2} {as bs : List Dir} {p : P2} {g : Int} {f : P2 → Option Dir} {s : BSt}
    (hG : Greedy go h D orig (as ++ bs)) (hC : NoCycle go orig (as ++ bs)) (hp : IsCostPath go D orig as p g) (H : GreedyInv go h D INF orig as p g f s) :
    ∃ e rest, Heap.pop s.heap = some (e, rest) ∧ e.2.1 = p ∧ (∀ as' d, as = as' ++ [d] → e.2.2 = opposite d) ∧
      ∀ x ∈ rest, ∃ v, Offered go D orig as x.2.1 v ∧ x.1 = v + h x.2.1 := by
  obtain ⟨e, rest, hperm, h1, h2, h3, h4⟩ := H.here
  cases hpop : Heap.pop s.heap with
  | none =>
    rw [Heap.pop_none hpop] at hperm
    exact absurd hperm.length_eq (by simp)
  | some er =>
    obtain ⟨e', rest'⟩ := er
    obtain ⟨a1, -, a3⟩ := Heap.pop_some hpop
    have htop := Heap.pop_top hpop e (hperm.mem_iff.2 (by simp))
    have : e' = e := by
      rcases List.mem_cons.1 (hperm.mem_iff.1 a1) with rfl | hr
      · rfl
      · exfalso
        obtain ⟨v, hv, he⟩ := h4 e' hr
        have hne : p ≠ orig := by
          obtain ⟨as1, d0, as2, q, g1, d, w, e1, -⟩ := hv
          exact hC.ne_orig (by rw [e1]; simp) hp.1.2
        rw [upd_other _ _ hne] at h2
        have := hG as bs p g rfl hp _ v hv
        unfold Heap.Top at htop
        rw [h1] at htop
        omega
    subst this
    have hrest := (hperm.symm.trans a3).cons_inv
    exact ⟨e', rest', rfl, h1, h3, fun x hx => h4 x (hrest.mem_iff.2 hx)⟩

/-- The next position. -/
theorem GreedyInv.step {T : PosTy} {go : WGo} {h : P2 → Int} {D : Bool} {INF : Int} {orig : P2} {as bs : List Dir} {d0 : Dir} {p p' : P2} {g w0 : Int}
    {f : P2 → Option Dir} {s : BSt} (hw : NonNeg go) (hgo : Adjacent T (dropCost go)) (hin : InGrid T p) (hG : Greedy go h D orig (as ++ d0 :: bs))
    (hC : NoCycle go orig (as ++ d0 :: bs)) (hp : IsCostPath go D orig as p g) (hd0 : WEdge go D p d0 p' w0) (hlt : g + w0 < INF)
    (H : GreedyInv go h D INF orig as p g f s) {e : Entry} {rest : List Entry} (he : e.2.1 = p) (hed : ∀ as' d, as = as' ++ [d] → e.2.2 = opposite d)
    (hrest : ∀ x ∈ rest, ∃ v, Offered go D orig as x.2.1 v ∧ x.1 = v + h x.2.1) :
    GreedyInv go h D INF orig (as ++ [d0]) p' (g + w0) (upd f e.2.1 (some e.2.2)) (BSt.after go h D s.c e rest) := by
  have X := expand_spec h D e.2.1 { c := s.c, heap := rest } hw
  change ExpandedBy go h e.2.1 (clockwise D) { c := s.c, heap := rest } (BSt.after go h D s.c e rest) at X
  obtain ⟨l, a1, a2, -⟩ := fold_pushed (go := go) (h := h) e.2.1 (clockwise D) { c := s.c, heap := rest }
  change (BSt.after go h D s.c e rest).heap = _ at a1
  have hnd : (l.map (·.2.2)).Nodup := a2.nodup (clockwise_opposites_nodup D)
  obtain ⟨l', hl, -, hnew⟩ := X.new
  have : l' = l := List.append_cancel_right (hl.symm.trans a1)
  subst this
  generalize BSt.after go h D s.c e rest = s' at X a1 hl hnew ⊢
  have hle := X.le
  have hedges := X.edges
  have hdec := X.dec
  simp only [he] at hle hedges hdec hnew hl
  have hcp : s.c p = g := H.exact as [] p g (by simp) hp
  rw [hcp] at hedges hdec hnew
  have hp' : IsCostPath go D orig (as ++ [d0]) p' (g + w0) := isCostPath_snoc hp hd0.1 hd0.2
  have hC' : NoCycle go orig ((as ++ [d0]) ++ bs) := by simpa using hC
  have hne : p' ≠ orig := hC'.ne_orig (by simp) hp'.1.2
  have hwas : g + w0 < s.c p' := by
    by_contra hge
    rcases H.known p' (by omega) with ⟨as', bs', e1, h1⟩ | h1
    · have h2 := hp'.1.2
      rw [e1] at h2
      cases bs' with
      | nil => exact hC as' d0 [] bs p' (by rw [e1]; simp) h1.1.2 (by rw [← h2]; simp)
      | cons d1 bs1 => exact hC as' d1 (bs1 ++ [d0]) bs p' (by rw [e1]; simp) h1.1.2 (by rw [← h2]; simp)
    · have := hG (as ++ [d0]) bs p' (g + w0) (by simp) hp' p' _ (h1.mono [d0])
      omega
  have hsame : ∀ as' bs' q g', as = as' ++ bs' → IsCostPath go D orig as' q g' → s'.c q = g' := by
    intro as' bs' q g' e1 h1
    have h2 := H.exact as' bs' q g' e1 h1
    have h3 := hle q
    by_contra hne'
    obtain ⟨x, -, -, -, w, -, h4, h5⟩ := hdec q (by omega)
    have h6 := hw _ _ _ _ h4
    rw [e1] at hp
    obtain ⟨q', m', h7, h8⟩ := isCostPath_prefix hw hp
    have := (isCostPath_fun h1 h7).2
    omega
  have hdir : ∀ d w, go p d = some (p', w) → d = d0 ∧ w = w0 := by
    intro d w hg
    have h1 := (hgo p d p' hin (by simp [dropCost, hg])).2
    have h2 := (hgo p d0 p' hin (by simp [dropCost, hd0.2])).2
    have h3 := neighbour_inj (h1.symm.trans h2)
    subst h3
    rw [hd0.2] at hg
    injection hg with hg
    injection hg with _ hg
    exact ⟨rfl, hg.symm⟩
  have hnow : s'.c p' = g + w0 := by
    have h1 := hedges d0 (mem_clockwise.2 hd0.1) p' w0 hd0.2
    obtain ⟨x, -, -, -, w, -, h4, h5⟩ := hdec p' (by omega)
    rw [h5, (hdir _ _ h4).2]
  have hoff : ∀ d r w, WEdge go D p d r w → d ≠ d0 → g + w < s.c r → Offered go D orig (as ++ [d0]) r (g + w) := by
    intro d r w hE hd hlt'
    refine ⟨as, d0, [], p, g, d, w, rfl, hp, hE, rfl, hd, fun as' bs' e1 h1 => ?_⟩
    have hp2 := hp
    rw [e1] at hp2
    obtain ⟨q', m', h7, h8⟩ := isCostPath_prefix hw hp2
    have h9 := h7.1.2
    rw [h1] at h9
    injection h9 with h9
    subst h9
    have := H.exact as' bs' r m' e1 h7
    have := hw _ _ _ _ hE.2
    omega
  refine ⟨?_, fun q hq => ?_, fun q => Int.le_trans (hle q) (H.le q), fun as' bs' q g' e1 h1 => ?_, fun as' d d' bs' q e1 h1 => ?_⟩
  · obtain ⟨x, h1, h2, h3, w, h4, h5, h6⟩ := hdec p' (by omega)
    obtain ⟨h7, h8⟩ := hdir _ _ h5
    have h9 : x ∈ l' := by
      rw [hl, List.mem_append] at h1
      rcases h1 with h1 | h1
      · exact h1
      · exfalso
        obtain ⟨v, b1, b2⟩ := hrest x h1
        have := hG (as ++ [d0]) bs p' (g + w0) (by simp) hp' _ v (b1.mono [d0])
        rw [h2] at this b2
        omega
    obtain ⟨l1, l2, h10⟩ := List.append_of_mem h9
    refine ⟨x, (l1 ++ l2) ++ rest, ?_, h2, by rw [upd_other _ _ hne]; omega, fun as' d e1 => ?_, fun y hy => ?_⟩
    · rw [hl, h10]
      simp only [List.append_assoc, List.cons_append]
      exact List.perm_middle
    · have := (List.append_inj' e1 rfl).2
      injection this with this
      rw [← this, ← h7, opposite_opposite]
    · rcases List.mem_append.1 hy with hy | hy
      · have hy' : y ∈ l' := by rw [h10]; rcases List.mem_append.1 hy with hy | hy <;> simp [hy]
        obtain ⟨w', c1, c2, c3, c4, c5⟩ := hnew y hy'
        refine ⟨g + w', hoff _ _ _ ⟨mem_clockwise.1 c1, c2⟩ (fun hd => ?_) c5, c3⟩
        have hyx : y.2.2 = x.2.2 := by
          have e1 := congrArg opposite hd
          have e2 := congrArg opposite h7
          rw [opposite_opposite] at e1 e2
          rw [e1, e2]
        rw [h10, List.map_append, List.map_cons] at hnd
        have hnd' := (List.nodup_middle.1 hnd)
        rw [← List.map_append, List.nodup_cons] at hnd'
        exact hnd'.1 (List.mem_map.2 ⟨y, hy, hyx⟩)
      · obtain ⟨v, b1, b2⟩ := hrest y hy
        exact ⟨v, b1.mono [d0], b2⟩
  · by_cases hlt' : s'.c q < s.c q
    · obtain ⟨x, h1, h2, h3, w, h4, h5, h6⟩ := hdec q hlt'
      by_cases hd : opposite x.2.2 = d0
      · left
        refine ⟨as ++ [d0], [], by simp, ?_⟩
        rw [hd] at h5
        have h7 := isCostPath_snoc hp hd0.1 h5
        rw [h6]
        exact h7
      · right
        rw [h6]
        exact hoff _ _ _ ⟨mem_clockwise.1 h4, h5⟩ hd (by omega)
    · have heq : s'.c q = s.c q := by have := hle q; omega
      rw [heq] at hq ⊢
      rcases H.known q hq with ⟨as', bs', e1, h1⟩ | h1
      · exact .inl ⟨as', bs' ++ [d0], by rw [e1]; simp, h1⟩
      · exact .inr (h1.mono [d0])
  · rcases List.eq_nil_or_concat bs' with rfl | ⟨bs2, d2, rfl⟩
    · rw [List.append_nil] at e1
      subst e1
      obtain ⟨rfl, rfl⟩ := isCostPath_fun h1 hp'
      exact hnow
    · rw [List.concat_eq_append, ← List.append_assoc] at e1
      obtain ⟨e2, -⟩ := List.append_inj' e1 rfl
      exact hsame as' bs2 q g' e2 h1
  · rw [he]
    rcases List.eq_nil_or_concat bs' with rfl | ⟨bs2, d2, rfl⟩
    · have e2 : as ++ [d0] = (as' ++ [d]) ++ [d'] := by rw [e1]; simp
      obtain ⟨e3, -⟩ := List.append_inj' e2 rfl
      have h2 := hp.1.2
      rw [e3, h1] at h2
      injection h2 with h2
      subst h2
      rw [upd_same, hed as' d e3]
    · have e2 : as ++ [d0] = (as' ++ d :: d' :: bs2) ++ [d2] := by rw [e1]; simp
      obtain ⟨e3, -⟩ := List.append_inj' e2 rfl
      have hqp : q ≠ p := by
        rintro rfl
        refine hC (as' ++ [d]) d' bs2 (d0 :: bs) q (by rw [e3]; simp) h1 ?_
        rw [← hp.1.2, e3]
        simp
      rw [upd_other _ _ hqp]
      exact H.recorded as' d d' bs2 q e3 h1

/-- The search follows the way. -/
theorem GreedyInv.search {T : PosTy} {go : WGo} {h : P2 → Int} {D : Bool} {INF : Int} {orig dest : P2} (hw : NonNeg go) (hgo : Adjacent T (dropCost go))
    (ho : InGrid T orig) (bs : List Dir) : ∀ {as : List Dir} {p : P2} {g n : Int} {f : P2 → Option Dir} {s : BSt}, Greedy go h D orig (as ++ bs) →
      NoCycle go orig (as ++ bs) → IsCostPath go D orig as p g → IsCostPath go D orig (as ++ bs) dest n → n < INF →
      GreedyInv go h D INF orig as p g f s → ∀ fuel, bs.length < fuel →
    ∃ f', BSt.search go h D dest fuel s f = .ok (.ok f') ∧
      (∀ as' d bs' q, as ++ bs = as' ++ d :: bs' → follow (dropCost go) orig (as' ++ [d]) = some q → f' q = some (opposite d)) ∧ f' dest ≠ none := by
  induction bs with
  | nil =>
    intro as p g n f s hG hC hp hd hn H fuel hfuel
    obtain ⟨e, rest, h1, h2, h3, -⟩ := H.pop hG hC hp
    rw [List.append_nil] at hd
    obtain ⟨rfl, -⟩ := isCostPath_fun hp hd
    obtain ⟨fuel, rfl⟩ : ∃ k, fuel = k + 1 := ⟨fuel - 1, by simp at hfuel; omega⟩
    refine ⟨upd f e.2.1 (some e.2.2), by rw [BSt.search_some h1, if_pos h2], fun as' d bs' q e1 h4 => ?_, by rw [h2, upd_same]; simp⟩
    rw [List.append_nil] at e1
    rw [h2]
    cases bs' with
    | nil =>
      have h5 := hp.1.2
      rw [e1, h4] at h5
      injection h5 with h5
      subst h5
      rw [upd_same, h3 as' d e1]
    | cons d' bs' =>
      have hqp : q ≠ p := by
        rintro rfl
        refine hC (as' ++ [d]) d' bs' [] q (by rw [e1]; simp) h4 ?_
        rw [← hp.1.2, e1]
        simp
      rw [upd_other _ _ hqp]
      exact H.recorded as' d d' bs' q e1 h4
  | cons d0 bs ih =>
    intro as p g n f s hG hC hp hd hn H fuel hfuel
    obtain ⟨e, rest, h1, h2, h3, h4⟩ := H.pop hG hC hp
    obtain ⟨fuel, rfl⟩ : ∃ k, fuel = k + 1 := ⟨fuel - 1, by simp at hfuel; omega⟩
    have e0 : as ++ d0 :: bs = (as ++ [d0]) ++ bs := by simp
    have hpd : p ≠ dest := by
      rintro rfl
      exact hC as d0 bs [] p (by simp) hp.1.2 hd.1.2
    rw [BSt.search_some h1, if_neg (by rw [h2]; exact hpd)]
    have hd' := hd
    rw [e0] at hd'
    obtain ⟨p', g', h5, h6⟩ := isCostPath_prefix hw hd'
    obtain ⟨r, m, w0, b1, b2, b3, b4⟩ := isCostPath_concat h5
    obtain ⟨rfl, rfl⟩ := isCostPath_fun b1 hp
    have hin : InGrid T r := isPath_inGrid hgo.staysIn ho hp.1
    have H' := H.step hw hgo hin hG hC hp ⟨b2, b3⟩ (by omega) h2 h3 h4
    rw [e0] at hG hC hd ⊢
    rw [b4] at h5
    exact ih hG hC h5 hd hn H' fuel (by simp at hfuel; omega)

/-- The recorded directions lead back along the way. -/
theorem arrives_way {T : PosTy} {go : GoFn} {orig : P2} (hgo : Adjacent T go) (ho : InGrid T orig) {f : P2 → Option Dir} (as : List Dir) : ∀ {p : P2},
    follow go orig as = some p → (∀ as' d bs' q, as = as' ++ d :: bs' → follow go orig (as' ++ [d]) = some q → q ≠ orig ∧ f q = some (opposite d)) →
    Arrives T f orig p as := by
  induction as using List.reverseRecOn with
  | nil => intro p hp _; injection hp with hp; subst hp; exact .here
  | append_singleton as d ih =>
    intro p hp hf
    obtain ⟨h1, h2⟩ := hf as d [] p (by simp) hp
    rw [follow_append] at hp
    cases hq : follow go orig as with
    | none => rw [hq] at hp; cases hp
    | some q =>
      rw [hq] at hp
      simp only [Option.bind_some, follow] at hp
      cases hg : go q d with
      | none => rw [hg] at hp; cases hp
      | some r =>
        rw [hg] at hp
        injection hp with hp
        subst hp
        have hqi := follow_inGrid hgo.staysIn as ho hq
        have e : neighbour r (opposite d) = q := by rw [(hgo q d r hqi hg).2, neighbour_opposite]
        have := Arrives.step (T := T) (map := f) (path := as) h1 h2 (by rw [e]; exact hqi)
          (by rw [e]; exact ih hq fun as' d' bs' q' e1 h3 => hf as' d' (bs' ++ [d]) q' (by rw [e1]; simp) h3)
        rwa [opposite_opposite] at this

end Sqrid
