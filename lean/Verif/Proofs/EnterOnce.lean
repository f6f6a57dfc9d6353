import Verif.Proofs.Work
import Verif.Proofs.BfOrder
import Verif.Proofs.UcsSearch
/-!
# The directions that the uniform-cost iterator yields, kept in a map

Two invariants of the items yielded: with costs that depend only on the position that is entered no position is yielded twice; and with any costs, the first direction
yielded for each position is on a cheapest way.
-/

namespace Sqrid

open Spec

variable {go : WGo} {h : P2 → Int} {D : Bool} {INF : Int} {orig : P2}

/-! ### Every position once -/

/-- Invariant: no position was pushed twice. -/
structure OneInv (go : WGo) (D : Bool) (INF : Int) (orig : P2) (K : P2 → Prop) (ys : List (P2 × Dir)) (s : BSt) : Prop where
  known : ∀ m ∈ ys, K m.1
  nodup : ((ys ++ s.items).map Prod.fst).Nodup
  reached : ∀ q, s.c q < INF → q ≠ orig → ∃ u d w, K u ∧ WEdge go D u d q w ∧ s.c q = s.c u + w

theorem OneInv.step {T : PosTy} {t t' : P2 → Nat} {n n' : Nat} {F F' : Int} {f f' : P2 → Option Dir} {s : BSt} (hw : NonNeg go) (hen : EnterCost go)
    (hgo : Adjacent T (dropCost go)) (hG : ∀ ds q n, IsCostPath go D orig ds q n → InGrid T q) (H : CInv go (fun _ => 0) D INF orig t n F f s)
    {ys : List (P2 × Dir)} (O : OneInv go D INF orig (fun q => 1 ≤ t q) ys s) {e : Entry} {rest : List Entry} (hp : Heap.pop s.heap = some (e, rest))
    (hpr : t e.2.1 = 0 → e.1 = s.c e.2.1 + 0) (hF : F ≤ e.1)
    (H' : CInv go (fun _ => 0) D INF orig t' n' F' f' (BSt.after go (fun _ => 0) D s.c e rest)) (ht' : ∀ q, 1 ≤ t' q ↔ 1 ≤ t q ∨ q = e.2.1)
    (hself : (BSt.after go (fun _ => 0) D s.c e rest).c e.2.1 = s.c e.2.1) :
    OneInv go D INF orig (fun q => 1 ≤ t' q) (ys ++ [e.2]) (BSt.after go (fun _ => 0) D s.c e rest) := by
  obtain ⟨l, hl, hnd, hnew, hch, hval⟩ := H.pushed (e := e) (rest := rest) hw
  have hperm := items_after hp hl ys
  obtain ⟨pds, hpds⟩ := H.g.walk _ (H.g.entry e (Heap.pop_some hp).1).1
  have hpg : InGrid T e.2.1 := hG _ _ _ hpds
  have hsrc : ∀ x ∈ l, neighbour x.2.1 x.2.2 = e.2.1 := by
    intro x hx
    obtain ⟨-, -, w, h1, -⟩ := hnew x hx
    rw [(hgo e.2.1 (opposite x.2.2) x.2.1 hpg (by simp [dropCost, h1.2])).2, neighbour_opposite']
  have hnd2 := pushed_nodup hnd hsrc
  have hsame : ∀ q, 1 ≤ t q → (BSt.after go (fun _ => 0) D s.c e rest).c q = s.c q := fun q hq => H.same_cost H' hq ((ht' q).2 (.inl hq))
  have hinf : ∀ x ∈ l, INF ≤ s.c x.2.1 := by
    intro x hx
    by_contra hlt
    obtain ⟨hxo, h0, w, h1, h2⟩ := hnew x hx
    obtain ⟨u, d, w', c1, c2, c3⟩ := O.reached x.2.1 (by omega) hxo
    have h3 := hen _ _ _ _ _ _ _ h1.2 c2.2
    have h4 := H.le_F u c1
    have h5 := hpr h0
    omega
  have hfin : ∀ q ∈ (ys ++ s.items).map Prod.fst, s.c q < INF := by
    intro q hq
    obtain ⟨m, hm, rfl⟩ := List.mem_map.1 hq
    rcases List.mem_append.1 hm with hm | hm
    · exact H.g.fin _ (O.known m hm)
    · obtain ⟨x, hx, rfl⟩ := List.mem_map.1 hm
      exact (H.g.entry x hx).1
  refine ⟨fun m hm => ?_, ?_, fun q hq hne => ?_⟩
  · rcases List.mem_append.1 hm with hm | hm
    · exact (ht' _).2 (.inl (O.known m hm))
    · exact (ht' _).2 (.inr (by rw [List.mem_singleton.1 hm]))
  · rw [(hperm.map Prod.fst).nodup_iff, List.map_append, List.nodup_append]
    refine ⟨hnd2, O.nodup, fun a ha b hb hab => ?_⟩
    subst hab
    obtain ⟨m, hm, rfl⟩ := List.mem_map.1 ha
    obtain ⟨x, hx, rfl⟩ := List.mem_map.1 hm
    have h1 := hinf x hx
    have h2 := hfin _ hb
    omega
  · by_cases hcq : (BSt.after go (fun _ => 0) D s.c e rest).c q = s.c q
    · rw [hcq] at hq ⊢
      obtain ⟨u, d, w, c1, c2, c3⟩ := O.reached q hq hne
      exact ⟨u, d, w, (ht' u).2 (.inl c1), c2, by rw [hsame u c1]; exact c3⟩
    · obtain ⟨x, hx, rfl⟩ := hch q hcq
      obtain ⟨d, w, c1, c2⟩ := hval x hx
      exact ⟨e.2.1, d, w, (ht' _).2 (.inr rfl), c1, by rw [hself]; exact c2⟩

theorem OneInv.tracked {T : PosTy} (hw : NonNeg go) (hen : EnterCost go) (hgo : Adjacent T (dropCost go))
    (hG : ∀ ds q n, IsCostPath go D orig ds q n → InGrid T q) :
    Tracked go (fun _ => 0) D INF orig (fun t ys s => OneInv go D INF orig (fun q => 1 ≤ t q) ys s) :=
  fun _ _ _ _ _ _ _ _ _ _ H j hp h2 h1 H1 ht hs => j.step hw hen hgo hG H hp h2 h1 H1 ht hs

theorem OneInv.init {T : PosTy} (hw : NonNeg go) (hgo : Adjacent T (dropCost go)) (ho : InGrid T orig) :
    OneInv go D INF orig (fun q => 1 ≤ upd (fun _ => 0) orig 1 q) [(orig, Dir.N)] (BSt.after go (fun _ => 0) D (BSt.init INF orig).c (0, orig, Dir.N) []) := by
  have X := expand_spec (go := go) (fun _ => 0) D orig { c := (BSt.init INF orig).c, heap := [] } hw
  change ExpandedBy go (fun _ => 0) orig (clockwise D) _ (BSt.after go (fun _ => 0) D (BSt.init INF orig).c (0, orig, Dir.N) []) at X
  obtain ⟨l', a1, hnd, hx, hself⟩ := pushed_init (h := fun _ => 0) (D := D) (INF := INF) hw hgo ho
  generalize BSt.after go (fun _ => 0) D (BSt.init INF orig).c (0, orig, Dir.N) [] = s' at a1 hx hself X ⊢
  have hitems : s'.items = l'.map (·.2) := by rw [BSt.items, a1]
  have hnd2 := pushed_nodup hnd fun x hm => (hx x hm).2.1
  refine ⟨fun m hm => by rw [List.mem_singleton.1 hm, upd_same], ?_, fun q hq hne => ?_⟩
  · rw [hitems, List.singleton_append, List.map_cons, List.nodup_cons]
    refine ⟨fun hm => ?_, hnd2⟩
    obtain ⟨m, hm, he⟩ := List.mem_map.1 hm
    obtain ⟨x, hxm, rfl⟩ := List.mem_map.1 hm
    exact (hx x hxm).1 he
  · have h1 : (BSt.init INF orig).c q = INF := by simp [BSt.init, upd_other _ _ hne]
    obtain ⟨y, -, -, -, w, h2, h3, h4⟩ := X.dec q (by simp only; omega)
    have hc0 : (BSt.init INF orig).c orig = 0 := by simp [BSt.init, upd_same]
    refine ⟨orig, _, w, by rw [upd_same], ⟨mem_clockwise.1 h2, h3⟩, ?_⟩
    simp only at h4
    omega

/-! ### The first direction -/

/-- The first direction yielded for a position. -/
def firstDir (ys : List (P2 × Dir)) (q : P2) : Option Dir := (ys.find? fun m => m.1 = q).map Prod.snd

theorem firstDir_append_some {ys zs : List (P2 × Dir)} {q : P2} {d : Dir} (hd : firstDir ys q = some d) : firstDir (ys ++ zs) q = some d := by
  unfold firstDir at hd ⊢
  rw [List.find?_append]
  cases hf : ys.find? (fun m => m.1 = q) with
  | none => rw [hf] at hd; cases hd
  | some m => rw [hf] at hd; exact hd

theorem firstDir_new {ys : List (P2 × Dir)} {m : P2 × Dir} (hq : ∀ x ∈ ys, x.1 ≠ m.1) : firstDir (ys ++ [m]) m.1 = some m.2 := by
  unfold firstDir
  rw [List.find?_append, List.find?_eq_none.2 fun x hx => by simpa using hq x hx]
  simp

theorem Spec.Arrives.extend {T : PosTy} {f g : P2 → Option Dir} (hfg : ∀ q d, f q = some d → g q = some d) {q : P2} {path : List Dir} (hA : Arrives T f orig q path) :
    Arrives T g orig q path := by
  induction hA with
  | here => exact .here
  | step h1 h2 h3 _ ih => exact .step h1 (hfg _ _ h2) h3 ih

/-- Invariant: the first directions lead to the origin, on cheapest ways. -/
structure WInv (T : PosTy) (go : WGo) (D : Bool) (orig : P2) (K : P2 → Prop) (ys : List (P2 × Dir)) (s : BSt) : Prop where
  known : ∀ q, K q ↔ q ∈ ys.map Prod.fst
  way : ∀ q, K q → ∃ path, Arrives T (firstDir ys) orig q path ∧ IsCostPath go D orig path q (s.c q)

theorem WInv.step {T : PosTy} {t t' : P2 → Nat} {n n' : Nat} {F F' : Int} {f f' : P2 → Option Dir} {s : BSt}
    (hgo : Adjacent T (dropCost go)) (hG : ∀ ds q n, IsCostPath go D orig ds q n → InGrid T q) (H : CInv go h D INF orig t n F f s)
    {ys : List (P2 × Dir)} (O : WInv T go D orig (fun q => 1 ≤ t q) ys s) {e : Entry} {rest : List Entry} (hp : Heap.pop s.heap = some (e, rest))
    (hpr : t e.2.1 = 0 → e.1 = s.c e.2.1 + h e.2.1)
    (H' : CInv go h D INF orig t' n' F' f' (BSt.after go h D s.c e rest)) (ht' : ∀ q, 1 ≤ t' q ↔ 1 ≤ t q ∨ q = e.2.1)
    (hself : (BSt.after go h D s.c e rest).c e.2.1 = s.c e.2.1) :
    WInv T go D orig (fun q => 1 ≤ t' q) (ys ++ [e.2]) (BSt.after go h D s.c e rest) := by
  have hold : ∀ q, 1 ≤ t q → ∃ path, Arrives T (firstDir (ys ++ [e.2])) orig q path ∧ IsCostPath go D orig path q (s.c q) := by
    intro q hq
    obtain ⟨path, c1, c2⟩ := O.way q hq
    exact ⟨path, c1.extend fun q d => firstDir_append_some, c2⟩
  refine ⟨fun q => ?_, fun q hq => ?_⟩
  · rw [ht' q, O.known q, List.map_append, List.mem_append]
    simp
  · by_cases hk : 1 ≤ t q
    · rw [H.same_cost H' hk hq]
      exact hold q hk
    · obtain rfl := ((ht' q).1 hq).resolve_left hk
      have hk0 : t e.2.1 = 0 := by omega
      obtain ⟨a1, -, u, w, a2, a3, a4, -⟩ := H.entry e (Heap.pop_some hp).1
      obtain ⟨path, c1, c2⟩ := hold u a2
      have hu : InGrid T u := hG _ _ _ c2
      have hg : dropCost go u (opposite e.2.2) = some e.2.1 := by simp [dropCost, a3.2]
      have hn : neighbour e.2.1 e.2.2 = u := by rw [(hgo u _ _ hu hg).2, neighbour_opposite']
      have hfd : firstDir (ys ++ [e.2]) e.2.1 = some e.2.2 := firstDir_new fun x hx he => by
        have := (O.known e.2.1).2 (List.mem_map.2 ⟨x, hx, he⟩)
        omega
      refine ⟨path ++ [opposite e.2.2], .step a1 hfd (hn ▸ hu) (hn ▸ c1), ?_⟩
      have := hpr hk0
      rw [hself, show s.c e.2.1 = s.c u + w by omega]
      exact isCostPath_snoc c2 a3.1 a3.2

theorem WInv.tracked {T : PosTy} (hgo : Adjacent T (dropCost go)) (hG : ∀ ds q n, IsCostPath go D orig ds q n → InGrid T q) :
    Tracked go h D INF orig (fun t ys s => WInv T go D orig (fun q => 1 ≤ t q) ys s) :=
  fun _ _ _ _ _ _ _ _ _ _ H j hp h2 _ H1 ht hs => j.step hgo hG H hp h2 H1 ht hs

theorem WInv.init {T : PosTy} (hw : NonNeg go) (hgo : Adjacent T (dropCost go)) (ho : InGrid T orig) :
    WInv T go D orig (fun q => 1 ≤ upd (fun _ => 0) orig 1 q) [(orig, Dir.N)] (BSt.after go h D (BSt.init INF orig).c (0, orig, Dir.N) []) := by
  obtain ⟨l', -, -, -, hself⟩ := pushed_init (h := h) (D := D) (INF := INF) hw hgo ho
  have hk : ∀ q, 1 ≤ upd (fun _ => 0) orig 1 q ↔ q = orig := by
    intro q
    by_cases hq : q = orig
    · subst hq; simp [upd_same]
    · simp [upd_other _ _ hq, hq]
  refine ⟨fun q => by rw [hk q]; simp, fun q hq => ?_⟩
  obtain rfl := (hk q).1 hq
  exact ⟨[], .here, by rw [hself]; exact isCostPath_nil⟩

/-! ### The search, from the items -/

/-- The search goes through the items up to the destination. -/
theorem Ucs.searchLoop_yields [Target] (C : MapImpl Int) (D : Bool) (go : WGo) (dest : P2) (k : Nat) : ∀ {it st : UcsIter C} {zs : List (P2 × Dir)}
    (f : P2 → Option Dir), yields (UcsIter.next C D go) k it = .ok (zs, st) → zs.length < k →
    ((∀ m ∈ zs, m.1 ≠ dest) ∧ Ucs.searchLoop (MapImpl.ideal none) C D go dest k it f = .ok (.error .destinationUnreachable)) ∨
    (∃ pre m post, zs = pre ++ m :: post ∧ m.1 = dest ∧ (∀ m ∈ pre, m.1 ≠ dest) ∧
      Ucs.searchLoop (MapImpl.ideal none) C D go dest k it f = .ok (.ok (writeAll (pre ++ [m]) f))) := by
  induction k with
  | zero => intro it st zs f _ hlt; exact absurd hlt (Nat.not_lt_zero _)
  | succ k ih =>
    intro it st zs f hy hlt
    unfold yields at hy
    obtain ⟨⟨o, it'⟩, h1, hy⟩ := Out.bind_ok hy
    unfold Ucs.searchLoop
    rw [h1, Out.ok_bind]
    cases o with
    | none =>
      injection hy with hy
      injection hy with hy _
      subst hy
      exact .inl ⟨by simp, rfl⟩
    | some m =>
      obtain ⟨⟨l, st'⟩, h2, hy⟩ := Out.bind_ok hy
      injection hy with hy
      injection hy with hy _
      subst hy
      obtain ⟨pos, dir⟩ := m
      simp only
      rw [Out.ok_bind]
      by_cases hd : pos = dest
      · rw [if_pos hd]
        exact .inr ⟨[], (pos, dir), l, rfl, hd, by simp, rfl⟩
      · rw [if_neg hd]
        rcases ih (upd f pos (some dir)) h2 (by simpa using hlt) with ⟨a1, a2⟩ | ⟨pre, m, post, a1, a2, a3, a4⟩
        · refine .inl ⟨fun x hx => ?_, a2⟩
          rcases List.mem_cons.1 hx with rfl | hx
          · exact hd
          · exact a1 x hx
        · refine .inr ⟨(pos, dir) :: pre, m, post, by rw [a1]; rfl, a2, fun x hx => ?_, a4⟩
          rcases List.mem_cons.1 hx with rfl | hx
          · exact hd
          · exact a3 x hx

end Sqrid
