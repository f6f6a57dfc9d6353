import Mathlib.Data.List.ProdSigma
import Verif.Proofs.BestFirstYield
/-! How often the best-first machine yields a position, with a consistent heuristic. -/

namespace Sqrid

open Spec

section
variable {go : WGo} {h : P2 → Int} {D : Bool} {INF : Int} {orig : P2}

/-- The entries pushed have different directions, in the reverse order of the expansion, and every cost that changes comes with an entry. -/
theorem fold_pushed (p : P2) (ds : List Dir) : ∀ s : BSt, ∃ l : List Entry, (ds.foldl (BSt.relax go h p) s).heap = l ++ s.heap ∧
    (l.map (·.2.2)).Sublist (ds.map opposite).reverse ∧ ∀ q, (ds.foldl (BSt.relax go h p) s).c q ≠ s.c q → ∃ e ∈ l, e.2.1 = q := by
  induction ds with
  | nil => intro s; exact ⟨[], rfl, List.Sublist.refl _, fun q hq => absurd rfl hq⟩
  | cons d ds ih =>
    intro s
    have hr : ∃ l0 : List Entry, (BSt.relax go h p s d).heap = l0 ++ s.heap ∧ (l0.map (·.2.2)).Sublist [opposite d] ∧
        ∀ q, (BSt.relax go h p s d).c q ≠ s.c q → ∃ e ∈ l0, e.2.1 = q := by
      have hno : ∃ l0 : List Entry, s.heap = l0 ++ s.heap ∧ (l0.map (·.2.2)).Sublist [opposite d] ∧ ∀ q, s.c q ≠ s.c q → ∃ e ∈ l0, e.2.1 = q :=
        ⟨[], rfl, by simp, fun q hq => absurd rfl hq⟩
      unfold BSt.relax
      cases go p d with
      | none => exact hno
      | some qw =>
        simp only
        split
        · refine ⟨[_], rfl, List.Sublist.refl _, fun q hq => ⟨_, List.mem_singleton.2 rfl, ?_⟩⟩
          by_contra hne
          exact hq (upd_other _ _ (Ne.symm hne))
        · exact hno
    obtain ⟨l0, a1, a2, a3⟩ := hr
    obtain ⟨l, b1, b2, b3⟩ := ih (BSt.relax go h p s d)
    refine ⟨l ++ l0, ?_, ?_, fun q hq => ?_⟩
    · rw [List.foldl_cons, b1, a1, List.append_assoc]
    · rw [List.map_append, List.map_cons, List.reverse_cons]
      exact b2.append a2
    · rw [List.foldl_cons] at hq
      by_cases h1 : (BSt.relax go h p s d).c q = s.c q
      · obtain ⟨e, he, e1⟩ := b3 q (by rw [h1]; exact hq)
        exact ⟨e, by simp [he], e1⟩
      · obtain ⟨e, he, e1⟩ := a3 q h1
        exact ⟨e, by simp [he], e1⟩

theorem clockwise_opposites_nodup (D : Bool) : (((clockwise D).map opposite).reverse).Nodup := by cases D <;> decide

/-- What a step pushes: nothing if the position was popped before. -/
theorem CInv.pushed {t : P2 → Nat} {n : Nat} {F : Int} {f : P2 → Option Dir} {s : BSt} (hw : NonNeg go) (H : CInv go h D INF orig t n F f s) {e : Entry}
    {rest : List Entry} :
    ∃ l : List Entry, (BSt.after go h D s.c e rest).heap = l ++ rest ∧ (l.map (·.2.2)).Nodup ∧
      (∀ x ∈ l, x.2.1 ≠ orig ∧ t e.2.1 = 0 ∧ ∃ w, WEdge go D e.2.1 (opposite x.2.2) x.2.1 w ∧ s.c e.2.1 + w < s.c x.2.1) ∧
      (∀ q, (BSt.after go h D s.c e rest).c q ≠ s.c q → ∃ x ∈ l, x.2.1 = q) ∧
      (∀ x ∈ l, ∃ d w, WEdge go D e.2.1 d x.2.1 w ∧ (BSt.after go h D s.c e rest).c x.2.1 = s.c e.2.1 + w) := by
  have X := expand_spec h D e.2.1 { c := s.c, heap := rest } hw
  change ExpandedBy go h e.2.1 (clockwise D) _ (BSt.after go h D s.c e rest) at X
  obtain ⟨l, a1, a2, a3⟩ := fold_pushed (go := go) (h := h) e.2.1 (clockwise D) { c := s.c, heap := rest }
  change (BSt.after go h D s.c e rest).heap = _ at a1
  change ∀ q, (BSt.after go h D s.c e rest).c q ≠ _ → _ at a3
  generalize BSt.after go h D s.c e rest = s' at X a1 a3 ⊢
  obtain ⟨l', hl, -, hnew⟩ := X.new
  have : l' = l := by
    rw [a1] at hl
    exact (List.append_cancel_right hl).symm
  subst this
  refine ⟨l', a1, a2.nodup (clockwise_opposites_nodup D), fun x hx => ?_, a3, fun x hx => ?_⟩
  · obtain ⟨w, h1, h2, h3, h4, h5⟩ := hnew x hx
    simp only at h5
    refine ⟨?_, ?_, w, ⟨mem_clockwise.1 h1, h2⟩, h5⟩
    · rintro he
      have h6 := H.g.c_orig
      have h7 := hw _ _ _ _ h2
      have h8 := H.g.c_nonneg e.2.1
      rw [he] at h5
      omega
    · by_contra ht
      have := H.closed _ (by omega) _ _ _ ⟨mem_clockwise.1 h1, h2⟩
      omega
  · obtain ⟨w, h1, h2, h3, h4, h5⟩ := hnew x hx
    obtain ⟨y, -, -, -, w', h7, h8, h9⟩ := X.dec x.2.1 (by simp only at h4 h5 ⊢; omega)
    exact ⟨_, w', ⟨mem_clockwise.1 h7, h8⟩, h9⟩

/-- A step changes no cost of a popped position. -/
theorem CInv.same_cost {t t' : P2 → Nat} {n n' : Nat} {F F' : Int} {f f' : P2 → Option Dir} {s s' : BSt} (H : CInv go h D INF orig t n F f s)
    (H' : CInv go h D INF orig t' n' F' f' s') {q : P2} (h1 : 1 ≤ t q) (h2 : 1 ≤ t' q) : s'.c q = s.c q :=
  isMinCost_unique (H'.isMinCost h2) (H.isMinCost h1)

/-- The items in the heap. -/
def BSt.items (s : BSt) : List (P2 × Dir) := s.heap.map (·.2)

theorem items_after {s : BSt} {e : Entry} {rest l : List Entry} {s' : BSt} (hp : Heap.pop s.heap = some (e, rest)) (hl : s'.heap = l ++ rest)
    (ys : List (P2 × Dir)) : ((ys ++ [e.2]) ++ s'.items).Perm (l.map (·.2) ++ (ys ++ s.items)) := by
  have h1 := ((Heap.pop_some hp).2.2.map (·.2))
  unfold BSt.items
  rw [hl, List.map_append]
  refine List.Perm.trans ?_ (((List.Perm.refl _).append ((List.Perm.refl _).append h1)).symm)
  rw [List.map_cons]
  have : ys ++ [e.2] ++ (List.map (·.2) l ++ List.map (·.2) rest) = (ys ++ [e.2]) ++ List.map (·.2) l ++ List.map (·.2) rest := by simp
  rw [this]
  have h2 : (l.map (·.2) ++ (ys ++ e.2 :: rest.map (·.2))) = l.map (·.2) ++ (ys ++ [e.2]) ++ rest.map (·.2) := by simp
  rw [h2]
  exact (List.perm_append_comm).append_right _

/-! ### Every item once -/

/-- Invariant: `ys` are the items yielded so far. -/
structure OInv (orig : P2) (D : Bool) (K : P2 → Prop) (ys : List (P2 × Dir)) (s : BSt) : Prop where
  nodup : (ys ++ s.items).Nodup
  src : ∀ m ∈ ys ++ s.items, m = (orig, Dir.N) ∨ (m.1 ≠ orig ∧ K (neighbour m.1 m.2))
  known : ∀ m ∈ ys, K m.1
  dir : ∀ m ∈ ys ++ s.items, m.2 ∈ clockwise D

theorem opposite_clockwise {D : Bool} {d : Dir} (hd : Allowed D (opposite d)) : d ∈ clockwise D := by
  have := mem_clockwise.2 hd
  revert this
  cases D <;> cases d <;> decide

theorem OInv.step {T : PosTy} {t t' : P2 → Nat} {n : Nat} {F : Int} {f : P2 → Option Dir} {s : BSt} (hw : NonNeg go)
    (hgo : Adjacent T (dropCost go)) (hG : ∀ ds q n, IsCostPath go D orig ds q n → InGrid T q) (H : CInv go h D INF orig t n F f s) {ys : List (P2 × Dir)}
    (O : OInv orig D (fun q => 1 ≤ t q) ys s) {e : Entry} {rest : List Entry} (hp : Heap.pop s.heap = some (e, rest))
    (ht' : ∀ q, 1 ≤ t' q ↔ 1 ≤ t q ∨ q = e.2.1) :
    OInv orig D (fun q => 1 ≤ t' q) (ys ++ [e.2]) (BSt.after go h D s.c e rest) := by
  obtain ⟨l, hl, hnd, hnew, -⟩ := H.pushed (e := e) (rest := rest) hw
  have hperm := items_after hp hl ys
  have hpg : InGrid T e.2.1 := by
    obtain ⟨ds, hds⟩ := H.g.walk _ (H.g.entry e (Heap.pop_some hp).1).1
    exact hG _ _ _ hds
  have hsrc : ∀ x ∈ l, neighbour x.2.1 x.2.2 = e.2.1 := by
    intro x hx
    obtain ⟨-, -, w, h1, -⟩ := hnew x hx
    rw [(hgo e.2.1 (opposite x.2.2) x.2.1 hpg (by simp [dropCost, h1.2])).2, neighbour_opposite']
  refine ⟨?_, fun m hm => ?_, fun m hm => ?_, fun m hm => ?_⟩
  · rw [hperm.nodup_iff, List.nodup_append]
    refine ⟨?_, O.nodup, ?_⟩
    · have : (List.map (·.2.2) l) = (l.map (·.2)).map Prod.snd := by rw [List.map_map]; rfl
      rw [this] at hnd
      exact hnd.of_map
    · intro a ha b hb hab
      subst hab
      obtain ⟨x, hx, rfl⟩ := List.mem_map.1 ha
      obtain ⟨h1, h2, -⟩ := hnew x hx
      rcases O.src _ hb with h3 | h3
      · exact h1 (congrArg Prod.fst h3)
      · rw [hsrc x hx] at h3
        omega
  · rw [hperm.mem_iff, List.mem_append] at hm
    rcases hm with hm | hm
    · obtain ⟨x, hx, rfl⟩ := List.mem_map.1 hm
      exact .inr ⟨(hnew x hx).1, (ht' _).2 (.inr (hsrc x hx))⟩
    · exact (O.src m hm).imp id fun h => ⟨h.1, (ht' _).2 (.inl h.2)⟩
  · rcases List.mem_append.1 hm with hm | hm
    · exact (ht' _).2 (.inl (O.known m hm))
    · exact (ht' _).2 (.inr (by rw [List.mem_singleton.1 hm]))
  · rw [hperm.mem_iff, List.mem_append] at hm
    rcases hm with hm | hm
    · obtain ⟨x, hx, rfl⟩ := List.mem_map.1 hm
      obtain ⟨-, -, w, h1, -⟩ := hnew x hx
      exact opposite_clockwise h1.1
    · exact O.dir m hm

/-- What the first step pushes. -/
theorem pushed_init {T : PosTy} (hw : NonNeg go) (hgo : Adjacent T (dropCost go)) (ho : InGrid T orig) :
    ∃ l : List Entry, (BSt.after go h D (BSt.init INF orig).c (0, orig, Dir.N) []).heap = l ∧ (l.map (·.2.2)).Nodup ∧
      (∀ x ∈ l, x.2.1 ≠ orig ∧ neighbour x.2.1 x.2.2 = orig ∧ x.2.2 ∈ clockwise D ∧
        (∃ w, WEdge go D orig (opposite x.2.2) x.2.1 w) ∧
        ∃ d w, WEdge go D orig d x.2.1 w ∧ (BSt.after go h D (BSt.init INF orig).c (0, orig, Dir.N) []).c x.2.1 = w) ∧
      (BSt.after go h D (BSt.init INF orig).c (0, orig, Dir.N) []).c orig = 0 := by
  have X := expand_spec h D orig { c := (BSt.init INF orig).c, heap := [] } hw
  obtain ⟨l, a1, a2, -⟩ := fold_pushed (go := go) (h := h) orig (clockwise D) { c := (BSt.init INF orig).c, heap := [] }
  change (BSt.after go h D (BSt.init INF orig).c (0, orig, Dir.N) []).heap = _ at a1
  change ExpandedBy go h orig (clockwise D) _ (BSt.after go h D (BSt.init INF orig).c (0, orig, Dir.N) []) at X
  generalize BSt.after go h D (BSt.init INF orig).c (0, orig, Dir.N) [] = s' at X a1 ⊢
  obtain ⟨l', hl, -, hnew⟩ := X.new
  have : l' = l := by
    rw [a1] at hl
    exact (List.append_cancel_right hl).symm
  subst this
  rw [List.append_nil] at a1
  have hc0 : (BSt.init INF orig).c orig = 0 := by simp [BSt.init, upd_same]
  refine ⟨l', a1, a2.nodup (clockwise_opposites_nodup D), fun x hx => ?_, X.self.trans hc0⟩
  obtain ⟨w, h1, h2, h3, h4, h5⟩ := hnew x hx
  obtain ⟨y, -, -, -, w', h7, h8, h9⟩ := X.dec x.2.1 (by simp only at h4 h5 ⊢; omega)
  refine ⟨fun he => ?_, ?_, opposite_clockwise (mem_clockwise.1 h1), ⟨w, mem_clockwise.1 h1, h2⟩, _, w', ⟨mem_clockwise.1 h7, h8⟩, ?_⟩
  · have := hw _ _ _ _ h2
    simp only at h5
    rw [he] at h5
    omega
  · rw [(hgo orig (opposite x.2.2) x.2.1 ho (by simp [dropCost, h2])).2, neighbour_opposite']
  · simp only at h9
    omega

/-- The invariant once the origin has been yielded. -/
theorem OInv.init {T : PosTy} (hw : NonNeg go) (hgo : Adjacent T (dropCost go)) (ho : InGrid T orig) :
    OInv orig D (fun q => 1 ≤ upd (fun _ => 0) orig 1 q) [(orig, Dir.N)] (BSt.after go h D (BSt.init INF orig).c (0, orig, Dir.N) []) := by
  obtain ⟨l', a1, hnd, hx, -⟩ := pushed_init (h := h) (D := D) (INF := INF) hw hgo ho
  generalize BSt.after go h D (BSt.init INF orig).c (0, orig, Dir.N) [] = s' at a1 hx ⊢
  have hitems : s'.items = l'.map (·.2) := by rw [BSt.items, a1]
  refine ⟨?_, fun m hm => ?_, fun m hm => ?_, fun m hm => ?_⟩
  · rw [hitems, List.singleton_append, List.nodup_cons]
    refine ⟨fun hm => ?_, ?_⟩
    · obtain ⟨x, hxm, he⟩ := List.mem_map.1 hm
      exact (hx x hxm).1 (by rw [he])
    · have : (List.map (·.2.2) l') = (l'.map (·.2)).map Prod.snd := by rw [List.map_map]; rfl
      rw [this] at hnd
      exact hnd.of_map
  · rw [hitems, List.singleton_append, List.mem_cons] at hm
    rcases hm with rfl | hm
    · exact .inl rfl
    · obtain ⟨x, hxm, rfl⟩ := List.mem_map.1 hm
      exact .inr ⟨(hx x hxm).1, by rw [(hx x hxm).2.1, upd_same]⟩
  · rw [List.mem_singleton.1 hm, upd_same]
  · rw [hitems, List.singleton_append, List.mem_cons] at hm
    rcases hm with rfl | hm
    · cases D <;> simp [clockwise]
    · obtain ⟨x, hxm, rfl⟩ := List.mem_map.1 hm
      exact (hx x hxm).2.2.1

/-! ### Every position at most twice -/

theorem neighbour_inj {p : P2} {d d' : Dir} (he : neighbour p d = neighbour p d') : d = d' := by
  simp only [neighbour, Prod.mk.injEq] at he
  have h1 : (unit d).1 = (unit d').1 := by omega
  have h2 : (unit d).2 = (unit d').2 := by omega
  clear he
  revert h1 h2
  cases d <;> cases d' <;> decide

theorem pushed_nodup {l : List Entry} {p : P2} (hnd : (l.map (·.2.2)).Nodup) (hsrc : ∀ x ∈ l, neighbour x.2.1 x.2.2 = p) :
    ((l.map (·.2)).map Prod.fst).Nodup := by
  rw [List.map_map]
  refine List.Nodup.map_on ?_ hnd.of_map
  intro a ha b hb hab
  simp only [Function.comp] at hab
  have h4 : neighbour a.2.1 a.2.2 = neighbour a.2.1 b.2.2 := by rw [hsrc a ha, hab, hsrc b hb]
  exact List.inj_on_of_nodup_map hnd ha hb (neighbour_inj h4)

/-- Every step costs one, the heuristic of neighbours differs by one. -/
def Zigzag (go : WGo) (h : P2 → Int) (D : Bool) (orig : P2) : Prop :=
  ∀ ds n u d r w, IsCostPath go D orig ds u n → WEdge go D u d r w → w = 1 ∧ (h u = h r + 1 ∨ h u = h r - 1)

/-- Invariant: how often a position has been pushed. -/
structure DInv (h : P2 → Int) (orig : P2) (K : P2 → Prop) (ys : List (P2 × Dir)) (s : BSt) : Prop where
  known : ∀ m ∈ ys, K m.1
  orig_once : ((ys ++ s.items).map Prod.fst).count orig = 1
  twice : ∀ q, q ≠ orig → q ∈ (ys ++ s.items).map Prod.fst → ((ys ++ s.items).map Prod.fst).count q ≤ 2 ∧
    ∃ x, K x ∧ s.c q = s.c x + 1 ∧ (h x = h q + 1 ∨ (h x = h q - 1 ∧ ((ys ++ s.items).map Prod.fst).count q ≤ 1))

theorem DInv.step {T : PosTy} {t t' : P2 → Nat} {n n' : Nat} {F F' : Int} {f f' : P2 → Option Dir} {s : BSt} (hw : NonNeg go) (hz : Zigzag go h D orig)
    (hgo : Adjacent T (dropCost go)) (hG : ∀ ds q n, IsCostPath go D orig ds q n → InGrid T q) (H : CInv go h D INF orig t n F f s) {ys : List (P2 × Dir)}
    (O : DInv h orig (fun q => 1 ≤ t q) ys s) {e : Entry} {rest : List Entry} (hp : Heap.pop s.heap = some (e, rest))
    (hpr : t e.2.1 = 0 → e.1 = s.c e.2.1 + h e.2.1) (hF : F ≤ e.1)
    (H' : CInv go h D INF orig t' n' F' f' (BSt.after go h D s.c e rest)) (ht' : ∀ q, 1 ≤ t' q ↔ 1 ≤ t q ∨ q = e.2.1)
    (hself : (BSt.after go h D s.c e rest).c e.2.1 = s.c e.2.1) :
    DInv h orig (fun q => 1 ≤ t' q) (ys ++ [e.2]) (BSt.after go h D s.c e rest) := by
  obtain ⟨l, hl, hnd, hnew, hch, hval⟩ := H.pushed (e := e) (rest := rest) hw
  have hperm := items_after hp hl ys
  obtain ⟨pds, hpds⟩ := H.g.walk _ (H.g.entry e (Heap.pop_some hp).1).1
  have hpg : InGrid T e.2.1 := hG _ _ _ hpds
  have hsrc : ∀ x ∈ l, neighbour x.2.1 x.2.2 = e.2.1 ∧ x.2.1 = neighbour e.2.1 (opposite x.2.2) := by
    intro x hx
    obtain ⟨-, -, w, h1, -⟩ := hnew x hx
    have h2 := (hgo e.2.1 (opposite x.2.2) x.2.1 hpg (by simp [dropCost, h1.2])).2
    exact ⟨by rw [h2, neighbour_opposite'], h2⟩
  have hnd2 := pushed_nodup hnd fun x hx => (hsrc x hx).1
  have hsame : ∀ q, 1 ≤ t q → (BSt.after go h D s.c e rest).c q = s.c q := fun q hq => H.same_cost H' hq ((ht' q).2 (.inl hq))
  have hcount : ∀ q, (((ys ++ [e.2]) ++ (BSt.after go h D s.c e rest).items).map Prod.fst).count q =
      ((l.map (·.2)).map Prod.fst).count q + ((ys ++ s.items).map Prod.fst).count q := by
    intro q
    rw [(hperm.map Prod.fst).count_eq, List.map_append, List.count_append]
  have hmemc : ∀ q, q ∈ ((ys ++ [e.2]) ++ (BSt.after go h D s.c e rest).items).map Prod.fst ↔
      q ∈ (l.map (·.2)).map Prod.fst ∨ q ∈ (ys ++ s.items).map Prod.fst := by
    intro q
    rw [(hperm.map Prod.fst).mem_iff, List.map_append, List.mem_append]
  have hlmem : ∀ q, q ∈ (l.map (·.2)).map Prod.fst ↔ ∃ x ∈ l, x.2.1 = q := by
    intro q
    simp [List.mem_map]
  refine ⟨fun m hm => ?_, ?_, fun q hq hm => ?_⟩
  · rcases List.mem_append.1 hm with hm | hm
    · exact (ht' _).2 (.inl (O.known m hm))
    · exact (ht' _).2 (.inr (by rw [List.mem_singleton.1 hm]))
  · rw [hcount, O.orig_once, List.count_eq_zero_of_not_mem]
    rw [hlmem]
    rintro ⟨x, hx, he⟩
    exact (hnew x hx).1 he
  · rw [hcount]
    by_cases hql : q ∈ (l.map (·.2)).map Prod.fst
    · obtain ⟨x, hx, rfl⟩ := (hlmem q).1 hql
      rw [List.count_eq_one_of_mem hnd2 hql]
      obtain ⟨-, h0, w, h1, h2⟩ := hnew x hx
      obtain ⟨d', w', h3, h4⟩ := hval x hx
      obtain ⟨rfl, h5⟩ := hz _ _ _ _ _ _ hpds h1
      obtain ⟨rfl, -⟩ := hz _ _ _ _ _ _ hpds h3
      have hnew' : 1 ≤ t' e.2.1 := (ht' _).2 (.inr rfl)
      by_cases hold : x.2.1 ∈ (ys ++ s.items).map Prod.fst
      · obtain ⟨c1, u, c2, c3, c4⟩ := O.twice _ hq hold
        have h6 := H.le_F u c2
        have h7 := hpr h0
        have h8 : h e.2.1 = h x.2.1 + 1 ∧ h u = h x.2.1 - 1 := by omega
        rcases c4 with c4 | c4
        · omega
        · exact ⟨by omega, e.2.1, hnew', by rw [h4, hself], .inl h8.1⟩
      · rw [List.count_eq_zero_of_not_mem hold]
        refine ⟨by omega, e.2.1, hnew', by rw [h4, hself], ?_⟩
        rcases h5 with h5 | h5
        · exact .inl h5
        · exact .inr ⟨h5, by omega⟩
    · have hold : q ∈ (ys ++ s.items).map Prod.fst := ((hmemc q).1 hm).resolve_left hql
      rw [List.count_eq_zero_of_not_mem hql, Nat.zero_add]
      obtain ⟨c1, u, c2, c3, c4⟩ := O.twice q hq hold
      have hcq : (BSt.after go h D s.c e rest).c q = s.c q := by
        by_contra hne
        exact hql ((hlmem q).2 (hch q hne))
      exact ⟨c1, u, (ht' u).2 (.inl c2), by rw [hcq, hsame u c2]; exact c3, c4⟩

theorem DInv.init {T : PosTy} (hw : NonNeg go) (hz : Zigzag go h D orig) (hgo : Adjacent T (dropCost go)) (ho : InGrid T orig) :
    DInv h orig (fun q => 1 ≤ upd (fun _ => 0) orig 1 q) [(orig, Dir.N)] (BSt.after go h D (BSt.init INF orig).c (0, orig, Dir.N) []) := by
  obtain ⟨l', a1, hnd, hx, hself⟩ := pushed_init (h := h) (D := D) (INF := INF) hw hgo ho
  generalize BSt.after go h D (BSt.init INF orig).c (0, orig, Dir.N) [] = s' at a1 hx hself ⊢
  have hitems : s'.items = l'.map (·.2) := by rw [BSt.items, a1]
  have hnd2 := pushed_nodup hnd fun x hm => (hx x hm).2.1
  have hlmem : ∀ q, q ∈ (l'.map (·.2)).map Prod.fst ↔ ∃ x ∈ l', x.2.1 = q := by
    intro q
    simp [List.mem_map]
  rw [← hitems] at hnd2 hlmem
  have hcount : ∀ q, q ≠ orig → (([(orig, Dir.N)] ++ s'.items).map Prod.fst).count q = (s'.items.map Prod.fst).count q := by
    intro q hq
    rw [List.singleton_append, List.map_cons, List.count_cons_of_ne (Ne.symm hq)]
  refine ⟨fun m hm => by rw [List.mem_singleton.1 hm, upd_same], ?_, fun q hq hm => ?_⟩
  · rw [List.singleton_append, List.map_cons, List.count_cons_self, List.count_eq_zero_of_not_mem]
    rw [hlmem]
    rintro ⟨x, hxm, he⟩
    exact (hx x hxm).1 he
  · rw [hcount q hq]
    rw [List.singleton_append, List.map_cons, List.mem_cons] at hm
    have hm := hm.resolve_left hq
    rw [List.count_eq_one_of_mem hnd2 hm]
    obtain ⟨x, hxm, rfl⟩ := (hlmem q).1 hm
    obtain ⟨-, -, -, ⟨w, h1⟩, d, w', h2, h3⟩ := hx x hxm
    obtain ⟨-, h4⟩ := hz _ _ _ _ _ _ isCostPath_nil h1
    obtain ⟨rfl, -⟩ := hz _ _ _ _ _ _ isCostPath_nil h2
    refine ⟨by omega, orig, by rw [upd_same], by rw [h3, hself]; rfl, ?_⟩
    rcases h4 with h4 | h4
    · exact .inl h4
    · exact .inr ⟨h4, by omega⟩

/-! ### Tracking an invariant of the yielded items -/

/-- `J` is kept by every step. -/
def Tracked (go : WGo) (h : P2 → Int) (D : Bool) (INF : Int) (orig : P2) (J : (P2 → Nat) → List (P2 × Dir) → BSt → Prop) : Prop :=
  ∀ t n F f s ys e rest t' n', CInv go h D INF orig t n F f s → J t ys s → Heap.pop s.heap = some (e, rest) →
    (t e.2.1 = 0 → e.1 = s.c e.2.1 + h e.2.1) → F ≤ e.1 →
    CInv go h D INF orig t' n' e.1 (upd f e.2.1 (some e.2.2)) (BSt.after go h D s.c e rest) → (∀ q, 1 ≤ t' q ↔ 1 ≤ t q ∨ q = e.2.1) →
    (BSt.after go h D s.c e rest).c e.2.1 = s.c e.2.1 → J t' (ys ++ [e.2]) (BSt.after go h D s.c e rest)

theorem yields_track {J : (P2 → Nat) → List (P2 × Dir) → BSt → Prop} {σ : Type} {next : σ → Out (Option (P2 × Dir) × σ)} {emb : BSt → σ}
    (hw : NonNeg go) (hc : Consistent go D orig h) (hJ : Tracked go h D INF orig J)
    (hnone : ∀ s, Heap.pop s.heap = none → next (emb s) = .ok (none, emb s))
    (hnext : ∀ s e rest, Heap.pop s.heap = some (e, rest) → s.c e.2.1 < INF → IsMinCost go D orig e.2.1 (s.c e.2.1) →
      next (emb s) = .ok (some e.2, emb (BSt.after go h D s.c e rest))) (k : Nat) :
    ∀ {t : P2 → Nat} {n : Nat} {F : Int} {f : P2 → Option Dir} {s : BSt} {ys : List (P2 × Dir)}, CInv go h D INF orig t n F f s → J t ys s →
    ∃ zs s' t' n' F' f', yields next k (emb s) = .ok (zs, emb s') ∧ CInv go h D INF orig t' n' F' f' s' ∧ J t' (ys ++ zs) s' := by
  induction k with
  | zero => intro t n F f s ys H j; exact ⟨[], s, t, n, F, f, rfl, H, by rwa [List.append_nil]⟩
  | succ k ih =>
    intro t n F f s ys H j
    cases hp : Heap.pop s.heap with
    | none =>
      refine ⟨[], s, t, n, F, f, ?_, H, by rwa [List.append_nil]⟩
      unfold yields
      rw [hnone s hp]
      rfl
    | some er =>
      obtain ⟨e, rest⟩ := er
      obtain ⟨h1, h2, h3, t1, n1, H1, h4, h5, h6⟩ := H.step hw hc hp
      have hfin := (H.g.entry e (Heap.pop_some hp).1).1
      obtain ⟨zs, s', t', n', F', f', a1, a2, a3⟩ := ih H1 (hJ _ _ _ _ _ _ _ _ _ _ H j hp h2 h1 H1 h4 h5)
      refine ⟨e.2 :: zs, s', t', n', F', f', ?_, a2, by rwa [List.append_assoc, List.singleton_append] at a3⟩
      unfold yields
      rw [hnext s e rest hp hfin ⟨H.g.walk _ hfin, h3⟩, Out.ok_bind]
      simp only
      rw [a1]
      rfl

theorem yields_track_init {J : (P2 → Nat) → List (P2 × Dir) → BSt → Prop} {σ : Type} {next : σ → Out (Option (P2 × Dir) × σ)} {emb : BSt → σ}
    (hINF : 0 < INF) (hw : NonNeg go) (hc : Consistent go D orig h) (hJ : Tracked go h D INF orig J)
    (h0 : J (upd (fun _ => 0) orig 1) [(orig, Dir.N)] (BSt.after go h D (BSt.init INF orig).c (0, orig, Dir.N) []))
    (hnone : ∀ s, Heap.pop s.heap = none → next (emb s) = .ok (none, emb s))
    (hnext : ∀ s e rest, Heap.pop s.heap = some (e, rest) → s.c e.2.1 < INF → IsMinCost go D orig e.2.1 (s.c e.2.1) →
      next (emb s) = .ok (some e.2, emb (BSt.after go h D s.c e rest))) (k : Nat) :
    ∃ zs s', yields next k (emb (BSt.init INF orig)) = .ok (zs, emb s') ∧ (zs = [] ∨ ∃ t' n' F' f', CInv go h D INF orig t' n' F' f' s' ∧ J t' zs s') := by
  cases k with
  | zero => exact ⟨[], _, rfl, .inl rfl⟩
  | succ k =>
    obtain ⟨H, -⟩ := CInv.init hINF hw hc (fun _ => none)
    have hc0 : (BSt.init INF orig).c orig = 0 := by simp [BSt.init, upd_same]
    have hmc : IsMinCost go D orig orig 0 := ⟨⟨[], isCostPath_nil⟩, fun ds m hm => isCostPath_nonneg hw hm⟩
    have e1 := hnext (BSt.init INF orig) (0, orig, Dir.N) [] (Heap.pop_single _) (by simp only; omega) (by simp only; rw [hc0]; exact hmc)
    obtain ⟨zs, s', t', n', F', f', a1, a2, a3⟩ := yields_track hw hc hJ hnone hnext k H h0
    refine ⟨(orig, Dir.N) :: zs, s', ?_, .inr ⟨t', n', F', f', a2, a3⟩⟩
    unfold yields
    rw [e1, Out.ok_bind]
    simp only
    rw [a1]
    rfl

theorem BSt.search_track {J : (P2 → Nat) → List (P2 × Dir) → BSt → Prop} (hw : NonNeg go) (hc : Consistent go D orig h)
    (hJ : Tracked go h D INF orig J) {B : Nat} (hB : ∀ t n F f s ys, CInv go h D INF orig t n F f s → J t ys s → ys.length ≤ B) (dest : P2) (k : Nat) :
    ∀ {t : P2 → Nat} {n : Nat} {F : Int} {f : P2 → Option Dir} {s : BSt} {ys : List (P2 × Dir)}, CInv go h D INF orig t n F f s → J t ys s →
    B < ys.length + k → ∃ r, BSt.search go h D dest k s f = .ok r := by
  induction k with
  | zero =>
    intro t n F f s ys H j hk
    have := hB _ _ _ _ _ _ H j
    omega
  | succ k ih =>
    intro t n F f s ys H j hk
    cases hp : Heap.pop s.heap with
    | none => exact ⟨_, BSt.search_none hp⟩
    | some er =>
      obtain ⟨e, rest⟩ := er
      obtain ⟨h1, h2, h3, t1, n1, H1, h4, h5, h6⟩ := H.step hw hc hp
      rw [BSt.search_some hp]
      split
      · exact ⟨_, rfl⟩
      · exact ih H1 (hJ _ _ _ _ _ _ _ _ _ _ H j hp h2 h1 H1 h4 h5) (by simp; omega)

theorem BSt.search_track_init {J : (P2 → Nat) → List (P2 × Dir) → BSt → Prop} (hINF : 0 < INF) (hw : NonNeg go) (hc : Consistent go D orig h)
    (hJ : Tracked go h D INF orig J)
    (h0 : J (upd (fun _ => 0) orig 1) [(orig, Dir.N)] (BSt.after go h D (BSt.init INF orig).c (0, orig, Dir.N) []))
    {B : Nat} (hB : ∀ t n F f s ys, CInv go h D INF orig t n F f s → J t ys s → ys.length ≤ B) (dest : P2) (f : P2 → Option Dir) {k : Nat} (hk : B < k) :
    ∃ r, BSt.search go h D dest k (BSt.init INF orig) f = .ok r := by
  obtain ⟨k, rfl⟩ : ∃ m, k = m + 1 := ⟨k - 1, by omega⟩
  obtain ⟨H, -⟩ := CInv.init hINF hw hc f
  rw [BSt.search_some (e := (0, orig, Dir.N)) (rest := []) (Heap.pop_single _)]
  simp only
  split
  · exact ⟨_, rfl⟩
  · exact BSt.search_track hw hc hJ hB dest k H h0 (by simp; omega)

theorem OInv.tracked {T : PosTy} (hw : NonNeg go) (hgo : Adjacent T (dropCost go)) (hG : ∀ ds q n, IsCostPath go D orig ds q n → InGrid T q) :
    Tracked go h D INF orig (fun t ys s => OInv orig D (fun q => 1 ≤ t q) ys s) :=
  fun _ _ _ _ _ _ _ _ _ _ H j hp _ _ _ ht _ => j.step hw hgo hG H hp ht

theorem DInv.tracked {T : PosTy} (hw : NonNeg go) (hz : Zigzag go h D orig) (hgo : Adjacent T (dropCost go))
    (hG : ∀ ds q n, IsCostPath go D orig ds q n → InGrid T q) :
    Tracked go h D INF orig (fun t ys s => DInv h orig (fun q => 1 ≤ t q) ys s) :=
  fun _ _ _ _ _ _ _ _ _ _ H j hp h2 h1 H1 ht hs => j.step hw hz hgo hG H hp h2 h1 H1 ht hs

/-! ### Counting -/

theorem OInv.count_le {K : P2 → Prop} {ys : List (P2 × Dir)} {s : BSt} (O : OInv orig D K ys s) (q : P2) :
    (ys.map Prod.fst).count q ≤ (clockwise D).length := by
  have hnd : ys.Nodup := (List.nodup_append.1 O.nodup).1
  have h1 : (ys.map Prod.fst).count q = ((ys.filter (fun m => m.1 == q)).map Prod.snd).length := by
    rw [List.count, List.countP_map, List.countP_eq_length_filter, List.length_map]
    rfl
  rw [h1]
  refine (List.Nodup.subperm ?_ ?_).length_le
  · refine List.Nodup.map_on (fun a ha b hb hab => ?_) (hnd.filter _)
    have e1 := (List.mem_filter.1 ha).2
    have e2 := (List.mem_filter.1 hb).2
    simp only [beq_iff_eq] at e1 e2
    exact Prod.ext (e1.trans e2.symm) hab
  · intro d hd
    obtain ⟨m, hm, rfl⟩ := List.mem_map.1 hd
    exact O.dir m (List.mem_append_left _ (List.mem_filter.1 hm).1)

theorem OInv.orig_le {K : P2 → Prop} {ys : List (P2 × Dir)} {s : BSt} (O : OInv orig D K ys s) : (ys.map Prod.fst).count orig ≤ 1 := by
  have hnd : ys.Nodup := (List.nodup_append.1 O.nodup).1
  have h1 : (ys.map Prod.fst).count orig = ys.count (orig, Dir.N) := by
    rw [List.count, List.countP_map, List.count]
    refine List.countP_congr fun m hm => ?_
    simp only [Function.comp, beq_iff_eq]
    refine ⟨fun h => ?_, fun h => by rw [h]⟩
    exact (O.src m (List.mem_append_left _ hm)).resolve_right fun h' => h'.1 h
  rw [h1]
  exact List.nodup_iff_count_le_one.1 hnd _

theorem OInv.length_le {K : P2 → Prop} {ys : List (P2 × Dir)} {s : BSt} (O : OInv orig D K ys s) {L : List P2} (hL : ∀ q, K q → q ∈ L) (ho : orig ∈ L) :
    ys.length ≤ (clockwise D).length * (L.length - 1) + 1 := by
  have hnd : ys.Nodup := (List.nodup_append.1 O.nodup).1
  have h1 : ys ⊆ (orig, Dir.N) :: (L.erase orig).product (clockwise D) := by
    intro m hm
    rcases O.src m (List.mem_append_left _ hm) with h | h
    · rw [h]; exact List.mem_cons_self
    · refine List.mem_cons_of_mem _ (List.mem_product.2 ⟨?_, O.dir m (List.mem_append_left _ hm)⟩)
      exact (List.mem_erase_of_ne h.1).2 (hL _ (O.known m hm))
  have h2 := (hnd.subperm h1).length_le
  have h3 : ((L.erase orig).product (clockwise D)).length = (L.length - 1) * (clockwise D).length := by
    rw [← List.length_erase_of_mem ho]
    exact List.length_product _ _
  rw [List.length_cons, h3, Nat.mul_comm] at h2
  exact h2

theorem DInv.count_le {K : P2 → Prop} {ys : List (P2 × Dir)} {s : BSt} (O : DInv h orig K ys s) (q : P2) :
    (ys.map Prod.fst).count q ≤ 2 ∧ (q = orig → (ys.map Prod.fst).count q ≤ 1) := by
  have hle : (ys.map Prod.fst).count q ≤ ((ys ++ s.items).map Prod.fst).count q := by
    rw [List.map_append, List.count_append]
    omega
  by_cases hq : q = orig
  · subst hq
    have := O.orig_once
    omega
  · refine ⟨?_, fun h => absurd h hq⟩
    by_cases hm : q ∈ (ys ++ s.items).map Prod.fst
    · have := (O.twice q hq hm).1
      omega
    · rw [List.count_eq_zero_of_not_mem hm] at hle
      omega

theorem DInv.length_le {K : P2 → Prop} {ys : List (P2 × Dir)} {s : BSt} (O : DInv h orig K ys s) {L : List P2} (hL : ∀ q, K q → q ∈ L) (ho : orig ∈ L) :
    ys.length ≤ 2 * L.length - 1 := by
  have h1 : List.Subperm (ys.map Prod.fst) (L ++ L.erase orig) := by
    refine List.subperm_ext_iff.2 fun q hq => ?_
    obtain ⟨m, hm, rfl⟩ := List.mem_map.1 hq
    have h2 := O.count_le m.1
    have h3 := List.count_pos_iff.2 (hL _ (O.known m hm))
    rw [List.count_append]
    by_cases he : m.1 = orig
    · have := h2.2 he
      omega
    · rw [List.count_erase_of_ne he]
      omega
  have h2 := h1.length_le
  rw [List.length_map, List.length_append, List.length_erase_of_mem ho] at h2
  have := List.length_pos_of_mem ho
  omega

end

end Sqrid
