import Mathlib.Data.List.ProdSigma
import Verif.Proofs.BestFirstBound
import Verif.Props.PathBound
/-!
# The path of A* and the distance: C128

A* may return a path that is not a shortest one (C58). However large the grid is, the path stays close to the origin and the destination.
-/

namespace Sqrid

-- Statements that do not mention a target are about a debug build for a 64-bit machine.
attribute [local instance] debug64

open Spec

/-- The bound on the priorities with diagonals. -/
theorem diag_bound {T : PosTy} {go : GoFn} (hgo : Adjacent T go) {orig dest : P2} (ho : InGrid T orig) {path : List Dir}
    (hp : IsPath go true orig path dest) (as bs : List Dir) (q : P2) (m : Int) (he : path = as ++ bs)
    (h : IsCostPath (unitCost go) true orig as q m) : m + upd (fun q => l1 q dest) orig 0 q ≤ max 0 (2 * (path.length : Int) - 1) := by
  obtain ⟨h1, h2⟩ := isCostPath_unit.1 h
  have hlen : path.length = as.length + bs.length := by rw [he, List.length_append]
  by_cases hq : q = orig
  · subst hq
    rw [upd_same]
    omega
  · rw [upd_other _ _ hq]
    have hb : IsPath go true q bs dest := by
      subst he
      refine ⟨fun d hd => hp.1 d (by simp [hd]), ?_⟩
      have := hp.2
      rw [follow_append, h1.2] at this
      exact this
    have h3 := l1_le_path_diag hgo (isPath_inGrid hgo.staysIn ho h1) hb
    have h4 : 0 < as.length := by
      cases as with
      | nil => have := h1.2; injection this with this; exact absurd this.symm hq
      | cons a as => simp
    omega

/-- C128. With diagonals, every position `q` on the path that A* returns is the origin or has `dist(q) + |q - destination| < 2 dist(destination)`. -/
theorem C128_astar_within [Target] (T : PosTy) (hT : T.Searchable) (astar) (hastar : Astar.IsSearch T astar)
    (go : Int × Int → Dir → Option (Int × Int)) (hgo : Adjacent T go) (orig dest : Int × Int) (ho : InGrid T orig) (hd : InGrid T dest) (fuel : Nat)
    (as bs : List Dir) (h : astar true go orig dest fuel = .ok (.ok (as ++ bs))) :
    ∃ q k n, follow go orig as = some q ∧ IsDist go true orig q k ∧ IsDist go true orig dest n ∧ (q = orig ∨ (k : Int) + l1 q dest < 2 * n) := by
  have hpath := C55_valid_path T hT astar hastar true go hgo orig dest ho hd fuel _ h
  obtain ⟨n, hn⟩ := reachable_iff_isDist.1 ⟨_, hpath⟩
  obtain ⟨⟨ds, hds, hlen⟩, hmin⟩ := hn
  rw [hastar.eq hT hgo.staysIn ho hd] at h
  have hG := unit_inGrid (D := true) hgo.staysIn ho
  have hadj := unit_adjacent hgo
  have hlt : (n : Int) < usizeMax := by
    have := isDist_lt_list (covers hgo.staysIn ho) (⟨⟨ds, hds, hlen⟩, hmin⟩ : IsDist go true orig dest n)
    have := cells_lt hT
    omega
  cases hr : Astar.searchMapmov T (MapImpl.ideal none) (MapImpl.ideal 0) true go orig dest fuel with
  | panic => unfold Astar.searchPath at h; rw [hr] at h; cases h
  | ub => unfold Astar.searchPath at h; rw [hr] at h; cases h
  | timeout => unfold Astar.searchPath at h; rw [hr] at h; cases h
  | ok r =>
    rw [Astar.searchPath_of_mapmov hr] at h
    cases r with
    | error e => cases h
    | ok f =>
      rw [Astar.searchMapmov_eq hT hgo.staysIn ho hd] at hr
      obtain ⟨K, s, H, hK, hW⟩ := BSt.search_within (unitCost_nonneg go) (isCostPath_unit.2 ⟨hds, rfl⟩) (by omega) (diag_bound hgo ho hds) fuel
        (GInv.init _ _ usizeMax_pos _ _) (PInv.init _ _ _ _ _) (fun h => h) (fun _ h => h.elim) hr
      have ha := camefrom_arrives hT.wf hd h
      obtain ⟨q, hq, hqa⟩ := ha.pre (K := K) (H.back_step hadj hG) hK as bs rfl
      have hp := H.arrives_path hadj hG hqa hq
      rw [dropCost_unitCost] at hp
      obtain ⟨k, hk⟩ := reachable_iff_isDist.1 ⟨_, hp⟩
      refine ⟨q, k, n, hp.2, hk, ⟨⟨ds, hds, hlen⟩, hmin⟩, ?_⟩
      by_cases hqo : q = orig
      · exact .inl hqo
      · right
        obtain ⟨es, hes⟩ := H.walk q (H.fin q hq)
        obtain ⟨h1, h2⟩ := isCostPath_unit.1 hes
        have h3 := hk.2 es h1
        have h4 := hW q hq
        rw [upd_other _ _ hqo, hlen] at h4
        have h5 : 0 < n := by
          rcases Nat.eq_zero_or_pos n with h0 | h0
          · subst h0
            have h6 : (0 : Int) < k := by
              rcases Nat.eq_zero_or_pos k with h7 | h7
              · subst h7
                obtain ⟨⟨xs, h8, h9⟩, -⟩ := hk
                rw [List.length_eq_zero_iff] at h9
                subst h9
                have := h8.2
                injection this with this
                exact absurd this.symm hqo
              · omega
            have : 0 ≤ l1 q dest := by simp only [l1]; omega
            omega
          · exact h0
        omega

/-- The numbers that are not far from two given ones. -/
def between (a b : Int) (n : Nat) : List Int := (List.range (n + 1)).map fun i : Nat => (a + b - n + 1) / 2 + (i : Int)

theorem mem_between {a b x : Int} {n : Nat} (h : (x - a).natAbs + (x - b).natAbs ≤ n) : x ∈ between a b n := by
  refine List.mem_map.2 ⟨(x - (a + b - n + 1) / 2).toNat, List.mem_range.2 ?_, ?_⟩ <;> omega

/-- A list of different positions close to two given ones is not long. -/
theorem close_length {orig dest : P2} {l : List P2} {n : Nat} (hl : l.Nodup)
    (hx : ∀ q ∈ l, (q.1 - orig.1).natAbs + (q.1 - dest.1).natAbs ≤ n) (hy : ∀ q ∈ l, (q.2 - orig.2).natAbs + (q.2 - dest.2).natAbs ≤ n) :
    l.length ≤ (n + 1) * (n + 1) := by
  have hsub : ∀ q ∈ l, q ∈ between orig.1 dest.1 n ×ˢ between orig.2 dest.2 n := by
    intro q hq
    exact List.mem_product.2 ⟨mem_between (hx q hq), mem_between (hy q hq)⟩
  have := (hl.subperm hsub).length_le
  rw [List.length_product] at this
  simpa [between] using this

/-- The positions along a path of A*. -/
theorem astar_positions [Target] (T : PosTy) (hT : T.Searchable) (astar) (hastar : Astar.IsSearch T astar) (D : Bool)
    (go : Int × Int → Dir → Option (Int × Int)) (hgo : Adjacent T go) (orig dest : Int × Int) (ho : InGrid T orig) (hd : InGrid T dest) (fuel : Nat)
    (path : List Dir) (h : astar D go orig dest fuel = .ok (.ok path)) {P : P2 → Prop}
    (hP : ∀ as bs, path = as ++ bs → ∃ q, follow go orig as = some q ∧ P q) : ∃ l : List P2, l.Nodup ∧ l.length = path.length + 1 ∧ ∀ q ∈ l, P q := by
  have hpre : ∀ i, ∃ q, follow go orig (path.take i) = some q ∧ P q := fun i => hP _ (path.drop i) (by rw [List.take_append_drop])
  choose pos hpos hmem using hpre
  refine ⟨(List.range (path.length + 1)).map pos, ?_, by simp, fun q hq => ?_⟩
  · rw [List.nodup_map_iff_inj_on List.nodup_range]
    intro i hi j hj e
    rw [List.mem_range] at hi hj
    exact C91_astar_simple T hT astar hastar D go hgo orig dest ho hd fuel path h i j (by omega) (by omega) (by rw [hpos, hpos, e])
  · obtain ⟨i, -, rfl⟩ := List.mem_map.1 hq
    exact hmem i

/-- C57, without diagonals, on grids of any shape: a destination whose distance is less than the number of columns is found. What is missing: the same for destinations
further away, which is false on tall grids (`C57_refuted_tall`), and with diagonals (`C57_refuted_diagonals`). -/
theorem C57_near_straight_partial [Target] (T : PosTy) (hT : T.Searchable) (astar) (hastar : Astar.IsSearch T astar)
    (go : Int × Int → Dir → Option (Int × Int)) (hgo : Adjacent T go) (orig dest : Int × Int) (ho : InGrid T orig) (hd : InGrid T dest) (fuel : Nat)
    (hfuel : Astar.steps T < (fuel : Int)) (n : Nat) (hn : IsDist go false orig dest n) (hnear : (n : Int) < cols T) :
    ∃ path, astar false go orig dest fuel = .ok (.ok path) := by
  rw [hastar.eq hT hgo.staysIn ho hd]
  have hG := unit_inGrid (D := false) hgo.staysIn ho
  have hcons := astar_consistent hgo ho dest
  have hadj := unit_adjacent hgo
  obtain ⟨r, h1, h2⟩ := BSt.search_init (L := allPositions T true) (INF := usizeMax) usizeMax_pos (unitCost_nonneg go) hcons (dest := dest)
    (fun ds q n h => PosTy.mem_allPositions.2 (hG ds q n h)) (by rw [PosTy.allPositions_length]; exact (Astar.steps_nat hT.toIsGrid hfuel).2) (fun _ => none)
  rw [← Astar.searchMapmov_eq hT hgo.staysIn ho hd false fuel] at h1
  rw [Astar.searchPath_of_mapmov h1]
  cases r with
  | error e =>
    obtain ⟨⟨ds, hds, hlen⟩, -⟩ := hn
    have h3 := not_reachable_of_limit (covers hgo.staysIn ho) (cells_lt hT) h2.2
    exact absurd ⟨ds, hds⟩ h3
  | ok f =>
    obtain ⟨t, m, F, s, H, ht, hF⟩ := h2
    obtain ⟨path, b1, -⟩ := H.arrives hadj hG dest ht
    have hcn : s.c dest = n := isMinCost_unique (H.isMinCost ht) (isMinCost_unit.2 ⟨n, rfl, hn⟩)
    have hlt := b1.length_lt_list (L := between orig.1 dest.1 n ×ˢ between orig.2 dest.2 n) (H.g.back_step hadj hG) (fun q hq => by
      have hle := H.le_F q hq
      obtain ⟨ds, hds⟩ := H.g.walk q (H.g.fin q hq)
      obtain ⟨c1, c2⟩ := isCostPath_unit.1 hds
      have h3 := l1_le_path hgo ho c1
      have h4 : l1 dest dest = 0 := by simp [l1]
      simp only at hF hle
      have h5 : l1 orig q + l1 q dest ≤ n := by omega
      simp only [l1] at h5
      exact List.mem_product.2 ⟨mem_between (by omega), mem_between (by omega)⟩) ht
    rw [List.length_product] at hlt
    simp only [between, List.length_map, List.length_range] at hlt
    have hnx : n + 1 ≤ T.nx := by
      have := hT.nx_eq
      have := hT.x0
      simp only [cols] at hnear
      omega
    have hle : path.length ≤ T.nx * T.nx := by
      have := Nat.mul_le_mul hnx hnx
      omega
    obtain ⟨o, a1, ⟨path', rfl, a2, -⟩ | ⟨-, a2⟩⟩ := camefrom_of_inv hT.wf hadj hG H.g ht
    · refine ⟨path', ?_⟩
      simp only
      rw [a1, wayOut_searchable hT ho hd]
      simp only
      rw [if_pos (by rw [← b1.unique a2]; exact hle)]
    · exact absurd b1 (a2 _)

theorem linf_le_path {T : PosTy} {go : GoFn} {p q : P2} {D : Bool} (hgo : Adjacent T go) (hp : InGrid T p) {ds : List Dir} (h : IsPath go D p ds q) :
    linf p q ≤ ds.length := by
  induction ds using List.reverseRecOn generalizing q with
  | nil => have := h.2; injection this with e; subst e; simp [linf]
  | append_singleton ds d ih =>
    obtain ⟨r, h1, h2, h3⟩ := isPath_concat h
    have := ih h1
    rw [(hgo r d q (isPath_inGrid hgo.staysIn hp h1) h3).2]
    simp only [List.length_append, List.length_singleton]
    push_cast
    cases d <;> simp only [linf, neighbour, unit] at * <;> omega

/-- C128. Without diagonals, if the distance is `n`, the path that A* returns has fewer than `(n + 1)²` steps, however large the grid. -/
theorem C128_straight [Target] (T : PosTy) (hT : T.Searchable) (astar) (hastar : Astar.IsSearch T astar)
    (go : Int × Int → Dir → Option (Int × Int)) (hgo : Adjacent T go) (orig dest : Int × Int) (ho : InGrid T orig) (hd : InGrid T dest) (fuel : Nat)
    (path : List Dir) (h : astar false go orig dest fuel = .ok (.ok path)) (n : Nat) (hn : IsDist go false orig dest n) :
    path.length < (n + 1) * (n + 1) := by
  obtain ⟨l, h1, h2, h3⟩ := astar_positions T hT astar hastar false go hgo orig dest ho hd fuel path h (P := fun q => l1 orig q + l1 q dest ≤ n)
    (fun as bs e => by
      subst e
      obtain ⟨q, k, m, a1, a2, a3, a4⟩ := C89_astar_within T hT astar hastar go hgo orig dest ho hd fuel as bs h
      have := isDist_unique hn a3
      subst this
      refine ⟨q, a1, ?_⟩
      obtain ⟨⟨ds, b1, b2⟩, -⟩ := a2
      have := l1_le_path hgo ho b1
      omega)
  have := close_length (orig := orig) (dest := dest) (n := n) h1 (fun q hq => by have := h3 q hq; simp only [l1] at this; omega)
    (fun q hq => by have := h3 q hq; simp only [l1] at this; omega)
  omega

/-- C128. With diagonals, if the distance `n` is not 0, the path that A* returns has fewer than `(2n)²` steps, however large the grid. -/
theorem C128_diagonals [Target] (T : PosTy) (hT : T.Searchable) (astar) (hastar : Astar.IsSearch T astar)
    (go : Int × Int → Dir → Option (Int × Int)) (hgo : Adjacent T go) (orig dest : Int × Int) (ho : InGrid T orig) (hd : InGrid T dest) (fuel : Nat)
    (path : List Dir) (h : astar true go orig dest fuel = .ok (.ok path)) (n : Nat) (hn : IsDist go true orig dest n) (hpos : 0 < n) :
    path.length < 2 * n * (2 * n) := by
  have hdist : linf orig dest ≤ n := by
    obtain ⟨⟨ds, b1, b2⟩, -⟩ := hn
    have := linf_le_path hgo ho b1
    omega
  obtain ⟨l, h1, h2, h3⟩ := astar_positions T hT astar hastar true go hgo orig dest ho hd fuel path h
    (P := fun q => q = orig ∨ linf orig q + l1 q dest < 2 * n)
    (fun as bs e => by
      subst e
      obtain ⟨q, k, m, a1, a2, a3, a4⟩ := C128_astar_within T hT astar hastar go hgo orig dest ho hd fuel as bs h
      have := isDist_unique hn a3
      subst this
      refine ⟨q, a1, a4.imp id fun a4 => ?_⟩
      obtain ⟨⟨ds, b1, b2⟩, -⟩ := a2
      have := linf_le_path hgo ho b1
      omega)
  have := close_length (orig := orig) (dest := dest) (n := 2 * n - 1) h1
    (fun q hq => by
      rcases h3 q hq with rfl | h3
      · simp only [linf] at hdist; omega
      · simp only [l1, linf] at h3; omega)
    (fun q hq => by
      rcases h3 q hq with rfl | h3
      · simp only [linf] at hdist; omega
      · simp only [l1, linf] at h3; omega)
  have e : 2 * n - 1 + 1 = 2 * n := by omega
  rw [e] at this
  omega

/-! ### The iterator -/

/-- Any number of items of the A* iterator, in both modes. -/
theorem AstarIter.yields_inv [Target] {T : PosTy} {go : GoFn} {orig dest : P2} {D : Bool} {L : List P2} (hL : ∀ q, Reachable go D orig q → q ∈ L)
    (hfit : AstarFits T go D orig dest L.length) {B : Int} (k : Nat) : ∀ {K : P2 → Prop} {f : P2 → Option Dir} {s : BSt},
    GInv (unitCost go) D usizeMax orig K f s → PInv (unitCost go) (fun q => l1 q dest) D usizeMax orig K s → UInv go D orig L usizeMax s →
    ∃ ys s' K' f', yields (AstarIter.next T (MapImpl.ideal 0) D go dest) k s.astar = .ok (ys, s'.astar) ∧
      GInv (unitCost go) D usizeMax orig K' f' s' ∧ (∀ q, K' q ↔ K q ∨ q ∈ ys.map Prod.fst) ∧ (∀ q, s'.c q ≤ s.c q) ∧
      (ys.length < k → s'.heap = []) ∧ ys.length ≤ uMeasure L s ∧
      ((∃ path n, IsCostPath (unitCost go) D orig path dest n ∧ n < usizeMax ∧ ∀ as bs q m, path = as ++ bs → IsCostPath (unitCost go) D orig as q m →
          m + upd (fun q => l1 q dest) orig 0 q ≤ B) → ¬ K dest → ∀ pre m post, ys = pre ++ m :: post → dest ∉ pre.map Prod.fst →
        s'.c m.1 + upd (fun q => l1 q dest) orig 0 m.1 ≤ B) := by
  induction k with
  | zero =>
    intro K f s H A U
    refine ⟨[], s, K, f, rfl, H, by simp, fun _ => Int.le_refl _, by simp, by simp, fun _ _ pre m post he => absurd he.symm (by simp)⟩
  | succ k ih =>
    intro K f s H A U
    cases hp : Heap.pop s.heap with
    | none =>
      refine ⟨[], s, K, f, ?_, H, by simp, fun _ => Int.le_refl _, fun _ => Heap.pop_none hp, by simp,
        fun _ _ pre m post he => absurd he.symm (by simp)⟩
      unfold yields
      rw [AstarIter.next_none hp]
      rfl
    | some er =>
      obtain ⟨e, rest⟩ := er
      have H' := H.step (h := fun q => l1 q dest) (unitCost_nonneg go) hp
      have A' := A.step (unitCost_nonneg go) H hp
      obtain ⟨h1, U', hlt⟩ := U.after (h := fun q => l1 q dest) hL hp
      have hle : ∀ q, (BSt.after (unitCost go) (fun q => l1 q dest) D s.c e rest).c q ≤ s.c q :=
        (expand_spec (fun q => l1 q dest) D e.2.1 { c := s.c, heap := rest } (unitCost_nonneg go)).le
      have hroom : AstarRoom T go D dest s e.2.1 := by
        have h2 := U.bound _ h1
        have h3 := known_le L usizeMax s.c
        have hr := U.reach _ h1
        refine ⟨U.nonneg _, ?_, fun d q hd hg => ?_⟩
        · have h4 := (hfit _ hr).2
          have hl : 0 ≤ l1 e.2.1 dest := by simp only [l1]; omega
          omega
        · obtain ⟨ds, hds⟩ := hr
          have h4 := hfit q ⟨_, isPath_append hds (isPath_single hd hg)⟩
          exact ⟨h4.1, by omega⟩
      obtain ⟨ys, s', K', f', a1, a2, a3, a4, a5, a6, a7⟩ := ih H' A' U'
      refine ⟨e.2 :: ys, s', K', f', ?_, a2, fun q => ?_, fun q => Int.le_trans (a4 q) (hle q), fun hlt => a5 (by simpa using hlt), ?_, ?_⟩
      · unfold yields
        rw [AstarIter.next_eq D hp hroom, Out.ok_bind]
        simp only
        rw [a1]
        rfl
      · rw [a3 q, List.map_cons, List.mem_cons, or_assoc]
      · simp only [List.length_cons]
        omega
      · intro hB hK pre m post he hpre
        cases pre with
        | nil =>
          simp only [List.nil_append] at he
          injection he with he1 he2
          subst he1
          obtain ⟨path, n, b1, b2, b3⟩ := hB
          have := A.pop_le (unitCost_nonneg go) H hK b1 b2 b3 hp
          have := a4 e.2.1
          have := hle e.2.1
          omega
        | cons x pre =>
          simp only [List.cons_append] at he
          injection he with he1 he2
          subst he1
          simp only [List.map_cons, List.mem_cons, not_or] at hpre
          exact a7 hB (fun h => h.elim hK hpre.1) pre m post he2 hpre.2

/-- The same with the maps of the library. -/
theorem AstarIter.yields_any [Target] {T : PosTy} (hT : T.Searchable) {C : MapImpl Int} (hC : C.Is T 0) {go : GoFn} (hgo : StaysIn T go) {orig dest : P2}
    (ho : InGrid T orig) (hd : InGrid T dest) (D : Bool) (B : Int) (k : Nat) :
    ∃ items st K f s, (do let it ← AstarIter.new C orig; yields (AstarIter.next T C D go dest) k it) = .ok (items, st) ∧
      (∀ q, InGrid T q → C.get st.cost q = .ok (s.c q)) ∧ GInv (unitCost go) D usizeMax orig K f s ∧ (∀ q, K q ↔ q ∈ items.map Prod.fst) ∧
      (items.length < k → s.heap = []) ∧ items.length ≤ 2 * ((T.nx * T.ny) * (T.nx * T.ny)) + 1 ∧
      ((∃ path n, IsCostPath (unitCost go) D orig path dest n ∧ n < usizeMax ∧ ∀ as bs q m, path = as ++ bs → IsCostPath (unitCost go) D orig as q m →
          m + upd (fun q => l1 q dest) orig 0 q ≤ B) → ∀ pre m post, items = pre ++ m :: post → dest ∉ pre.map Prod.fst →
        s.c m.1 + upd (fun q => l1 q dest) orig 0 m.1 ≤ B) := by
  obtain ⟨R, hR⟩ := MapImpl.sim_of_is hT.toIsGrid hC
  obtain ⟨ys, s', K', f', a1, a2, a3, -, a5, a6, a7⟩ := AstarIter.yields_inv (T := T) (dest := dest) (B := B) (covers (D := D) hgo ho)
    (hT.astarFits hgo ho hd) k (GInv.init (unitCost go) D usizeMax_pos orig (fun _ => none)) (PInv.init _ _ _ _ _)
    (UInv.init usizeMax_pos (PosTy.mem_allPositions.2 ho))
  have hrel : Out.Rel (fun a b => a.1 = b.1 ∧ AstarIter.Rel T R a.2 b.2) (do let it ← AstarIter.new C orig; yields (AstarIter.next T C D go dest) k it)
      (.ok (ys, s'.astar)) := by
    rw [← a1, show yields (AstarIter.next T (MapImpl.ideal 0) D go dest) k (BSt.init usizeMax orig).astar =
      (AstarIter.new (MapImpl.ideal 0) orig >>= fun it => yields (AstarIter.next T (MapImpl.ideal 0) D go dest) k it) from rfl]
    refine (AstarIter.rel_new hR ho).bind fun a b hab => ?_
    exact yields_rel (Q := AstarIter.Rel T R) (fun s t h => (AstarIter.rel_next hR hgo D dest h).mono fun a b h => ⟨h.1.1, h.2⟩) k a b hab
  have hm := uMeasure_init (allPositions T true) usizeMax orig
  rw [PosTy.allPositions_length] at hm
  revert hrel
  generalize (do let it ← AstarIter.new C orig; yields (AstarIter.next T C D go dest) k it) = x
  intro hrel
  cases x with
  | ok x =>
    obtain ⟨items, st⟩ := x
    obtain ⟨e1, e2⟩ := hrel
    simp only at e1 e2
    subst e1
    refine ⟨items, st, K', f', s', rfl, fun q hq => ?_, a2, fun q => ?_, a5, by omega, fun hB => a7 hB (fun h => h)⟩
    · rw [hR.get e2.1 hq]
      rfl
    · rw [a3 q]
      simp
  | panic => exact hrel.elim
  | ub => exact hrel.elim
  | timeout => exact hrel.elim

/-- C128. Without diagonals, as long as the iterator has not yielded the destination before, it yields only positions `q` with
`dist(q) + |q - destination| ≤ dist(destination)`. -/
theorem C128_iter_straight [Target] (T : PosTy) (hT : T.Searchable) (C : MapImpl Int) (hC : C.Is T 0) (go : Int × Int → Dir → Option (Int × Int))
    (hgo : Adjacent T go) (orig dest : Int × Int) (ho : InGrid T orig) (hd : InGrid T dest) (n : Nat) (hn : IsDist go false orig dest n) (calls : Nat) :
    ∃ items st, (do let it ← AstarIter.new C orig; yields (AstarIter.next T C false go dest) calls it) = .ok (items, st) ∧
      ∀ before m after, items = before ++ m :: after → dest ∉ before.map Prod.fst → ∃ k, IsDist go false orig m.1 k ∧ (k : Int) + l1 m.1 dest ≤ n := by
  obtain ⟨items, st, K, f, s, h1, -, h3, h4, -, -, h7⟩ := AstarIter.yields_any hT hC hgo.staysIn ho hd false n calls
  refine ⟨items, st, h1, fun before m after he hb => ?_⟩
  obtain ⟨⟨ds, hds, hlen⟩, hmin⟩ := hn
  have hlt : (n : Int) < usizeMax := by
    have := isDist_lt_list (covers hgo.staysIn ho) (⟨⟨ds, hds, hlen⟩, hmin⟩ : IsDist go false orig dest n)
    have := cells_lt hT
    omega
  have h8 := h7 ⟨ds, ds.length, isCostPath_unit.2 ⟨hds, rfl⟩, by omega, fun as bs q m he h => ?_⟩ before m after he hb
  · have hK : K m.1 := (h4 _).2 (by rw [he]; simp)
    obtain ⟨es, hes⟩ := h3.walk _ (h3.fin _ hK)
    obtain ⟨b1, b2⟩ := isCostPath_unit.1 hes
    obtain ⟨k, hk⟩ := reachable_iff_isDist.1 ⟨_, b1⟩
    refine ⟨k, hk, ?_⟩
    have h9 := hk.2 es b1
    by_cases hq : m.1 = orig
    · have h0 : k = 0 := by
        have := hk.2 [] (by rw [hq]; exact isPath_nil)
        simpa using this
      have := l1_le_path hgo ho hds
      rw [hq]
      omega
    · rw [upd_other _ _ hq] at h8
      omega
  · obtain ⟨b1, b2⟩ := isCostPath_unit.1 h
    have hb : IsPath go false q bs dest := by
      subst he
      refine ⟨fun d hd => hds.1 d (by simp [hd]), ?_⟩
      have := hds.2
      rw [follow_append, b1.2] at this
      exact this
    have h3 := l1_le_path hgo (isPath_inGrid hgo.staysIn ho b1) hb
    have : ds.length = as.length + bs.length := by rw [he, List.length_append]
    by_cases hq : q = orig
    · rw [hq, upd_same]; omega
    · rw [upd_other _ _ hq]; omega

/-- C128. With diagonals, as long as the iterator has not yielded the destination before, it yields only the origin and positions `q` with
`dist(q) + |q - destination| < 2 dist(destination)`; the costs that it has recorded for these positions, now and from now on, satisfy the same inequality. In particular
the cost recorded for the destination when it is yielded is less than twice its distance. -/
theorem C128_iter_diagonals [Target] (T : PosTy) (hT : T.Searchable) (C : MapImpl Int) (hC : C.Is T 0) (go : Int × Int → Dir → Option (Int × Int))
    (hgo : Adjacent T go) (orig dest : Int × Int) (ho : InGrid T orig) (hd : InGrid T dest) (n : Nat) (hn : IsDist go true orig dest n) (calls : Nat) :
    ∃ items st, (do let it ← AstarIter.new C orig; yields (AstarIter.next T C true go dest) calls it) = .ok (items, st) ∧
      ∀ before m after, items = before ++ m :: after → dest ∉ before.map Prod.fst → m.1 ≠ orig →
        ∃ k c, IsDist go true orig m.1 k ∧ C.get st.cost m.1 = .ok c ∧ (k : Int) ≤ c ∧ c + l1 m.1 dest < 2 * n := by
  obtain ⟨items, st, K, f, s, h1, h2, h3, h4, -, -, h7⟩ := AstarIter.yields_any hT hC hgo.staysIn ho hd true (max 0 (2 * (n : Int) - 1)) calls
  refine ⟨items, st, h1, fun before m after he hb hmo => ?_⟩
  obtain ⟨⟨ds, hds, hlen⟩, hmin⟩ := hn
  have hlt : (n : Int) < usizeMax := by
    have := isDist_lt_list (covers hgo.staysIn ho) (⟨⟨ds, hds, hlen⟩, hmin⟩ : IsDist go true orig dest n)
    have := cells_lt hT
    omega
  subst hlen
  have h8 := h7 ⟨ds, ds.length, isCostPath_unit.2 ⟨hds, rfl⟩, by omega, diag_bound hgo ho hds⟩ before m after he hb
  have hK : K m.1 := (h4 _).2 (by rw [he]; simp)
  obtain ⟨es, hes⟩ := h3.walk _ (h3.fin _ hK)
  obtain ⟨b1, b2⟩ := isCostPath_unit.1 hes
  obtain ⟨k, hk⟩ := reachable_iff_isDist.1 ⟨_, b1⟩
  have h9 := hk.2 es b1
  have hpos : 0 < es.length := by
    cases es with
    | nil => have := b1.2; injection this with this; exact absurd this.symm hmo
    | cons a es => simp
  refine ⟨k, s.c m.1, hk, h2 _ (isPath_inGrid hgo.staysIn ho b1), by omega, ?_⟩
  rw [upd_other _ _ hmo] at h8
  have : 0 ≤ l1 m.1 dest := by simp only [l1]; omega
  omega

/-! ### Cases -/

/-- A movement function that has just the given steps. -/
def justSteps (l : List ((Int × Int) × Dir)) (T : PosTy) (p : Int × Int) (d : Dir) : Option (Int × Int) :=
  if (p, d) ∈ l ∧ InGrid T (neighbour p d) then some (neighbour p d) else none

theorem justSteps_adjacent (l : List ((Int × Int) × Dir)) (T : PosTy) : Adjacent T (justSteps l T) := by
  intro p d q _ h
  unfold justSteps at h
  split at h
  · rename_i h1
    injection h with h
    exact ⟨h ▸ h1.2, h.symm⟩
  · cases h

/-- Two ways from (1,1) to (3,1): one of two steps, one of three. -/
def twoWays : List ((Int × Int) × Dir) := [((1, 1), .E), ((2, 1), .SE), ((3, 2), .N), ((1, 1), .NE), ((2, 0), .SE)]

theorem twoWays_dist : IsDist (justSteps twoWays (PosTy.pos 4 4)) true (1, 1) (3, 1) 2 := by
  refine ⟨⟨[.NE, .SE], ⟨fun d _ => .inl rfl, by decide⟩, rfl⟩, fun ds hds => ?_⟩
  have := linf_le_path (justSteps_adjacent _ _) (by unfold InGrid; decide) hds
  have e : linf (1, 1) (3, 1) = 2 := by decide
  omega

/-- C128. The bound on the recorded cost of the destination is sharp: the distance is 2, and the cost recorded for the destination when it is yielded, as well as the
number of steps of the path, is 3. -/
theorem C128_sharp [Target] : IsDist (justSteps twoWays (PosTy.pos 4 4)) true (1, 1) (3, 1) 2 ∧
    Astar.pathHash (PosTy.pos 4 4) true (justSteps twoWays (PosTy.pos 4 4)) (1, 1) (3, 1) 1000 = .ok (.ok [.E, .SE, .N]) ∧
    (do let it ← AstarIter.new (.hash 0) (1, 1)
        let (items, st) ← yields (AstarIter.next (PosTy.pos 4 4) (.hash 0) true (justSteps twoWays (PosTy.pos 4 4)) (3, 1)) 4 it
        let c ← (MapImpl.hash (0 : Int)).get st.cost (3, 1)
        .ok (items, c)) = .ok ([((1, 1), .N), ((2, 1), .W), ((3, 2), .NW), ((3, 1), .S)], 3) :=
  ⟨twoWays_dist, by decide_target, by decide_target⟩

-- and so the hypotheses of the theorems above are met
example : (PosTy.pos 4 4).Searchable := PosTy.pos_searchable (by decide) (by decide) (.inl rfl)
example : InGrid (PosTy.pos 4 4) (1, 1) ∧ InGrid (PosTy.pos 4 4) (3, 1) ∧ Astar.IsSearch (PosTy.pos 4 4) (Astar.pathHash (PosTy.pos 4 4)) :=
  ⟨by unfold InGrid; decide, by unfold InGrid; decide, .inr (.inl rfl)⟩
-- a grid taller than wide, with a destination at distance 2
example : (PosTy.pos 2 5).Searchable ∧ rows (PosTy.pos 2 5) > cols (PosTy.pos 2 5) ∧ (2 : Int) < cols (PosTy.pos 2 5) ∧
    Astar.pathHash (PosTy.pos 2 5) false (aroundWalls (PosTy.pos 2 5) []) (0, 4) (1, 5) 1000 = .ok (.ok [.E, .S]) :=
  ⟨PosTy.pos_searchable (by decide) (by decide) (.inl rfl), by decide, by decide, by decide +kernel⟩
-- without diagonals: the path of ten steps of `C58_refuted_straight`, where eight are enough, has fewer than 81
example : Astar.pathHash (PosTy.pos 4 3) false (aroundWalls (PosTy.pos 4 3) [(2, 3), (1, 0), (1, 2), (3, 1)]) (4, 0) (1, 3) 1000 =
    .ok (.ok [.S, .S, .W, .W, .N, .W, .W, .S, .S, .E]) ∧ [Dir.S, .S, .W, .W, .N, .W, .W, .S, .S, .E].length < (8 + 1) * (8 + 1) := by decide +kernel

end Sqrid
