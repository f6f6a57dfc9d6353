import Verif.Props.Quadratic
import Verif.Props.Work
import Verif.Props.BfOrder
/-!
# How much work a search is: C133

However large the grid is, a search for a destination that is near is short, and so is the path that uniform-cost search returns.
-/

namespace Sqrid

-- Statements that do not mention a target are about a debug build for a 64-bit machine.
attribute [local instance] debug64

open Spec

/-- Until the destination is popped, the positions popped are not further than it. -/
theorem CInv.F_le_dest {go : WGo} {h : P2 → Int} {D : Bool} {INF : Int} {orig : P2} {t : P2 → Nat} {n : Nat} {F : Int} {f : P2 → Option Dir} {s : BSt}
    (hw : NonNeg go) (hc : Consistent go D orig h) (H : CInv go h D INF orig t n F f s) {dest : P2} {N : Int} (hN : IsMinCost go D orig dest N)
    (hlt : N < INF) (hd : ¬ 1 ≤ t dest) : F ≤ N + h dest := by
  obtain ⟨⟨ds, hds⟩, -⟩ := hN
  rcases H.frontier hw hc hds hlt with ⟨h1, -⟩ | ⟨e, h1, h2⟩
  · exact absurd h1 hd
  · have := H.F_le e h1
    omega

/-- A search ends if the number of items yielded before the destination is bounded. -/
theorem BSt.search_until {go : WGo} {h : P2 → Int} {D : Bool} {INF : Int} {orig dest : P2} {J : (P2 → Nat) → List (P2 × Dir) → BSt → Prop}
    (hw : NonNeg go) (hc : Consistent go D orig h) (hJ : Tracked go h D INF orig J) {B : Nat}
    (hB : ∀ t n F f s ys, CInv go h D INF orig t n F f s → J t ys s → ¬ 1 ≤ t dest → ys.length ≤ B) (k : Nat) :
    ∀ {t : P2 → Nat} {n : Nat} {F : Int} {f : P2 → Option Dir} {s : BSt} {ys : List (P2 × Dir)}, CInv go h D INF orig t n F f s → J t ys s →
    ¬ 1 ≤ t dest → B < ys.length + k → ∃ r, BSt.search go h D dest k s f = .ok r := by
  induction k with
  | zero =>
    intro t n F f s ys H j hd hk
    have := hB _ _ _ _ _ _ H j hd
    omega
  | succ k ih =>
    intro t n F f s ys H j hd hk
    cases hp : Heap.pop s.heap with
    | none => exact ⟨_, BSt.search_none hp⟩
    | some er =>
      obtain ⟨e, rest⟩ := er
      obtain ⟨h1, h2, h3, t1, n1, H1, h4, h5, h6⟩ := H.step hw hc hp
      rw [BSt.search_some hp]
      split
      · exact ⟨_, rfl⟩
      · rename_i hne
        refine ih H1 (hJ _ _ _ _ _ _ _ _ _ _ H j hp h2 h1 H1 h4 h5) (fun h => ?_) (by simp; omega)
        rcases (h4 dest).1 h with h | h
        · exact hd h
        · exact hne h.symm

theorem BSt.search_until_init {go : WGo} {h : P2 → Int} {D : Bool} {INF : Int} {orig dest : P2} {J : (P2 → Nat) → List (P2 × Dir) → BSt → Prop}
    (hINF : 0 < INF) (hw : NonNeg go) (hc : Consistent go D orig h) (hJ : Tracked go h D INF orig J)
    (h0 : J (upd (fun _ => 0) orig 1) [(orig, Dir.N)] (BSt.after go h D (BSt.init INF orig).c (0, orig, Dir.N) []))
    {B : Nat} (hB : ∀ t n F f s ys, CInv go h D INF orig t n F f s → J t ys s → ¬ 1 ≤ t dest → ys.length ≤ B) (f : P2 → Option Dir) {k : Nat}
    (hk : B < k) (hk0 : 0 < k) : ∃ r, BSt.search go h D dest k (BSt.init INF orig) f = .ok r := by
  obtain ⟨k, rfl⟩ : ∃ m, k = m + 1 := ⟨k - 1, by omega⟩
  obtain ⟨H, -⟩ := CInv.init hINF hw hc f
  rw [BSt.search_some (e := (0, orig, Dir.N)) (rest := []) (Heap.pop_single _)]
  simp only
  split
  · exact ⟨_, rfl⟩
  · rename_i hne
    refine BSt.search_until hw hc hJ hB k H h0 (fun h => hne ?_) (by simp; omega)
    rcases (upd_pos dest).1 h with h | h
    · omega
    · exact h.symm

/-- Of the entries pushed so far, no two for the same position have the same priority. `ys` are the entries popped, of which the state does not keep track. -/
structure NInv (h : P2 → Int) (orig : P2) (ys : List Entry) (s : BSt) : Prop where
  c_orig : s.c orig = 0
  c_nonneg : ∀ q, 0 ≤ s.c q
  ge : ∀ e ∈ ys ++ s.heap, s.c e.2.1 + upd h orig 0 e.2.1 ≤ e.1
  nodup : ((ys ++ s.heap).map fun e => (e.1, e.2.1)).Nodup

theorem NInv.init (h : P2 → Int) {INF : Int} (hINF : 0 < INF) (orig : P2) : NInv h orig [] (BSt.init INF orig) := by
  refine ⟨by simp [BSt.init, upd_same], fun q => ?_, fun e he => ?_, by simp [BSt.init]⟩
  · by_cases hq : q = orig
    · subst hq; simp [BSt.init, upd_same]
    · simp only [BSt.init, upd_other _ _ hq]; omega
  · simp only [BSt.init, List.nil_append, List.mem_singleton] at he
    subst he
    simp [BSt.init, upd_same]

theorem NInv.relax {go : WGo} {h : P2 → Int} {orig : P2} {ys : List Entry} {s : BSt} (hw : NonNeg go) (N : NInv h orig ys s) (p : P2) (d : Dir) :
    NInv h orig ys (BSt.relax go h p s d) := by
  unfold BSt.relax
  cases hg : go p d with
  | none => exact N
  | some qw =>
    obtain ⟨q, w⟩ := qw
    simp only
    split
    · rename_i hlt
      have hw' := hw _ _ _ _ hg
      have h1 := N.c_nonneg p
      have hq : q ≠ orig := by
        rintro rfl
        rw [N.c_orig] at hlt
        omega
      have hperm : (ys ++ (s.c p + w + h q, q, opposite d) :: s.heap).Perm ((s.c p + w + h q, q, opposite d) :: (ys ++ s.heap)) := List.perm_middle
      refine ⟨?_, fun r => ?_, fun e he => ?_, ?_⟩
      · simp only [upd_other _ _ hq.symm]
        exact N.c_orig
      · by_cases hr : r = q
        · subst hr; simp only [upd_same]; omega
        · simp only [upd_other _ _ hr]; exact N.c_nonneg r
      · rw [hperm.mem_iff, List.mem_cons] at he
        rcases he with rfl | he
        · simp only [upd_same, upd_other _ _ hq, Int.le_refl]
        · have h2 := N.ge e he
          by_cases hr : e.2.1 = q
          · rw [hr] at h2 ⊢
            simp only [upd_same]
            omega
          · simp only [upd_other _ _ hr]
            exact h2
      · simp only
        rw [(hperm.map _).nodup_iff, List.map_cons, List.nodup_cons]
        refine ⟨fun hm => ?_, N.nodup⟩
        obtain ⟨x, hx, he⟩ := List.mem_map.1 hm
        simp only [Prod.mk.injEq] at he
        have h2 := N.ge x hx
        rw [he.1, he.2, upd_other _ _ hq] at h2
        omega
    · exact N

theorem NInv.after {go : WGo} {h : P2 → Int} {D : Bool} {orig : P2} {ys : List Entry} {s : BSt} (hw : NonNeg go) (N : NInv h orig ys s) {e : Entry}
    {rest : List Entry} (hp : Heap.pop s.heap = some (e, rest)) : NInv h orig (e :: ys) (BSt.after go h D s.c e rest) := by
  obtain ⟨-, -, hperm⟩ := Heap.pop_some hp
  have hperm' : (e :: ys ++ rest).Perm (ys ++ s.heap) := (List.perm_middle.symm).trans ((List.perm_append_left_iff ys).2 hperm.symm)
  have N0 : NInv h orig (e :: ys) { c := s.c, heap := rest } :=
    ⟨N.c_orig, N.c_nonneg, fun x hx => N.ge x (hperm'.mem_iff.1 hx), ((hperm'.map _).nodup_iff).2 N.nodup⟩
  unfold BSt.after BSt.expand
  generalize ({ c := s.c, heap := rest } : BSt) = s0 at N0
  induction clockwise D generalizing s0 with
  | nil => exact N0
  | cons d ds ih => exact ih _ (N0.relax hw e.2.1 d)

/-- A search ends after as many steps as there are positions and priorities that it can pop. -/
theorem BSt.search_short {go : WGo} {h : P2 → Int} {D : Bool} {INF : Int} {B : Nat} (hw : NonNeg go) (hh : ∀ q, 0 ≤ h q) {orig dest : P2} {path : List Dir} {n : Int}
    (hpath : IsCostPath go D orig path dest n) (hn : n < INF)
    (hB : ∀ as bs q m, path = as ++ bs → IsCostPath go D orig as q m → m + upd h orig 0 q ≤ B) {L : List P2}
    (hL : ∀ ds q m, IsCostPath go D orig ds q m → m + upd h orig 0 q ≤ B → q ∈ L) (fuel : Nat) :
    ∀ {K : P2 → Prop} {f : P2 → Option Dir} {s : BSt} {ys : List Entry}, GInv go D INF orig K f s → PInv go h D INF orig K s → NInv h orig ys s → ¬ K dest →
      (∀ e ∈ ys, e.1 ≤ B ∧ e.2.1 ∈ L) → (B + 1) * L.length < ys.length + fuel → ∃ r, BSt.search go h D dest fuel s f = .ok r := by
  have hh' : ∀ q, 0 ≤ upd h orig 0 q := by
    intro q
    by_cases hq : q = orig
    · rw [hq, upd_same]
    · rw [upd_other _ _ hq]; exact hh q
  induction fuel with
  | zero =>
    intro K f s ys H A N hd hW hlt
    exfalso
    have hsub : (ys.map fun e => (e.1, e.2.1)) ⊆ ((List.range (B + 1)).map fun i : Nat => (i : Int)) ×ˢ L := by
      intro x hx
      obtain ⟨e, he, rfl⟩ := List.mem_map.1 hx
      obtain ⟨h1, h2⟩ := hW e he
      have h3 := N.ge e (List.mem_append_left _ he)
      have h4 := N.c_nonneg e.2.1
      have h5 := hh' e.2.1
      exact List.mem_product.2 ⟨List.mem_map.2 ⟨e.1.toNat, List.mem_range.2 (by omega), by omega⟩, h2⟩
    have hnd : (ys.map fun e => (e.1, e.2.1)).Nodup := by
      have := N.nodup
      rw [List.map_append] at this
      exact (List.nodup_append.1 this).1
    have := (hnd.subperm hsub).length_le
    rw [List.length_product, List.length_map, List.length_map, List.length_range] at this
    omega
  | succ fuel ih =>
    intro K f s ys H A N hd hW hlt
    cases hp : Heap.pop s.heap with
    | none => exact ⟨_, BSt.search_none hp⟩
    | some er =>
      obtain ⟨e, rest⟩ := er
      rw [BSt.search_some hp]
      split
      · exact ⟨_, rfl⟩
      · rename_i he
        obtain ⟨x, h1, h2⟩ := A.some_le hw H hd hpath hn hB
        obtain ⟨h3, h4, -⟩ := Heap.pop_some hp
        have h5 := h4 x h1
        have h6 := A.ge e h3
        obtain ⟨ds, hds⟩ := H.walk _ (H.entry e h3).1
        refine ih (H.step (h := h) hw hp) (A.step hw H hp) (N.after hw hp) ?_ (fun y hy => ?_) (by simp only [List.length_cons]; omega)
        · rintro (h7 | h7)
          · exact hd h7
          · exact he h7.symm
        · rcases List.mem_cons.1 hy with rfl | hy
          · exact ⟨by omega, hL _ _ _ hds (by omega)⟩
          · exact hW y hy

/-- The loop of breadth-first search ends with the layer of a goal. -/
theorem Bf.searchLoop_until (go : GoFn) (D : Bool) (found : P2 → Bool) (k : Nat) : ∀ {fuel : Nat} {st : BfIter SetImpl.ideal}
    {ls : List (List (P2 × Dir))} (f : P2 → Option Dir), collectWith (BfIter.next SetImpl.ideal D go) fuel st = .ok ls →
    ∀ l, ls[k]? = some l → (∃ m ∈ l, found m.1 = true) →
    ∃ dest d f', Bf.searchLoop SetImpl.ideal (MapImpl.ideal none) D go found (k + 1) st f = .ok (.ok (dest, f')) ∧ (dest, d) ∈ ls.flatten := by
  induction k with
  | zero =>
    intro fuel st ls f h l hl hm
    cases fuel with
    | zero => cases h
    | succ n =>
      unfold collectWith at h
      unfold Bf.searchLoop
      cases hn : BfIter.next SetImpl.ideal D go st with
      | panic => rw [hn] at h; cases h
      | ub => rw [hn] at h; cases h
      | timeout => rw [hn] at h; cases h
      | ok r =>
        obtain ⟨v, st'⟩ := r
        rw [hn, Out.ok_bind] at h
        rw [Out.ok_bind]
        cases v with
        | none => injection h with h; subst h; cases hl
        | some layer =>
          simp only at h ⊢
          cases hc : collectWith (BfIter.next SetImpl.ideal D go) n st' with
          | panic => rw [hc] at h; cases h
          | ub => rw [hc] at h; cases h
          | timeout => rw [hc] at h; cases h
          | ok rest =>
            rw [hc, Out.ok_bind] at h
            injection h with h
            subst h
            injection hl with hl
            subst hl
            rcases Bf.scanLayer_spec found layer f with ⟨a1, a2⟩ | ⟨pre, m, post, a1, a2, a3, a4⟩
            · obtain ⟨m, hm, hf⟩ := hm
              rw [a1 m hm] at hf
              cases hf
            · rw [a4, Out.ok_bind]
              exact ⟨m.1, m.2, _, rfl, by simp [a1]⟩
  | succ k ih =>
    intro fuel st ls f h l hl hm
    cases fuel with
    | zero => cases h
    | succ n =>
      unfold collectWith at h
      unfold Bf.searchLoop
      cases hn : BfIter.next SetImpl.ideal D go st with
      | panic => rw [hn] at h; cases h
      | ub => rw [hn] at h; cases h
      | timeout => rw [hn] at h; cases h
      | ok r =>
        obtain ⟨v, st'⟩ := r
        rw [hn, Out.ok_bind] at h
        rw [Out.ok_bind]
        cases v with
        | none => injection h with h; subst h; cases hl
        | some layer =>
          simp only at h ⊢
          cases hc : collectWith (BfIter.next SetImpl.ideal D go) n st' with
          | panic => rw [hc] at h; cases h
          | ub => rw [hc] at h; cases h
          | timeout => rw [hc] at h; cases h
          | ok rest =>
            rw [hc, Out.ok_bind] at h
            injection h with h
            subst h
            rcases Bf.scanLayer_spec found layer f with ⟨a1, a2⟩ | ⟨pre, m, post, a1, a2, a3, a4⟩
            · rw [a2, Out.ok_bind]
              obtain ⟨dest, d, f', b1, b2⟩ := ih (writeAll layer f) hc l (by simpa using hl) hm
              exact ⟨dest, d, f', b1, by simp only [List.flatten_cons, List.mem_append]; exact .inr b2⟩
            · rw [a4, Out.ok_bind]
              exact ⟨m.1, m.2, _, rfl, by simp [a1]⟩

/-! ## C133 -/

/-- C133. Breadth-first search answers after at most `n` layers if a goal other than the origin is at distance `n`, however large the grid. -/
theorem C133_bfs_layers [Target] (T : PosTy) (hT : T.Searchable) (bfs) (hbfs : Bf.IsSearch T bfs) (D : Bool) (go : Int × Int → Dir → Option (Int × Int))
    (hgo : StaysIn T go) (orig : Int × Int) (ho : InGrid T orig) (found : Int × Int → Bool) (q : Int × Int) (hq : found q = true) (hne : q ≠ orig)
    (n : Nat) (hn : IsDist go D orig q n) : ∃ r, ∀ layers : Nat, n ≤ layers → bfs D go orig found layers = .ok r := by
  obtain ⟨k, rfl⟩ : ∃ k, n = k + 1 := by
    cases n with
    | zero => exact absurd (isDist_zero.1 hn) hne
    | succ k => exact ⟨k, rfl⟩
  obtain ⟨ls, h1, h2, h3, -⟩ := Bf.iterAll_layers D hgo ho (T.nx * T.ny + 1) (by omega)
  have hk : k < ls.length := by
    by_contra hk
    exact h3 k q (by omega) (.inl hn)
  obtain ⟨d, hd⟩ := ((h2 k _ (List.getElem?_eq_getElem hk)).2.mem q).2 (.inl hn)
  obtain ⟨st, h3, h4, h5⟩ := BfIter.new_order go D orig
  have hc : collectWith (BfIter.next SetImpl.ideal D go) (T.nx * T.ny + 1) st = .ok ls := by
    have h := h1
    unfold Bf.iterAll at h
    rw [h3, Out.ok_bind] at h
    exact h
  obtain ⟨dest, d', f, hr, hmem⟩ := Bf.searchLoop_until go D found k (fun _ => none) hc _ (List.getElem?_eq_getElem hk) ⟨_, hd, hq⟩
  have hmm : Bf.searchMapmov SetImpl.ideal (MapImpl.ideal none) D go orig found (k + 1) = .ok (.ok (dest, f)) := by
    unfold Bf.searchMapmov
    rw [h3, Out.ok_bind]
    exact hr
  have key : ∃ r, Bf.searchPath T SetImpl.ideal (MapImpl.ideal none) D go orig found (k + 1) = .ok r := by
    rw [Bf.searchPath_of_mapmov hmm]
    have hin : InGrid T dest := by
      obtain ⟨l, hl, hm⟩ := List.mem_flatten.1 hmem
      obtain ⟨i, hi, rfl⟩ := List.mem_iff_getElem.1 hl
      rcases inLayer_exists.1 ⟨i, ((h2 i _ (List.getElem?_eq_getElem hi)).2.mem dest).1 ⟨d', hm⟩⟩ with ⟨⟨ds, hds⟩, -⟩ | ⟨rfl, -⟩
      · exact isPath_inGrid hgo ho hds
      · exact ho
    obtain ⟨r, hr⟩ := camefrom_answers hT f ho hin
    simp only
    rw [hr, Out.ok_bind]
    cases r <;> exact ⟨_, rfl⟩
  obtain ⟨r, hr⟩ := key
  refine ⟨r, fun layers hl => ?_⟩
  rw [hbfs.eq hT hgo ho]
  exact (Bf.searchPath_below T _ _ D go orig found hl).ok hr

/-- C133. Without diagonals, A* answers after at most `2 (n + 1)²` calls to `next` if the distance to the destination is `n`, however large the grid. -/
theorem C133_astar_calls [Target] (T : PosTy) (hT : T.Searchable) (astar) (hastar : Astar.IsSearch T astar)
    (go : Int × Int → Dir → Option (Int × Int)) (hgo : Adjacent T go) (orig dest : Int × Int) (ho : InGrid T orig) (hd : InGrid T dest)
    (n : Nat) (hn : IsDist go false orig dest n) :
    ∃ r, ∀ calls : Nat, 2 * ((n + 1) * (n + 1)) ≤ calls → astar false go orig dest calls = .ok r := by
  have hcons := astar_consistent hgo ho dest
  have hlt : (n : Int) < usizeMax := by
    have := isDist_lt_list (covers hgo.staysIn ho) hn
    have := cells_lt hT
    omega
  have hod : l1 orig dest ≤ n := by
    obtain ⟨⟨ds, hds, hlen⟩, -⟩ := hn
    have := l1_le_path hgo ho hds
    omega
  have hom : orig ∈ between orig.1 dest.1 n ×ˢ between orig.2 dest.2 n := by
    simp only [l1] at hod
    exact List.mem_product.2 ⟨mem_between (by omega), mem_between (by omega)⟩
  have hLlen : (between orig.1 dest.1 n ×ˢ between orig.2 dest.2 n).length = (n + 1) * (n + 1) := by
    rw [List.length_product]
    simp [between]
  have hpos := List.length_pos_of_mem hom
  have key : ∃ r, Astar.searchPath T (MapImpl.ideal none) (MapImpl.ideal 0) false go orig dest (2 * ((n + 1) * (n + 1))) = .ok r := by
    obtain ⟨r, hr⟩ := BSt.search_until_init (INF := usizeMax) (dest := dest) usizeMax_pos (unitCost_nonneg go) hcons
      (AInv.tracked hgo ho dest usizeMax) (AInv.init hgo ho dest usizeMax) (B := 2 * ((n + 1) * (n + 1)) - 1)
      (fun t k F f s ys H j hnd => by
        have hF := H.F_le_dest (unitCost_nonneg go) hcons (isMinCost_unit.2 ⟨n, rfl, hn⟩) hlt hnd
        rw [← hLlen]
        refine j.2.length_le (fun q hq => ?_) hom
        have hle := H.le_F q hq
        obtain ⟨ds, hds⟩ := H.g.walk q (H.g.fin q hq)
        obtain ⟨c1, c2⟩ := isCostPath_unit.1 hds
        have h3 := l1_le_path hgo ho c1
        have h4 : l1 dest dest = 0 := by simp [l1]
        have h5 : l1 orig q + l1 q dest ≤ n := by omega
        simp only [l1] at h5
        exact List.mem_product.2 ⟨mem_between (by omega), mem_between (by omega)⟩) (fun _ => none) (k := 2 * ((n + 1) * (n + 1))) (by omega) (by omega)
    rw [Astar.searchPath_of_mapmov ((Astar.searchMapmov_eq hT hgo.staysIn ho hd false _).trans hr)]
    cases r with
    | error e => exact ⟨_, rfl⟩
    | ok f => exact camefrom_answers hT f ho hd
  obtain ⟨r, hr⟩ := key
  refine ⟨r, fun calls hc => ?_⟩
  rw [hastar.eq hT hgo.staysIn ho hd]
  exact (Astar.searchPath_below T _ _ false go orig dest (by omega)).ok hr

/-- C133. With diagonals, A* answers after at most `(2n)³ + 1` calls to `next` if the distance to the destination is `n`, however large the grid. -/
theorem C133_astar_diagonals [Target] (T : PosTy) (hT : T.Searchable) (astar) (hastar : Astar.IsSearch T astar)
    (go : Int × Int → Dir → Option (Int × Int)) (hgo : Adjacent T go) (orig dest : Int × Int) (ho : InGrid T orig) (hd : InGrid T dest)
    (n : Nat) (hn : IsDist go true orig dest n) :
    ∃ r, ∀ calls : Nat, 2 * n * (2 * n) * (2 * n) + 1 ≤ calls → astar true go orig dest calls = .ok r := by
  have hlt : (n : Int) < usizeMax := by
    have := isDist_lt_list (covers hgo.staysIn ho) hn
    have := cells_lt hT
    omega
  have hsearch : ∃ r, BSt.search (unitCost go) (fun q => l1 q dest) true dest (2 * n * (2 * n) * (2 * n) + 1) (BSt.init usizeMax orig) (fun _ => none) = .ok r := by
    cases n with
    | zero =>
      have := isDist_zero.1 hn
      subst this
      rw [BSt.search_some (e := (0, dest, Dir.N)) (rest := []) (Heap.pop_single _)]
      simp only [if_true]
      exact ⟨_, rfl⟩
    | succ n =>
      obtain ⟨⟨path, hp, hlen⟩, -⟩ := hn
      have hdist : linf orig dest ≤ (n + 1 : Nat) := by
        have := linf_le_path hgo ho hp
        omega
      have hlen2 : (between orig.1 dest.1 (2 * n + 1) ×ˢ between orig.2 dest.2 (2 * n + 1)).length = (2 * (n + 1)) * (2 * (n + 1)) := by
        rw [List.length_product]
        simp only [between, List.length_map, List.length_range]
        rfl
      refine BSt.search_short (B := 2 * n + 1) (unitCost_nonneg go) (fun q => by simp only [l1]; omega) (isCostPath_unit.2 ⟨hp, rfl⟩) (by omega)
        (fun as bs q m he h => by have := diag_bound hgo ho hp as bs q m he h; omega)
        (L := between orig.1 dest.1 (2 * n + 1) ×ˢ between orig.2 dest.2 (2 * n + 1)) (fun ds q m h hle => ?_) _
        (GInv.init _ _ usizeMax_pos _ _) (PInv.init _ _ _ _ _) (NInv.init _ usizeMax_pos orig) (fun h => h) (fun e he => absurd he (by simp)) ?_
      · obtain ⟨h1, h2⟩ := isCostPath_unit.1 h
        have h3 := linf_le_path hgo ho h1
        by_cases hq : q = orig
        · subst hq
          simp only [linf] at hdist
          exact List.mem_product.2 ⟨mem_between (by omega), mem_between (by omega)⟩
        · rw [upd_other _ _ hq] at hle
          simp only [linf, l1] at h3 hle
          exact List.mem_product.2 ⟨mem_between (by omega), mem_between (by omega)⟩
      · rw [hlen2]
        have e : (2 * n + 1 + 1) * (2 * (n + 1) * (2 * (n + 1))) = 2 * (n + 1) * (2 * (n + 1)) * (2 * (n + 1)) := by rw [Nat.mul_comm]; rfl
        rw [e]
        simp
  have key : ∃ r, Astar.searchPath T (MapImpl.ideal none) (MapImpl.ideal 0) true go orig dest (2 * n * (2 * n) * (2 * n) + 1) = .ok r := by
    obtain ⟨r, hr⟩ := hsearch
    rw [Astar.searchPath_of_mapmov ((Astar.searchMapmov_eq hT hgo.staysIn ho hd true _).trans hr)]
    cases r with
    | error e => exact ⟨_, rfl⟩
    | ok f => exact camefrom_answers hT f ho hd
  obtain ⟨r, hr⟩ := key
  refine ⟨r, fun calls hc => ?_⟩
  rw [hastar.eq hT hgo.staysIn ho hd]
  exact (Astar.searchPath_below T _ _ true go orig dest hc).ok hr

/-- A path of steps that cost at least `c` each. -/
theorem length_le_cost {go : WGo} {D : Bool} {orig : P2} {c : Int} (hc : ∀ p d q w, go p d = some (q, w) → c ≤ w) {ds : List Dir} {q : P2} {n : Int}
    (h : IsCostPath go D orig ds q n) : (ds.length : Int) * c ≤ n := by
  induction ds using List.reverseRecOn generalizing q n with
  | nil =>
    have h2 := h.2
    injection h2 with h2
    simp only [List.length_nil, Nat.cast_zero, Int.zero_mul]
    omega
  | append_singleton ds d ih =>
    obtain ⟨r, m, w, h1, h2, h3, h4⟩ := isCostPath_concat h
    have := ih h1
    have := hc _ _ _ _ h3
    simp only [List.length_append, List.length_singleton]
    push_cast
    rw [Int.add_mul, Int.one_mul]
    omega

/-- The positions of the plane at most `m` steps away. Without diagonals they are those of two square lattices, turned by 45 degrees. -/
def nearby (D : Bool) (o : P2) (m : Nat) : List P2 :=
  if D then between o.1 o.1 (2 * m) ×ˢ between o.2 o.2 (2 * m)
  else ((List.range (m + 1)) ×ˢ (List.range (m + 1))).map (fun ij : Nat × Nat => (o.1 + ij.1 + ij.2 - m, o.2 + ij.1 - ij.2)) ++
    ((List.range m) ×ˢ (List.range m)).map fun ij : Nat × Nat => (o.1 + ij.1 + ij.2 - m + 1, o.2 + ij.1 - ij.2)

theorem nearby_length (D : Bool) (o : P2) (m : Nat) : (nearby D o m).length = ball D m := by
  unfold nearby ball
  cases D
  · simp only [Bool.false_eq_true, if_false, List.length_append, List.length_map, List.length_product, List.length_range]
    rw [Nat.add_comm]
  · simp [List.length_product, between]

theorem mem_nearby {T : PosTy} {go : GoFn} {D : Bool} {orig q : P2} (hgo : Adjacent T go) (ho : InGrid T orig) {ds : List Dir} (h : IsPath go D orig ds q)
    {m : Nat} (hm : ds.length ≤ m) : q ∈ nearby D orig m := by
  unfold nearby
  cases D
  · have h2 := l1_le_path hgo ho h
    simp only [Bool.false_eq_true, if_false]
    simp only [l1] at h2
    have hx : q = (q.1, q.2) := rfl
    rw [List.mem_append]
    by_cases hp : (q.1 - orig.1 + (q.2 - orig.2) + m) % 2 = 0
    · left
      refine List.mem_map.2 ⟨(((q.1 - orig.1 + (q.2 - orig.2) + m) / 2).toNat, ((q.1 - orig.1 - (q.2 - orig.2) + m) / 2).toNat),
        List.mem_product.2 ⟨List.mem_range.2 (by omega), List.mem_range.2 (by omega)⟩, ?_⟩
      rw [hx]
      simp only [Prod.mk.injEq]
      omega
    · right
      refine List.mem_map.2 ⟨(((q.1 - orig.1 + (q.2 - orig.2) + m - 1) / 2).toNat, ((q.1 - orig.1 - (q.2 - orig.2) + m - 1) / 2).toNat),
        List.mem_product.2 ⟨List.mem_range.2 (by omega), List.mem_range.2 (by omega)⟩, ?_⟩
      rw [hx]
      simp only [Prod.mk.injEq]
      omega
  · have h2 := linf_le_path hgo ho h
    simp only [linf] at h2
    exact List.mem_product.2 ⟨mem_between (by omega), mem_between (by omega)⟩

/-- Positions that are cheap to reach are near. -/
theorem cheap_near {T : PosTy} {go : WGo} {D : Bool} {orig q : P2} (hgo : Adjacent T (dropCost go)) (ho : InGrid T orig) {c : Int} (hc0 : 0 < c)
    (hc : ∀ p d q w, go p d = some (q, w) → c ≤ w) {ds : List Dir} {k : Int} (h : IsCostPath go D orig ds q k) {m : Nat} (hk : k < (m + 1) * c) :
    q ∈ nearby D orig m := by
  have h1 := length_le_cost hc h
  refine mem_nearby hgo ho h.1 ?_
  by_contra hlt
  have : ((m : Int) + 1) * c ≤ ds.length * c := Int.mul_le_mul_of_nonneg_right (by omega) (by omega)
  omega

/-- C133. If every step costs `c` or more and the cheapest cost of the destination is below `(m + 1) c`, uniform-cost search answers after at most
`4 (2m² + 2m) + 2` calls to `next` without diagonals, `8 ((2m + 1)² - 1) + 2` with them, however large the grid. -/
theorem C133_ucs_calls [Target] (T : PosTy) (hT : T.Searchable) (ucs) (hucs : Ucs.IsSearch T ucs) (D : Bool)
    (go : Int × Int → Dir → Option ((Int × Int) × Int)) (hgo : Adjacent T (dropCost go)) (hc : UsizeCosts go) (orig dest : Int × Int) (ho : InGrid T orig)
    (hd : InGrid T dest) (hno : NoOverflow go D orig) (c : Int) (hc0 : 0 < c) (hmin : ∀ p d q w, go p d = some (q, w) → c ≤ w)
    (N : Int) (hN : IsMinCost go D orig dest N) (hlim : N < limit) (m : Nat) (hm : N < (m + 1) * c) :
    ∃ r, ∀ calls : Nat, fan D * (ball D m - 1) + 2 ≤ calls → ucs D go orig dest calls = .ok r := by
  have hw := hc.nonNeg
  have hcons := consistent_zero (D := D) (orig := orig) hw
  have hom : orig ∈ nearby D orig m := mem_nearby hgo ho isPath_nil (Nat.zero_le _)
  have key : ∃ r, Ucs.searchPath T (MapImpl.ideal none) (MapImpl.ideal 0) D go orig dest (fan D * (ball D m - 1) + 2) = .ok r := by
    obtain ⟨r, hr⟩ := BSt.search_until_init (INF := usizeMax) (dest := dest) usizeMax_pos hw hcons (OInv.tracked hw hgo (cost_inGrid (D := D) hgo.staysIn ho))
      (OInv.init hw hgo ho) (B := fan D * (ball D m - 1) + 1)
      (fun t k F f s ys H j hnd => by
        have hF := H.F_le_dest hw hcons hN (by rw [← limit_eq]; exact hlim) hnd
        rw [← fan_eq, ← nearby_length D orig m]
        refine j.length_le (fun q hq => ?_) hom
        have hle := H.le_F q hq
        obtain ⟨ds, hds⟩ := H.g.walk q (H.g.fin q hq)
        exact cheap_near hgo ho hc0 hmin hds (by omega)) (fun _ => none) (Nat.lt_succ_self _) (by omega)
    rw [Ucs.searchPath_of_mapmov ((Ucs.searchMapmov_eq hw hno dest _).trans hr)]
    cases r with
    | error e => exact ⟨_, rfl⟩
    | ok f => exact camefrom_answers hT f ho hd
  obtain ⟨r, hr⟩ := key
  refine ⟨r, fun calls hcl => ?_⟩
  rw [hucs.eq hT hgo.staysIn ho hd]
  exact (Ucs.searchPath_below T _ _ D go orig dest hcl).ok hr

/-- C133. If every step costs `c` or more and the cheapest cost of the destination is below `(m + 1) c`, a path that uniform-cost search returns has at most
`2m² + 2m` steps without diagonals and fewer than `(2m + 1)²` with them, however large the grid. -/
theorem C133_ucs_length [Target] (T : PosTy) (hT : T.Searchable) (ucs) (hucs : Ucs.IsSearch T ucs) (D : Bool)
    (go : Int × Int → Dir → Option ((Int × Int) × Int)) (hgo : Adjacent T (dropCost go)) (hc : UsizeCosts go) (orig dest : Int × Int)
    (hov : Target.checks = true ∨ NoOverflow go D orig) (ho : InGrid T orig) (hd : InGrid T dest) (fuel : Nat) (path : List Dir)
    (h : ucs D go orig dest fuel = .ok (.ok path)) (c : Int) (hc0 : 0 < c) (hmin : ∀ p d q w, go p d = some (q, w) → c ≤ w)
    (N : Int) (hN : IsMinCost go D orig dest N) (m : Nat) (hm : N < (m + 1) * c) : path.length < ball D m := by
  have hpre : ∀ i, ∃ q, follow (dropCost go) orig (path.take i) = some q ∧ q ∈ nearby D orig m := by
    intro i
    rw [← List.take_append_drop i path] at h
    obtain ⟨q, k, n, a1, ⟨⟨ds, a2⟩, -⟩, a3, a4⟩ := C89_ucs_within T hT ucs hucs D go hgo hc orig dest hov ho hd fuel _ _ h
    have := isMinCost_unique hN a3
    exact ⟨q, a1, cheap_near hgo ho hc0 hmin a2 (by omega)⟩
  choose pos hpos hmem using hpre
  have hnd : ((List.range (path.length + 1)).map pos).Nodup := by
    rw [List.nodup_map_iff_inj_on List.nodup_range]
    intro i hi j hj e
    rw [List.mem_range] at hi hj
    exact C91_ucs_simple T hT ucs hucs D go hgo orig dest ho hd fuel path h i j (by omega) (by omega) (by rw [hpos, hpos, e])
  have := (hnd.subperm fun q hq => by obtain ⟨i, -, rfl⟩ := List.mem_map.1 hq; exact hmem i).length_le
  rw [nearby_length, List.length_map, List.length_range] at this
  omega

/-- C133. If every step costs `c` or more, uniform-cost search finds a destination with a cheapest cost below `(m + 1) c` when the grid has at least `2m + 1` columns,
or `2m² + 2m` is not more than the square of their number and there are no diagonals, however tall the grid. -/
theorem C133_ucs_found [Target] (T : PosTy) (hT : T.Searchable) (ucs) (hucs : Ucs.IsSearch T ucs) (D : Bool)
    (go : Int × Int → Dir → Option ((Int × Int) × Int)) (hgo : Adjacent T (dropCost go)) (hc : UsizeCosts go) (orig dest : Int × Int) (ho : InGrid T orig)
    (hd : InGrid T dest) (hno : NoOverflow go D orig) (fuel : Nat) (hfuel : Ucs.steps T < (fuel : Int)) (c : Int) (hc0 : 0 < c)
    (hmin : ∀ p d q w, go p d = some (q, w) → c ≤ w) (N : Int) (hN : IsMinCost go D orig dest N) (hlim : N < limit) (m : Nat) (hm : N < (m + 1) * c)
    (hnear : (ball D m : Int) ≤ cols T * cols T + 1) : ∃ path, ucs D go orig dest fuel = .ok (.ok path) := by
  rw [hucs.eq hT hgo.staysIn ho hd]
  have hw := hc.nonNeg
  have hG := cost_inGrid (D := D) hgo.staysIn ho
  have hcons := consistent_zero (D := D) (orig := orig) hw
  obtain ⟨r, h1, h2⟩ := BSt.search_init (L := allPositions T true) (INF := usizeMax) (dest := dest) usizeMax_pos hw hcons
    (fun ds q n h => PosTy.mem_allPositions.2 (hG ds q n h)) (by rw [PosTy.allPositions_length]; exact Ucs.steps_nat hT.toIsGrid hfuel) (fun _ => none)
  rw [← Ucs.searchMapmov_eq hw hno dest fuel] at h1
  rw [Ucs.searchPath_of_mapmov h1]
  cases r with
  | error e =>
    obtain ⟨⟨ds, hds⟩, -⟩ := hN
    have := h2.2 ds N hds
    have := limit_eq
    omega
  | ok f =>
    obtain ⟨t, k, F, s, H, ht, hF⟩ := h2
    obtain ⟨path, b1, -⟩ := H.arrives hgo hG dest ht
    have hcn : s.c dest = N := isMinCost_unique (H.isMinCost ht) hN
    have hlt := b1.length_lt_list (L := nearby D orig m) (H.g.back_step hgo hG) (fun q hq => by
      have hle := H.le_F q hq
      obtain ⟨ds, hds⟩ := H.g.walk q (H.g.fin q hq)
      exact cheap_near hgo ho hc0 hmin hds (by simp only at hF hle; omega)) ht
    rw [nearby_length] at hlt
    have hle : path.length ≤ T.nx * T.nx := by
      have hx : cols T = (T.nx : Int) := by
        have := hT.nx_eq
        have := hT.x0
        simp only [cols]
        omega
      rw [hx] at hnear
      have : ((T.nx * T.nx : Nat) : Int) = (T.nx : Int) * T.nx := Int.natCast_mul _ _
      omega
    obtain ⟨o, a1, ⟨path', rfl, a2, -⟩ | ⟨-, a2⟩⟩ := camefrom_of_inv hT.wf hgo hG H.g ht
    · refine ⟨path', ?_⟩
      simp only
      rw [a1, wayOut_searchable hT ho hd]
      simp only
      rw [if_pos (by rw [← b1.unique a2]; exact hle)]
    · exact absurd b1 (a2 _)

/-- C62, on grids of any shape: if every step costs `c` or more, a destination with a cheapest cost below `(m + 1) c` is found when the grid has at least `2m + 1`
columns, or `2m² + 2m` is not more than the square of their number and there are no diagonals. What is missing: the same for destinations further away, which is
false on tall grids (`C62_refuted_tall`). -/
theorem C62_near_partial [Target] (T : PosTy) (hT : T.Searchable) (ucs) (hucs : Ucs.IsSearch T ucs) (D : Bool)
    (go : Int × Int → Dir → Option ((Int × Int) × Int)) (hgo : Adjacent T (dropCost go)) (hc : UsizeCosts go) (orig dest : Int × Int) (ho : InGrid T orig)
    (hd : InGrid T dest) (hno : NoOverflow go D orig) (fuel : Nat) (hfuel : Ucs.steps T < (fuel : Int)) (c : Int) (hc0 : 0 < c)
    (hmin : ∀ p d q w, go p d = some (q, w) → c ≤ w) (N : Int) (hN : IsMinCost go D orig dest N) (hlim : N < limit) (m : Nat) (hm : N < (m + 1) * c)
    (hnear : (ball D m : Int) ≤ cols T * cols T + 1) : ∃ path, ucs D go orig dest fuel = .ok (.ok path) :=
  C133_ucs_found T hT ucs hucs D go hgo hc orig dest ho hd hno fuel hfuel c hc0 hmin N hN hlim m hm hnear

-- on a grid of 30 x 30, from its middle to a position two steps away
example : (PosTy.pos 29 29).Searchable := PosTy.pos_searchable (by decide) (by decide) (.inl rfl)
example : InGrid (PosTy.pos 29 29) (15, 15) ∧ InGrid (PosTy.pos 29 29) (17, 16) := ⟨by unfold InGrid; decide, by unfold InGrid; decide⟩
example : Adjacent (PosTy.pos 29 29) (aroundWalls (PosTy.pos 29 29) [(16, 15)]) := aroundWalls_adjacent _ _

theorem near_dist : IsDist (aroundWalls (PosTy.pos 29 29) [(16, 15)]) true (15, 15) (17, 16) 2 :=
  ⟨⟨[.SE, .E], ⟨by simp [Allowed], by decide⟩, rfl⟩, fun ds hds => by
    have := linf_le_path (aroundWalls_adjacent _ _) (by unfold InGrid; decide) hds
    simp only [linf] at this
    omega⟩

example : Bf.pathHash (PosTy.pos 29 29) true (aroundWalls (PosTy.pos 29 29) [(16, 15)]) (15, 15) (fun q => q == (17, 16)) 2 = .ok (.ok ((17, 16), [.SE, .E])) := by
  decide +kernel
example : Astar.pathHash (PosTy.pos 29 29) true (aroundWalls (PosTy.pos 29 29) [(16, 15)]) (15, 15) (17, 16) (2 * 2 * (2 * 2) * (2 * 2) + 1) =
    .ok (.ok [.SE, .E]) := by decide +kernel
example : Astar.pathHash (PosTy.pos 29 29) false (aroundWalls (PosTy.pos 29 29) [(16, 15)]) (15, 15) (17, 16) (2 * ((3 + 1) * (3 + 1))) =
    .ok (.ok [.S, .E, .E]) := by decide +kernel
-- where every step costs 3, the destination is 9 away, and 9 is below (3 + 1) * 3
example : ball false 3 = 25 ∧ ((ball false 3 : Nat) : Int) ≤ cols (PosTy.pos 29 29) * cols (PosTy.pos 29 29) + 1 := by decide
example : Ucs.pathHash (PosTy.pos 29 29) false (stepCosts (PosTy.pos 29 29) [(16, 15)] fun _ _ => 3) (15, 15) (17, 16) (4 * (ball false 3 - 1) + 2) =
    .ok (.ok [.S, .E, .E]) := by decide +kernel
example : UsizeCosts (stepCosts (PosTy.pos 29 29) [(16, 15)] fun _ _ => 3) := stepCosts_usize _ _ fun _ _ => by
  have := limit_eq
  exact ⟨by decide, by rw [this]; decide⟩
example : IsMinCost (stepCosts (PosTy.pos 29 29) [(16, 15)] fun _ _ => 3) true (15, 15) (17, 16) 6 :=
  ⟨⟨[.SE, .E], ⟨by simp [Allowed], by decide⟩, by decide⟩, fun ds m h => by
    have h1 := length_le_cost (c := 3) (fun p d q w h => by
      obtain ⟨_, -, h⟩ := Option.map_eq_some_iff.1 h
      injection h with _ h
      simp only at h
      omega) h
    have h2 := linf_le_path (stepCosts_adjacent _ _ _) (by unfold InGrid; decide) h.1
    simp only [linf] at h2
    omega⟩
example : NoOverflow (stepCosts (PosTy.pos 29 29) [(16, 15)] fun _ _ => 3) false (15, 15) :=
  (stepCosts_below (PosTy.pos_searchable (by decide) (by decide) (.inl rfl)) _ _ (by decide) (B := 3) (by decide) (fun _ _ => Int.le_refl _) (by decide)).noOverflow

end Sqrid
