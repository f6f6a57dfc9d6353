import Verif.Proofs.EnterOnce
import Verif.Props.BfOrder
import Verif.Props.Exhausted
import Verif.Props.OpenGrid
import Verif.Spec.AllPaths
/-!
# The paths to all destinations from one traversal: C150

The iterators yield each position with the direction that leads back. A program that keeps the directions in a map can get the path to any destination from it with
`camefrom_into_path`, without a further search.
-/

namespace Sqrid

-- Statements that do not mention a target are about a debug build for a 64-bit machine.
attribute [local instance] debug64

open Spec

/-! ### The maps -/

theorem keepLast_sim {T : PosTy} {M : MapImpl (Option Dir)} {R} (hM : M.Sim T none R) {items : List (P2 × Dir)} (hin : ∀ m ∈ items, InGrid T m.1) :
    ∃ s, keepLast M items = .ok s ∧ R s (writeAll items fun _ => none) := by
  have key : ∀ (l : List (P2 × Dir)) (s : M.σ) (f : P2 → Option Dir), (∀ m ∈ l, InGrid T m.1) → R s f →
      ∃ s', l.foldlM (fun map item => M.set map item.1 (some item.2)) s = .ok s' ∧ R s' (writeAll l f) := by
    intro l
    induction l with
    | nil => intro s f _ h; exact ⟨s, rfl, h⟩
    | cons m l ih =>
      intro s f hin h
      obtain ⟨s1, h1, h2⟩ := hM.set (some m.2) h (hin m (by simp))
      obtain ⟨s2, h3, h4⟩ := ih s1 _ (fun x hx => hin x (List.mem_cons_of_mem _ hx)) h2
      exact ⟨s2, by rw [List.foldlM_cons, h1]; exact h3, h4⟩
  exact key items _ _ hin hM.default

theorem keepFirst_step {T : PosTy} {M : MapImpl (Option Dir)} {R} (hM : M.Sim T none R) {done : List (P2 × Dir)} {m : P2 × Dir} (hin : InGrid T m.1) {s : M.σ}
    (h : R s (firstDir done)) :
    ∃ s', setFirst M s m = .ok s' ∧ R s' (firstDir (done ++ [m])) := by
  unfold setFirst
  rw [hM.get h hin, Out.ok_bind]
  cases hf : firstDir done m.1 with
  | none =>
    obtain ⟨s1, h1, h2⟩ := hM.set (some m.2) h hin
    refine ⟨s1, h1, ?_⟩
    have e : upd (firstDir done) m.1 (some m.2) = firstDir (done ++ [m]) := by
      funext q
      by_cases hq : q = m.1
      · subst hq
        rw [upd_same]
        refine (firstDir_new fun x hx he => ?_).symm
        unfold firstDir at hf
        rw [Option.map_eq_none_iff, List.find?_eq_none] at hf
        exact hf x hx (by simpa using he)
      · rw [upd_other _ _ hq]
        unfold firstDir
        rw [List.find?_append]
        simp [Ne.symm hq]
    rwa [← e]
  | some d =>
    refine ⟨s, rfl, ?_⟩
    have e : firstDir done = firstDir (done ++ [m]) := by
      funext q
      by_cases hq : q = m.1
      · subst hq
        rw [hf, firstDir_append_some hf]
      · unfold firstDir
        rw [List.find?_append]
        simp [Ne.symm hq]
    rwa [← e]

theorem keepFirst_sim {T : PosTy} {M : MapImpl (Option Dir)} {R} (hM : M.Sim T none R) {items : List (P2 × Dir)} (hin : ∀ m ∈ items, InGrid T m.1) :
    ∃ s, keepFirst M items = .ok s ∧ R s (firstDir items) := by
  have key : ∀ (l done : List (P2 × Dir)) (s : M.σ), (∀ m ∈ l, InGrid T m.1) → R s (firstDir done) →
      ∃ s', l.foldlM (setFirst M) s = .ok s' ∧ R s' (firstDir (done ++ l)) := by
    intro l
    induction l with
    | nil => intro done s _ h; exact ⟨s, rfl, by rwa [List.append_nil]⟩
    | cons m l ih =>
      intro done s hin h
      obtain ⟨s1, h1, h2⟩ := keepFirst_step hM (hin m (by simp)) h
      obtain ⟨s2, h3, h4⟩ := ih (done ++ [m]) s1 (fun x hx => hin x (List.mem_cons_of_mem _ hx)) h2
      refine ⟨s2, ?_, by rwa [List.append_assoc, List.singleton_append] at h4⟩
      rw [List.foldlM_cons, h1]
      exact h3
  obtain ⟨s, h1, h2⟩ := key items [] _ hin hM.default
  exact ⟨s, h1, by simpa using h2⟩

/-- More items only add directions. -/
theorem writeAll_extend {l l' : List (P2 × Dir)} (hnd : (l'.map Prod.fst).Nodup) (hsub : ∀ m ∈ l, m ∈ l') (q : P2) (d : Dir)
    (h : writeAll l (fun _ => none) q = some d) : writeAll l' (fun _ => none) q = some d := by
  rcases writeAll_some h with h | h
  · exact writeAll_mem hnd (hsub _ h)
  · cases h

theorem writeAll_none {l : List (P2 × Dir)} {q : P2} (h : ∀ m ∈ l, m.1 ≠ q) : writeAll l (fun _ => none) q = none := by
  cases hf : writeAll l (fun _ => none) q with
  | none => rfl
  | some d =>
    rcases writeAll_some hf with h1 | h1
    · exact absurd rfl (h _ h1)
    · cases h1

theorem firstDir_eq {l : List (P2 × Dir)} (hnd : (l.map Prod.fst).Nodup) : firstDir l = writeAll l fun _ => none := by
  funext q
  unfold firstDir
  cases hf : l.find? (fun m => m.1 = q) with
  | none =>
    rw [List.find?_eq_none] at hf
    rw [writeAll_none fun m hm => by simpa using hf m hm]
    rfl
  | some m =>
    have h1 : m.1 = q := by simpa using List.find?_some hf
    have h2 := List.mem_of_find?_eq_some hf
    exact (writeAll_mem hnd (by rw [← h1]; exact h2)).symm

/-! ### Breadth-first search -/

/-- The map of a search leads to the destination. -/
theorem Bf.mapmov_arrives {T : PosTy} {go : GoFn} {D : Bool} {orig : P2} {found : P2 → Bool} (hgo : Adjacent T go)
    (ho : InGrid T orig) {N : Nat} (hN : ∀ q n, IsDist go D orig q n → n < N) {fuel : Nat} (hfuel : N < fuel) {dest : P2} {f : P2 → Option Dir}
    (hmm : Bf.searchMapmov SetImpl.ideal (MapImpl.ideal none) D go orig found fuel = .ok (.ok (dest, f))) :
    InGrid T dest ∧ f dest ≠ none ∧ ∃ path, Arrives T f orig dest path := by
  obtain ⟨st, h1, h2⟩ := BfIter.new_st go D orig
  obtain ⟨r, h3, h4⟩ := Bf.searchLoop_spec (found := found) hgo ho hN N h2 (by omega) (f := fun _ => none)
    (fun m q hm => absurd hm (Nat.not_lt_zero _)) fuel hfuel
  unfold Bf.searchMapmov at hmm
  rw [h1, Out.ok_bind] at hmm
  have h3 := h3.symm.trans hmm
  injection h3 with h3
  subst h3
  obtain ⟨h5, n, h6, h7, d, p, b1, b2, b3, b4⟩ := h4
  have hp := isDist_inGrid hgo.staysIn ho b3
  obtain ⟨-, e⟩ := hgo p _ dest hp b4
  have e' : neighbour dest d = p := by rw [e, neighbour_opposite']
  obtain ⟨path, c1, c2, c3⟩ := arrives_of_good hgo ho (K := n) (fun m q hm hq => (h7 m q hm hq).2) n (Nat.le_refl _) p b3
  refine ⟨isDist_inGrid hgo.staysIn ho h6, by rw [b1]; simp, path ++ [opposite d], .step ?_ b1 (e' ▸ hp) (e' ▸ c1)⟩
  rintro rfl
  have := isDist_unique h6 (isDist_zero.2 rfl)
  omega

/-- C150, breadth-first search. One traversal, and its directions in a map: each search from there gives what `camefrom_into_path` gets from the map for the first goal
of the traversal, also the errors. -/
theorem C150_bfs [Target] (T : PosTy) (hT : T.Searchable) (iter) (hiter : Bf.IsIter T iter) (bfs) (hbfs : Bf.IsSearch T bfs) (M : MapImpl (Option Dir))
    (hM : M.Is T none) (D : Bool) (go : Int × Int → Dir → Option (Int × Int)) (hgo : Adjacent T go) (orig : Int × Int) (ho : InGrid T orig) (fuel : Nat)
    (hfuel : cols T * rows T < (fuel : Int)) :
    ∃ ls map, iter D go orig fuel = .ok ls ∧ keepLast M ls.flatten = .ok map ∧
      ∀ found, bfs D go orig found fuel = (match ls.flatten.find? (fun m => found m.1) with
        | none => .ok (.error .destinationUnreachable)
        | some (dest, _) => (camefromIntoPath T M map orig dest >>= fun r => .ok (r.map fun path => (dest, path)))) := by
  have hf : T.nx * T.ny < fuel := by have := hT.cells_eq; omega
  obtain ⟨R, hR⟩ := MapImpl.sim_of_is hT.toIsGrid hM
  obtain ⟨ls, h1, h2, h2', -⟩ := Bf.iterAll_layers D hgo.staysIn ho fuel hf
  obtain ⟨g1, g2, -⟩ := layers_flatten (fun k l hl => ⟨(h2 k l hl).2.mem, (h2 k l hl).2.nodup⟩) h2'
  have hin : ∀ m ∈ ls.flatten, InGrid T m.1 := fun m hm => by
    obtain ⟨k, hk⟩ := (g1 m.1).1 ⟨m.2, hm⟩
    exact isDist_inGrid hgo.staysIn ho ((inLayer_iff hgo ho).1 hk)
  obtain ⟨map, hmap, hrel⟩ := keepLast_sim hR hin
  refine ⟨ls, map, by rw [hiter.eq hT.toIsGrid hgo.staysIn ho fuel]; exact h1, hmap, fun found => ?_⟩
  rw [hbfs.eq hT hgo.staysIn ho]
  obtain ⟨st, h3, -, -⟩ := BfIter.new_order go D orig
  have hc : collectWith (BfIter.next SetImpl.ideal D go) fuel st = .ok ls := by
    have h := h1
    unfold Bf.iterAll at h
    rw [h3, Out.ok_bind] at h
    exact h
  have hmm : ∀ {r}, Bf.searchLoop SetImpl.ideal (MapImpl.ideal none) D go found fuel st (fun _ => none) = .ok r →
      Bf.searchMapmov SetImpl.ideal (MapImpl.ideal none) D go orig found fuel = .ok r := by
    intro r hr
    unfold Bf.searchMapmov
    rw [h3, Out.ok_bind]
    exact hr
  rcases Bf.searchLoop_flatten go D found fuel (fun _ => none) hc with ⟨a1, a2⟩ | ⟨pre, m, post, a1, a2, a3, a4⟩
  · rw [show ls.flatten.find? (fun m => found m.1) = none from List.find?_eq_none.2 fun m hm => by rw [a1 m hm]; simp]
    simp only
    rw [Bf.searchPath_of_mapmov (hmm a2)]
  · have e : ls.flatten.find? (fun m => found m.1) = some m := by
      rw [a1, List.find?_append, List.find?_eq_none.2 fun m hm => by rw [a3 m hm]; simp]
      simp [a2]
    rw [e]
    obtain ⟨dest, d⟩ := m
    simp only
    obtain ⟨b1, b2, path, b3⟩ := Bf.mapmov_arrives hgo ho (fun _ _ h => isDist_lt hgo.staysIn ho h) hf (hmm a4)
    have hext := writeAll_extend (l := pre ++ [(dest, d)]) g2 fun x hx => by
      rw [a1]
      simp only [List.mem_append, List.mem_cons, List.not_mem_nil, or_false] at hx ⊢
      tauto
    have b4 : writeAll ls.flatten (fun _ => none) dest ≠ none := by
      obtain ⟨d', hd'⟩ := Option.ne_none_iff_exists'.1 b2
      rw [hext _ _ hd']
      simp
    rw [Bf.searchPath_of_mapmov (hmm a4), camefrom_ideal hR hrel hT.wf b1, camefrom_arrives_out hT.wf b1 b4 (b3.extend hext)]
    simp only
    rw [camefrom_arrives_out hT.wf b1 b2 b3]
    congr 1
    funext r
    cases r <;> rfl

/-- C150, breadth-first search for one destination. -/
theorem C150_bfs_dest [Target] (T : PosTy) (hT : T.Searchable) (iter) (hiter : Bf.IsIter T iter) (bfs) (hbfs : Bf.IsSearch T bfs) (M : MapImpl (Option Dir))
    (hM : M.Is T none) (D : Bool) (go : Int × Int → Dir → Option (Int × Int)) (hgo : Adjacent T go) (orig : Int × Int) (ho : InGrid T orig) (fuel : Nat)
    (hfuel : cols T * rows T < (fuel : Int)) :
    ∃ ls map, iter D go orig fuel = .ok ls ∧ keepLast M ls.flatten = .ok map ∧
      ∀ dest, InGrid T dest → ∃ r, camefromIntoPath T M map orig dest = .ok r ∧
        bfs D go orig (fun p => p == dest) fuel = .ok (r.map fun path => (dest, path)) := by
  obtain ⟨ls, map, h1, h2, h3⟩ := C150_bfs T hT iter hiter bfs hbfs M hM D go hgo orig ho fuel hfuel
  refine ⟨ls, map, h1, h2, fun dest hd => ?_⟩
  obtain ⟨R, hR⟩ := MapImpl.sim_of_is hT.toIsGrid hM
  have hin : ∀ m ∈ ls.flatten, InGrid T m.1 := fun m hm => by
    obtain ⟨ls', e1, e2, -⟩ := Bf.iterAll_layers D hgo.staysIn ho fuel (by have := hT.cells_eq; omega)
    have e3 := h1
    rw [hiter.eq hT.toIsGrid hgo.staysIn ho fuel, e1] at e3
    injection e3 with e3
    subst e3
    obtain ⟨l, hl, hm⟩ := List.mem_flatten.1 hm
    obtain ⟨i, hi, rfl⟩ := List.mem_iff_getElem.1 hl
    exact isDist_inGrid hgo.staysIn ho ((inLayer_iff hgo ho).1 (((e2 i _ (List.getElem?_eq_getElem hi)).2.mem m.1).1 ⟨m.2, hm⟩))
  obtain ⟨map', hmap, hrel⟩ := keepLast_sim hR hin
  have e := h2.symm.trans hmap
  injection e with e
  subst e
  obtain ⟨r, hr⟩ := camefrom_answers hT (writeAll ls.flatten fun _ => none) ho hd
  rw [← camefrom_ideal hR hrel hT.wf hd] at hr
  refine ⟨r, hr, ?_⟩
  rw [h3]
  cases hf : ls.flatten.find? (fun m => m.1 == dest) with
  | none =>
    rw [List.find?_eq_none] at hf
    have h4 : writeAll ls.flatten (fun _ => none) dest = none := writeAll_none fun m hm => by simpa using hf m hm
    simp only
    rcases camefromIntoPath_spec hT M map (writeAll ls.flatten fun _ => none) ho hd (fun p hp => hR.get hrel hp) with ⟨-, h5⟩ | ⟨h5, -⟩
    · rw [hr] at h5
      injection h5 with h5
      rw [h5]
      rfl
    · exact absurd h4 h5
  | some m =>
    obtain ⟨q, d⟩ := m
    obtain rfl : q = dest := by simpa using List.find?_some hf
    simp only
    rw [hr]
    rfl

/-! ### Uniform-cost search -/

theorem yields_take {σ α : Type} {next : σ → Out (Option α × σ)} (k : Nat) : ∀ {s st : σ} {zs : List α} {j : Nat}, yields next k s = .ok (zs, st) → j ≤ k →
    ∃ st', yields next j s = .ok (zs.take j, st') := by
  induction k with
  | zero =>
    intro s st zs j hy hj
    obtain rfl : j = 0 := by omega
    exact ⟨s, by simp [yields]⟩
  | succ k ih =>
    intro s st zs j hy hj
    cases j with
    | zero => exact ⟨s, by simp [yields]⟩
    | succ j =>
      unfold yields at hy ⊢
      obtain ⟨⟨o, s'⟩, h1, hy⟩ := Out.bind_ok hy
      rw [h1, Out.ok_bind]
      cases o with
      | none =>
        injection hy with hy
        injection hy with hy _
        subst hy
        exact ⟨s', by simp⟩
      | some m =>
        obtain ⟨⟨l, s2⟩, h2, hy⟩ := Out.bind_ok hy
        injection hy with hy
        injection hy with hy _
        subst hy
        obtain ⟨st', h3⟩ := ih h2 (Nat.le_of_succ_le_succ hj)
        simp only
        rw [h3]
        exact ⟨st', rfl⟩

/-- An invariant of the items, with every map. -/
theorem UcsIter.yields_inv [Target] {T : PosTy} (hT : T.Searchable) {C : MapImpl Int} (hC : C.Is T 0) {D : Bool} {go : WGo} (hgo : StaysIn T (dropCost go))
    (hc : UsizeCosts go) {orig : P2} (ho : InGrid T orig) (hno : NoOverflow go D orig) {J : (P2 → Nat) → List (P2 × Dir) → BSt → Prop}
    (hJ : Tracked go (fun _ => 0) D usizeMax orig J)
    (h0 : J (upd (fun _ => 0) orig 1) [(orig, Dir.N)] (BSt.after go (fun _ => 0) D (BSt.init usizeMax orig).c (0, orig, Dir.N) [])) (n : Nat) :
    ∃ items st s, (do let it ← UcsIter.new C orig; yields (UcsIter.next C D go) n it) = .ok (items, st) ∧
      yields (UcsIter.next (MapImpl.ideal 0) D go) n (BSt.init usizeMax orig).ucs = .ok (items, s) ∧
      (items = [] ∨ ∃ t n' F f s', CInv go (fun _ => 0) D usizeMax orig t n' F f s' ∧ J t items s') := by
  obtain ⟨R, hR⟩ := MapImpl.sim_of_is hT.toIsGrid hC
  have hw := hc.nonNeg
  obtain ⟨ys, s', h1, h2⟩ := yields_track_init (INF := usizeMax) (emb := BSt.ucs) (next := UcsIter.next (MapImpl.ideal 0) D go)
    usizeMax_pos hw (consistent_zero (D := D) (orig := orig) hw) hJ h0 (fun s hs => UcsIter.next_none hs)
    (fun s e rest hp hlt hm => UcsIter.next_eq hw D hp (hno.room (isMinCost_nonneg hw hm) hlt hm)) n
  have hrel : Out.Rel (fun a b => a.1 = b.1 ∧ UcsIter.Rel T R a.2 b.2) (do let it ← UcsIter.new C orig; yields (UcsIter.next C D go) n it)
      (.ok (ys, s'.ucs)) := by
    rw [← h1, show yields (UcsIter.next (MapImpl.ideal 0) D go) n (BSt.init usizeMax orig).ucs =
      (UcsIter.new (MapImpl.ideal 0) orig >>= fun it => yields (UcsIter.next (MapImpl.ideal 0) D go) n it) from rfl]
    refine (UcsIter.rel_new hR ho).bind fun a b hab => ?_
    exact yields_rel (Q := UcsIter.Rel T R) (fun s t h => (UcsIter.rel_next hR hgo D h).mono fun a b h => ⟨h.1.1, h.2⟩) n a b hab
  revert hrel
  generalize (do let it ← UcsIter.new C orig; yields (UcsIter.next C D go) n it) = x
  intro hrel
  cases x with
  | ok x =>
    obtain ⟨items, st⟩ := x
    obtain ⟨e1, e2⟩ := hrel
    simp only at e1
    subst e1
    refine ⟨items, st, _, rfl, h1, ?_⟩
    rcases h2 with h2 | ⟨t', n', F', f', H, j⟩
    · exact .inl h2
    · exact .inr ⟨t', n', F', f', _, H, j⟩
  | panic => exact hrel.elim
  | ub => exact hrel.elim
  | timeout => exact hrel.elim

/-- C120, uniform-cost search with costs that depend only on the position that is entered: no position is yielded twice, so there are not more items than cells. -/
theorem C120_ucs_enter [Target] (T : PosTy) (hT : T.Searchable) (C : MapImpl Int) (hC : C.Is T 0) (D : Bool)
    (go : Int × Int → Dir → Option ((Int × Int) × Int)) (hgo : Adjacent T (dropCost go)) (hc : UsizeCosts go) (henter : EnterCost go) (orig : Int × Int)
    (ho : InGrid T orig) (hno : NoOverflow go D orig) (n : Nat) :
    ∃ items st, (do let it ← UcsIter.new C orig; yields (UcsIter.next C D go) n it) = .ok (items, st) ∧
      (items.map Prod.fst).Nodup ∧ (items.length : Int) ≤ cols T * rows T := by
  have hw := hc.nonNeg
  have hG := cost_inGrid (D := D) hgo.staysIn ho
  obtain ⟨items, st, -, h1, -, h2⟩ := UcsIter.yields_inv hT hC hgo.staysIn hc ho hno (OneInv.tracked hw henter hgo hG) (OneInv.init hw hgo ho) n
  have hnd : (items.map Prod.fst).Nodup := by
    rcases h2 with rfl | ⟨t, n', F, f, s, H, j⟩
    · exact List.nodup_nil
    · have := j.nodup
      rw [List.map_append] at this
      exact (List.nodup_append.1 this).1
  refine ⟨items, st, h1, hnd, ?_⟩
  have hsub : items.map Prod.fst ⊆ allPositions T true := by
    intro q hq
    rcases h2 with rfl | ⟨t, n', F, f, s, H, j⟩
    · cases hq
    · obtain ⟨m, hm, rfl⟩ := List.mem_map.1 hq
      exact H.known_mem (fun ds q n h => PosTy.mem_allPositions.2 (hG ds q n h)) _ (j.known m hm)
  have h3 := (List.subperm_of_subset hnd hsub).length_le
  rw [List.length_map, PosTy.allPositions_length] at h3
  have := hT.cells_eq
  omega

-- Every position is yielded once.
example : (UcsIter.new (MapImpl.hash 0) (0, 0) >>= fun it =>
    yields (UcsIter.next (.hash 0) false (unitCost (aroundWalls (PosTy.pos 1 1) []))) 20 it >>= fun r => .ok r.1) =
    .ok [((0, 0), .N), ((1, 0), .W), ((0, 1), .N), ((1, 1), .N)] := by decide +kernel

/-- The items up to some of them, and the way to the last one. -/
theorem UcsIter.way_of_prefix [Target] {T : PosTy} (hT : T.Searchable) {D : Bool} {go : WGo} (hgo : Adjacent T (dropCost go)) (hc : UsizeCosts go) {orig : P2}
    (ho : InGrid T orig) (hno : NoOverflow go D orig) {k : Nat} {zs : List (P2 × Dir)} {s}
    (hy : yields (UcsIter.next (MapImpl.ideal 0) D go) k (BSt.init usizeMax orig).ucs = .ok (zs, s)) {pre post : List (P2 × Dir)} {m : P2 × Dir}
    (he : zs = pre ++ m :: post) (hk : zs.length ≤ k) :
    ∃ path n, Arrives T (firstDir (pre ++ [m])) orig m.1 path ∧ IsMinCost go D orig m.1 n ∧ n < limit ∧ IsCostPath go D orig path m.1 n := by
  have hw := hc.nonNeg
  have hG := cost_inGrid (D := D) hgo.staysIn ho
  have hlen : pre.length + 1 ≤ k := by
    rw [he] at hk
    simp at hk
    omega
  obtain ⟨st', h1⟩ := yields_take k hy hlen
  obtain ⟨items, st, s, -, h3, h4⟩ := UcsIter.yields_inv hT (C := MapImpl.hash 0) (.inr (.inl rfl)) hgo.staysIn hc ho hno (WInv.tracked hgo hG)
    (WInv.init hw hgo ho) (pre.length + 1)
  rw [h1] at h3
  injection h3 with h3
  injection h3 with h3 _
  have e : items = pre ++ [m] := by
    rw [← h3, he, List.take_append]
    simp [List.take_of_length_le]
  subst e
  rcases h4 with h4 | ⟨t, n', F, f, s, H, j⟩
  · simp at h4
  · have hm : 1 ≤ t m.1 := (j.known m.1).2 (by simp)
    obtain ⟨path, c1, c2⟩ := j.way m.1 hm
    exact ⟨path, _, c1, H.isMinCost hm, by rw [limit_eq]; exact H.g.fin _ hm, c2⟩

/-- C150, uniform-cost search with costs that depend only on the position that is entered. One traversal, and its directions in a map: each search from there gives what
`camefrom_into_path` gets from the map, also the errors. -/
theorem C150_ucs [Target] (T : PosTy) (hT : T.Searchable) (ucs) (hucs : Ucs.IsSearch T ucs) (C : MapImpl Int) (hC : C.Is T 0) (M : MapImpl (Option Dir))
    (hM : M.Is T none) (D : Bool) (go : Int × Int → Dir → Option ((Int × Int) × Int)) (hgo : Adjacent T (dropCost go)) (hc : UsizeCosts go) (henter : EnterCost go)
    (orig : Int × Int) (ho : InGrid T orig) (hno : NoOverflow go D orig) (calls : Nat) (hcalls : cols T * rows T < (calls : Int)) :
    ∃ items st map, (do let it ← UcsIter.new C orig; yields (UcsIter.next C D go) calls it) = .ok (items, st) ∧ keepLast M items = .ok map ∧
      ∀ dest, InGrid T dest → ucs D go orig dest calls = camefromIntoPath T M map orig dest := by
  have hw := hc.nonNeg
  have hG := cost_inGrid (D := D) hgo.staysIn ho
  obtain ⟨R, hR⟩ := MapImpl.sim_of_is hT.toIsGrid hM
  obtain ⟨items, st, s, h1, h2, h3⟩ := UcsIter.yields_inv hT hC hgo.staysIn hc ho hno (OneInv.tracked hw henter hgo hG) (OneInv.init hw hgo ho) calls
  obtain ⟨items', st', h1', hnd, hlen⟩ := C120_ucs_enter T hT C hC D go hgo hc henter orig ho hno calls
  have e := h1.symm.trans h1'
  injection e with e
  injection e with e _
  subst e
  have hin : ∀ m ∈ items, InGrid T m.1 := by
    intro m hm
    rcases h3 with rfl | ⟨t, n', F, f, s, H, j⟩
    · cases hm
    · obtain ⟨ds, hds⟩ := (H.isMinCost (j.known m hm)).1
      exact hG _ _ _ hds
  obtain ⟨map, hmap, hrel⟩ := keepLast_sim hR hin
  refine ⟨items, st, map, h1, hmap, fun dest hd => ?_⟩
  have hlt : items.length < calls := by omega
  rw [hucs.eq hT hgo.staysIn ho hd, camefrom_ideal hR hrel hT.wf hd]
  have hmm : ∀ {r}, Ucs.searchLoop (MapImpl.ideal none) (MapImpl.ideal 0) D go dest calls (BSt.init usizeMax orig).ucs (fun _ => none) = .ok r →
      Ucs.searchMapmov (MapImpl.ideal none) (MapImpl.ideal 0) D go orig dest calls = .ok r := fun hr => hr
  rcases Ucs.searchLoop_yields (MapImpl.ideal 0) D go dest calls (fun _ => none) h2 hlt with ⟨a1, a2⟩ | ⟨pre, m, post, a1, a2, a3, a4⟩
  · rw [Ucs.searchPath_of_mapmov (hmm a2)]
    simp only
    rcases camefromIntoPath_spec hT (MapImpl.ideal none) (writeAll items fun _ => none) _ ho hd (fun p hp => rfl) with ⟨-, h5⟩ | ⟨h5, -⟩
    · exact h5.symm
    · exact absurd (writeAll_none a1) h5
  · rw [Ucs.searchPath_of_mapmov (hmm a4)]
    simp only
    obtain ⟨path, n, b1, -⟩ := UcsIter.way_of_prefix hT hgo hc ho hno h2 a1 (Nat.le_of_lt hlt)
    have hndp : ((pre ++ [m]).map Prod.fst).Nodup := by
      rw [a1, List.append_cons, List.map_append] at hnd
      exact (List.nodup_append.1 hnd).1
    rw [firstDir_eq hndp, a2] at b1
    have hext := writeAll_extend (l := pre ++ [m]) hnd fun x hx => by
      rw [a1]
      simp only [List.mem_append, List.mem_cons, List.not_mem_nil, or_false] at hx ⊢
      tauto
    have b2 : writeAll (pre ++ [m]) (fun _ => none) dest = some m.2 := writeAll_mem hndp (by rw [← a2]; simp)
    rw [camefrom_arrives_out hT.wf hd (by rw [b2]; simp) b1, camefrom_arrives_out hT.wf hd (by rw [hext _ _ b2]; simp) (b1.extend hext)]

/-- C150, uniform-cost search with any costs. If the program keeps the first direction of each position, `camefrom_into_path` gets a cheapest path from the map for every
destination that can be reached; or an error, if that path is longer than the bound of C48. -/
theorem C150_ucs_first [Target] (T : PosTy) (hT : T.Searchable) (C : MapImpl Int) (hC : C.Is T 0) (M : MapImpl (Option Dir))
    (hM : M.Is T none) (D : Bool) (go : Int × Int → Dir → Option ((Int × Int) × Int)) (hgo : Adjacent T (dropCost go)) (hc : UsizeCosts go)
    (orig : Int × Int) (ho : InGrid T orig) (hno : NoOverflow go D orig) (calls : Nat) (hcalls : 8 * (cols T * rows T) + 1 < (calls : Int)) :
    ∃ items st map, (do let it ← UcsIter.new C orig; yields (UcsIter.next C D go) calls it) = .ok (items, st) ∧ keepFirst M items = .ok map ∧
      ∀ dest, InGrid T dest →
        ((∀ n, IsMinCost go D orig dest n → limit ≤ n) ∧ camefromIntoPath T M map orig dest = .ok (.error .destinationUnreachable)) ∨
        (∃ n path, IsMinCost go D orig dest n ∧ n < limit ∧ IsCostPath go D orig path dest n ∧
          camefromIntoPath T M map orig dest = .ok (if (path.length : Int) ≤ cols T * cols T then .ok path else .error .loop)) := by
  have hw := hc.nonNeg
  have hG := cost_inGrid (D := D) hgo.staysIn ho
  obtain ⟨R, hR⟩ := MapImpl.sim_of_is hT.toIsGrid hM
  obtain ⟨items, st, s, h1, h2, h3⟩ := UcsIter.yields_inv hT hC hgo.staysIn hc ho hno (WInv.tracked hgo hG) (WInv.init hw hgo ho) calls
  obtain ⟨items', st', h1', hmin, hlen, hdone⟩ := C129_ucs T hT C hC D go hgo.staysIn hc orig ho hno calls
  have e := h1.symm.trans h1'
  injection e with e
  injection e with e _
  subst e
  have hin : ∀ m ∈ items, InGrid T m.1 := by
    intro m hm
    obtain ⟨k, ⟨⟨ds, hds⟩, -⟩, -⟩ := hmin m hm
    exact hG _ _ _ hds
  obtain ⟨map, hmap, hrel⟩ := keepFirst_sim hR hin
  refine ⟨items, st, map, h1, hmap, fun dest hd => ?_⟩
  rw [camefrom_ideal hR hrel hT.wf hd]
  cases hf : firstDir items dest with
  | none =>
    left
    constructor
    · intro n hn
      by_contra hlt
      obtain ⟨m, hm, he⟩ := List.mem_map.1 ((hdone (by omega) dest hd).1 n hn (by omega)).1
      unfold firstDir at hf
      rw [Option.map_eq_none_iff, List.find?_eq_none] at hf
      exact hf m hm (by simpa using he)
    · rcases camefromIntoPath_spec hT (MapImpl.ideal none) (firstDir items) _ ho hd (fun p hp => rfl) with ⟨-, h5⟩ | ⟨h5, -⟩
      · exact h5
      · exact absurd hf h5
  | some d =>
    right
    have hmem : dest ∈ items.map Prod.fst := by
      unfold firstDir at hf
      cases hx : items.find? (fun m => m.1 = dest) with
      | none => rw [hx] at hf; cases hf
      | some m =>
        have e : m.1 = dest := by simpa using List.find?_some hx
        exact List.mem_map.2 ⟨m, List.mem_of_find?_eq_some hx, e⟩
    rcases h3 with rfl | ⟨t, n', F, f, s, H, j⟩
    · cases hmem
    · have hk : 1 ≤ t dest := (j.known dest).2 hmem
      obtain ⟨path, c1, c2⟩ := j.way dest hk
      refine ⟨_, path, H.isMinCost hk, by rw [limit_eq]; exact H.g.fin _ hk, c2, ?_⟩
      rw [camefrom_arrives_out hT.wf hd (by rw [hf]; simp) c1, wayOut_searchable hT ho hd, cols_sq hT.toIsGrid]
      simp only [Int.ofNat_le]

/-- Going south from the origin costs 5, other steps cost 1. -/
def southCost (p : Int × Int) (d : Dir) : Int := if p = (0, 0) ∧ d = .S then 5 else 1

/-- C150. With such costs, which depend on where a step comes from, the last direction of a position is not the one that the search returns: from its map the path to (0, 1)
is the step south, which costs 5, and the search returns one that costs 3. The first direction is the right one. -/
theorem C150_ucs_last_fails [Target] :
    let T := PosTy.pos 1 1
    let go := stepCosts T [] southCost
    let items := UcsIter.new (MapImpl.hash 0) (0, 0) >>= fun it => yields (UcsIter.next (.hash 0) false go) 60 it >>= fun r => .ok r.1
    (items >>= fun l => keepLast (.hash none) l >>= fun map => camefromIntoPath T (.hash none) map (0, 0) (0, 1)) = .ok (.ok [.S]) ∧
    (items >>= fun l => keepFirst (.hash none) l >>= fun map => camefromIntoPath T (.hash none) map (0, 0) (0, 1)) = .ok (.ok [.E, .S, .W]) ∧
    Ucs.pathHash T false go (0, 0) (0, 1) 60 = .ok (.ok [.E, .S, .W]) ∧
    pathCost go (0, 0) [.S] = some 5 ∧ pathCost go (0, 0) [.E, .S, .W] = some 3 := by
  refine ⟨?_, ?_, ?_, by decide, by decide⟩ <;> decide_target

/-! ### A* -/

/-- C150, A* without diagonals. If the program keeps the first direction of each position that the iterator yields, for some destination, `camefrom_into_path` gets a shortest
path from the map for every position that can be reached, not only for that destination; or an error, if that path is longer than the bound of C48. -/
theorem C150_astar_first [Target] (T : PosTy) (hT : T.Searchable) (C : MapImpl Int) (hC : C.Is T 0) (M : MapImpl (Option Dir))
    (hM : M.Is T none) (go : Int × Int → Dir → Option (Int × Int)) (hgo : Adjacent T go) (orig dest : Int × Int) (ho : InGrid T orig) (hd : InGrid T dest)
    (calls : Nat) (hcalls : 2 * (cols T * rows T) ≤ (calls : Int)) :
    ∃ items st map, (do let it ← AstarIter.new C orig; yields (AstarIter.next T C false go dest) calls it) = .ok (items, st) ∧ keepFirst M items = .ok map ∧
      ∀ q, InGrid T q →
        (¬ Reachable go false orig q ∧ camefromIntoPath T M map orig q = .ok (.error .destinationUnreachable)) ∨
        (∃ path, IsPath go false orig path q ∧ IsDist go false orig q path.length ∧
          camefromIntoPath T M map orig q = .ok (if (path.length : Int) ≤ cols T * cols T then .ok path else .error .loop)) := by
  obtain ⟨R, hR⟩ := MapImpl.sim_of_is hT.toIsGrid hC
  obtain ⟨R', hR'⟩ := MapImpl.sim_of_is hT.toIsGrid hM
  have hL := covers (D := false) hgo.staysIn ho
  have hG := unit_inGrid (D := false) hgo.staysIn ho
  have hfit := hT.astarFits (D := false) hgo.staysIn ho hd
  obtain ⟨ys, s', h1, h2⟩ := yields_track_init (INF := usizeMax) (emb := BSt.astar) (next := AstarIter.next T (MapImpl.ideal 0) false go dest)
    usizeMax_pos (unitCost_nonneg go) (astar_consistent hgo ho dest) (WInv.tracked (unit_adjacent hgo) hG) (WInv.init (unitCost_nonneg go) (unit_adjacent hgo) ho)
    (fun s hs => AstarIter.next_none hs) (by
      intro s e rest hp hlt hm
      obtain ⟨k, hk, hk'⟩ := isMinCost_unit.1 hm
      have h1 := isDist_lt_list hL hk'
      have hr : Reachable go false orig e.2.1 := reachable_iff_isDist.2 ⟨k, hk'⟩
      refine AstarIter.next_eq false hp ⟨by omega, ?_, fun d q hd hg => ?_⟩
      · have h4 := (hfit _ hr).2
        have hl : 0 ≤ l1 e.2.1 dest := by simp only [l1]; omega
        omega
      · obtain ⟨ds, hds⟩ := hr
        have h4 := hfit q ⟨_, isPath_append hds (isPath_single hd hg)⟩
        exact ⟨h4.1, by omega⟩) calls
  have hrel : Out.Rel (fun a b => a.1 = b.1 ∧ AstarIter.Rel T R a.2 b.2)
      (do let it ← AstarIter.new C orig; yields (AstarIter.next T C false go dest) calls it) (.ok (ys, s'.astar)) := by
    rw [← h1, show yields (AstarIter.next T (MapImpl.ideal 0) false go dest) calls (BSt.init usizeMax orig).astar =
      (AstarIter.new (MapImpl.ideal 0) orig >>= fun it => yields (AstarIter.next T (MapImpl.ideal 0) false go dest) calls it) from rfl]
    refine (AstarIter.rel_new hR ho).bind fun a b hab => ?_
    exact yields_rel (Q := AstarIter.Rel T R) (fun s t h => (AstarIter.rel_next hR hgo.staysIn false dest h).mono fun a b h => ⟨h.1.1, h.2⟩) calls a b hab
  obtain ⟨items, st, c1, -, -, -, c2⟩ := C120_astar_twice T hT C hC go hgo orig dest ho hd calls
  obtain ⟨items', st', c1', c3, -, c4⟩ := C129_astar T hT C hC false go hgo.staysIn orig dest ho hd calls
  have e := c1.symm.trans c1'
  injection e with e
  injection e with e _
  subst e
  rw [c1] at hrel
  obtain ⟨e1, -⟩ := hrel
  simp only at e1
  subst e1
  have hin : ∀ m ∈ items, InGrid T m.1 := fun m hm => by
    obtain ⟨ds, hds⟩ := c3 m hm
    exact isPath_inGrid hgo.staysIn ho hds
  obtain ⟨map, hmap, hrel⟩ := keepFirst_sim hR' hin
  refine ⟨items, st, map, c1, hmap, fun q hq => ?_⟩
  rw [camefrom_ideal hR' hrel hT.wf hq]
  cases hf : firstDir items q with
  | none =>
    left
    constructor
    · intro hr
      obtain ⟨m, hm, he⟩ := List.mem_map.1 ((c4 (by omega) q hq).1 hr)
      unfold firstDir at hf
      rw [Option.map_eq_none_iff, List.find?_eq_none] at hf
      exact hf m hm (by simpa using he)
    · rcases camefromIntoPath_spec hT (MapImpl.ideal none) (firstDir items) _ ho hq (fun p hp => rfl) with ⟨-, h5⟩ | ⟨h5, -⟩
      · exact h5
      · exact absurd hf h5
  | some d =>
    right
    have hmem : q ∈ items.map Prod.fst := by
      unfold firstDir at hf
      cases hx : items.find? (fun m => m.1 = q) with
      | none => rw [hx] at hf; cases hf
      | some m =>
        have e : m.1 = q := by simpa using List.find?_some hx
        exact List.mem_map.2 ⟨m, List.mem_of_find?_eq_some hx, e⟩
    rcases h2 with rfl | ⟨t, n', F, f, H, j⟩
    · cases hmem
    · have hk : 1 ≤ t q := (j.known q).2 hmem
      obtain ⟨path, a1, a2⟩ := j.way q hk
      obtain ⟨b1, b2⟩ := isCostPath_unit.1 a2
      obtain ⟨k, b3, b4⟩ := isMinCost_unit.1 (H.isMinCost hk)
      obtain rfl : k = path.length := by omega
      refine ⟨path, b1, b4, ?_⟩
      rw [camefrom_arrives_out hT.wf hq (by rw [hf]; simp) a1, wayOut_searchable hT ho hq, cols_sq hT.toIsGrid]
      simp only [Int.ofNat_le]

/-! ### The hypotheses are met -/

-- One breadth-first traversal from (1, 1), and two of the paths.
example : (Bf.iterHash false (aroundWalls (PosTy.pos 2 2) [(1, 0)]) (1, 1) 10 >>= fun ls => keepLast (.hash none) ls.flatten >>= fun map =>
    camefromIntoPath (PosTy.pos 2 2) (.hash none) map (1, 1) (2, 0)) = .ok (.ok [.E, .N]) := by decide +kernel
example : (Bf.iterHash false (aroundWalls (PosTy.pos 2 2) [(1, 0)]) (1, 1) 10 >>= fun ls => keepLast (.hash none) ls.flatten >>= fun map =>
    camefromIntoPath (PosTy.pos 2 2) (.hash none) map (1, 1) (1, 0)) = .ok (.error .destinationUnreachable) := by decide +kernel
example : Bf.pathHash (PosTy.pos 2 2) false (aroundWalls (PosTy.pos 2 2) [(1, 0)]) (1, 1) (fun p => p == (2, 0)) 10 = .ok (.ok ((2, 0), [.E, .N])) := by
  decide +kernel
-- The items of A* for (1, 2), of C120_astar_twice_occurs, and the path to another destination, which it yields twice.
example : (AstarIter.new (MapImpl.hash 0) (0, 0) >>= fun it =>
      yields (AstarIter.next (PosTy.pos 2 2) (.hash 0) false (aroundWalls (PosTy.pos 2 2) []) (1, 2)) 20 it >>= fun r => keepFirst (.hash none) r.1 >>= fun map =>
    camefromIntoPath (PosTy.pos 2 2) (.hash none) map (0, 0) (0, 2)) = .ok (.ok [.S, .S]) := by decide +kernel
example : ∃ items st map, (do
      let it ← UcsIter.new (MapImpl.hash 0) (0, 0)
      yields (UcsIter.next (.hash 0) false (unitCost (aroundWalls (PosTy.pos 2 2) [(1, 0)]))) 10 it) = .ok (items, st) ∧
    keepLast (.hash none) items = .ok map ∧ ∀ dest, InGrid (PosTy.pos 2 2) dest →
      Ucs.pathHash (PosTy.pos 2 2) false (unitCost (aroundWalls (PosTy.pos 2 2) [(1, 0)])) (0, 0) dest 10 =
        camefromIntoPath (PosTy.pos 2 2) (.hash none) map (0, 0) dest := by
  have hT : (PosTy.pos 2 2).Searchable := PosTy.pos_searchable (by decide) (by decide) (.inl rfl)
  have hgo : Adjacent (PosTy.pos 2 2) (aroundWalls (PosTy.pos 2 2) [(1, 0)]) := aroundWalls_adjacent _ _
  have ho : InGrid (PosTy.pos 2 2) (0, 0) := by unfold InGrid; decide
  exact C150_ucs (PosTy.pos 2 2) hT _ (.inr (.inl rfl)) _ (.inr (.inl rfl)) _ (.inr (.inl rfl)) false _ (unitCost_adjacent hgo) (unitCost_usize _)
    (unitCost_enter _) (0, 0) ho (unitCost_below hT hgo ho).noOverflow 10 (by decide)

end Sqrid
