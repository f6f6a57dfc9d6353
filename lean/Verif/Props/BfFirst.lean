import Verif.Proofs.BfLex
import Verif.Props.BfOrder
/-!
# Which of the shortest paths the breadth-first search returns: C142

C52 says that the path is a shortest one. Here it is which one: the first in the order of a dictionary.
-/

namespace Sqrid

-- Statements that do not mention a target are about a debug build for a 64-bit machine.
attribute [local instance] debug64

open Spec

theorem walkPath_getElem {T : PosTy} (hT : T.WF) (ds : List Dir) : ∀ {p : P2} {l : List P2}, InGrid T p → walkPath T p ds = some l →
    ∀ (i : Nat) (h : i < l.length), l[i] = (ds.take (i + 1)).foldl neighbour p := by
  induction ds with
  | nil => intro p l _ h i hi; injection h with h; subst h; simp at hi
  | cons d ds ih =>
    intro p l hp h i hi
    simp only [walkPath] at h
    rw [PosTy.addDir_eq hT p hp] at h
    by_cases hv : T.Valid (neighbour p d)
    · rw [if_pos hv] at h
      simp only at h
      cases hl : walkPath T (neighbour p d) ds with
      | none => rw [hl] at h; cases h
      | some l' =>
        rw [hl] at h
        injection h with h
        subst h
        cases i with
        | zero => simp
        | succ i =>
          simp only [List.getElem_cons_succ, List.take_succ_cons, List.foldl_cons]
          exact ih hv hl i _
    · rw [if_neg hv] at h
      cases h

/-- In each layer of the traversal, the recorded paths are the first ones. -/
theorem Bf.lexed [Target] {T : PosTy} (hT : T.IsGrid) {iter} (hiter : Bf.IsIter T iter) {D : Bool} {go : GoFn} (hgo : Adjacent T go) {orig : P2}
    (ho : InGrid T orig) {fuel : Nat} (hfuel : cols T * rows T < (fuel : Int)) {ls : List (List (P2 × Dir))} (hls : iter D go orig fuel = .ok ls) :
    ∀ k l, ls[k]? = some l → Lexed go D orig ls (k + 1) (l.map Prod.fst) := by
  obtain ⟨ls', h1, -, h2, h3⟩ := C80_order T hT iter hiter D go hgo.staysIn orig ho fuel hfuel
  rw [hls] at h1
  injection h1 with h1
  subst h1
  obtain ⟨ls', h1, h4, -, -⟩ := Bf.iterAll_layers D hgo.staysIn ho fuel (by have := hT.cells_eq; omega)
  rw [← hiter.eq hT hgo.staysIn ho fuel, hls] at h1
  injection h1 with h1
  subst h1
  have hd : ∀ {k : Nat} {l : List (P2 × Dir)} {q : P2} {d : Dir}, ls[k]? = some l → (q, d) ∈ l → IsDist go D orig q (k + 1) := fun hk hm =>
    (inLayer_iff hgo ho).1 (((h4 _ _ hk).2.mem _).1 ⟨_, hm⟩)
  have honce : ∀ (k : Nat) (l : List (P2 × Dir)), ls[k]? = some l → ∀ q d d', (q, d) ∈ l → (q, d') ∈ ls.flatten → d = d' := by
    intro k l hk q d d' hm hm'
    obtain ⟨l', hl', hm'⟩ := List.mem_flatten.1 hm'
    obtain ⟨j, hj, rfl⟩ := List.mem_iff_getElem.1 hl'
    have e := isDist_unique (hd hk hm) (hd (List.getElem?_eq_getElem hj) hm')
    obtain rfl : k = j := by omega
    rw [List.getElem?_eq_getElem hj] at hk
    injection hk with hk
    subst hk
    have hnd := (h4 k _ (List.getElem?_eq_getElem hj)).2.nodup
    exact congrArg Prod.snd (List.inj_on_of_nodup_map hnd hm hm' rfl)
  intro k
  induction k with
  | zero =>
    intro l hl
    have e : l = firstOf [] (stepsOut go D [orig]) := by rw [← h2, hl]; rfl
    refine Lexed.step hgo ho (n := 0) (ps := [orig]) ?_ (by simpa using ho) e ?_ (honce 0 l hl)
    · intro ps1 u ps2 w ds q _ _ _ hw _ hds _
      rw [List.length_eq_zero_iff] at hw hds
      exact .inl (hw.trans hds.symm)
    · intro ds q d r hds hdl _ _ _
      rw [List.length_eq_zero_iff] at hdl
      subst hdl
      have := hds.2
      simp only [follow, Option.some.injEq] at this
      simp [this]
  | succ k ih =>
    intro l hl
    obtain ⟨hlen, -⟩ := List.getElem?_eq_some_iff.1 hl
    have hprev : ls[k]? = some ls[k] := List.getElem?_eq_getElem (by omega)
    have e := h3 k _ hprev
    rw [hl, Option.getD_some] at e
    refine Lexed.step hgo ho (ih _ hprev) ?_ e ?_ (honce (k + 1) l hl)
    · intro p hp
      obtain ⟨m, hm, rfl⟩ := List.mem_map.1 hp
      exact isDist_inGrid hgo.staysIn ho (hd hprev hm)
    · intro ds q d r hds hdl hd' hg hr
      obtain ⟨⟨r, d2⟩, hm, rfl⟩ := List.mem_map.1 hr
      have hr := hd hl hm
      obtain ⟨n, hn⟩ := reachable_iff_isDist.1 ⟨ds, hds⟩
      have h5 := hn.2 ds hds
      have h6 := isDist_le_edge hn ⟨d, hd', hg⟩ hr
      obtain rfl : n = k + 1 := by omega
      obtain ⟨d3, hm3⟩ := ((h4 k _ hprev).2.mem q).2 ((inLayer_iff hgo ho).2 hn)
      exact List.mem_map.2 ⟨_, hm3, rfl⟩

/-! ## C142 -/

/-- C142. Any path to a goal other than the origin is longer than the returned one, or of the same length and after it in the order of a dictionary in which the
directions are sorted clockwise from north, or it is the returned one. -/
theorem C142_first [Target] (T : PosTy) (hT : T.Searchable) (bfs) (hbfs : Bf.IsSearch T bfs) (D : Bool) (go : Int × Int → Dir → Option (Int × Int))
    (hgo : Adjacent T go) (orig : Int × Int) (ho : InGrid T orig) (found : Int × Int → Bool) (fuel : Nat) (dest : Int × Int) (path : List Dir)
    (h : bfs D go orig found fuel = .ok (.ok (dest, path))) (q : Int × Int) (hq : found q = true) (hne : q ≠ orig) (ds : List Dir)
    (hds : IsPath go D orig ds q) :
    path.length < ds.length ∨ path.length = ds.length ∧ (path = ds ∨ ComesBefore path ds) := by
  obtain ⟨hdist, hmin⟩ := C52_shortest T hT bfs hbfs D go hgo orig ho found fuel dest path h
  obtain ⟨-, hpath⟩ := C51_valid_path T hT bfs hbfs D go hgo orig ho found fuel dest path h
  rcases Nat.lt_or_ge path.length ds.length with hlt | hge
  · exact .inl hlt
  have hle := hmin q ds hq hne hds
  have hlen : path.length = ds.length := by omega
  refine .inr ⟨hlen, ?_⟩
  obtain ⟨fuel, hfuel, h⟩ := hbfs.more (cols T * rows T) h
  have hiter : Bf.IsIter T Bf.iterHash := .inr (.inl rfl)
  obtain ⟨ls, h1, h2⟩ := C81_first_goal T hT _ hiter bfs hbfs D go hgo orig ho found fuel hfuel
  have hlex := Bf.lexed hT.toIsGrid hiter hgo ho hfuel h1
  obtain ⟨ls', h1', h4, -, -⟩ := Bf.iterAll_layers D hgo.staysIn ho fuel (by have := hT.cells_eq; omega)
  rw [← hiter.eq hT.toIsGrid hgo.staysIn ho fuel, h1] at h1'
  injection h1' with h1'
  subst h1'
  cases hf : ls.flatten.find? (fun m => found m.1) with
  | none => rw [hf] at h2; simp only at h2; rw [h2] at h; cases h
  | some m =>
    obtain ⟨dest', d⟩ := m
    rw [hf] at h2
    simp only at h2
    rcases h2 with h2 | ⟨path', l, h2, h5, h6, h7, h8⟩
    · rw [h2] at h; cases h
    rw [h2] at h
    injection h with h
    injection h with h
    injection h with e1 e2
    subst e1 e2
    have hrec : Recorded ls orig path' := by
      intro w' x bs e
      have hi : w'.length < path'.length := by rw [e]; simp
      have := h8 w'.length (by omega) hi
      rw [walkPath_getElem hT.wf _ ho h5] at this
      have e2 : path'.take (w'.length + 1) = w' ++ [x] := by
        rw [e, List.take_append, List.take_of_length_le (by omega), show w'.length + 1 - w'.length = 1 by omega]
        rfl
      have e3 : path'[w'.length] = x := by simp [e]
      rwa [e2, e3] at this
    rw [List.find?_flatten, List.findSome?_eq_some_iff] at hf
    obtain ⟨ls1, layer, ls2, f1, f2, f3⟩ := hf
    rw [List.find?_eq_some_iff_append] at f2
    obtain ⟨-, as, bs, f4, f5⟩ := f2
    have hk : ls[ls1.length]? = some layer := by rw [f1]; simp
    have hdk := (inLayer_iff hgo ho).1 (((h4 _ _ hk).2.mem dest').1 ⟨d, by rw [f4]; simp⟩)
    have hpl := isDist_unique hdist hdk
    have hqd : IsDist go D orig q (ls1.length + 1) := ⟨⟨ds, hds, by omega⟩, fun ds' hds' => by
      have := hmin q ds' hq hne hds'
      omega⟩
    obtain ⟨d2, hm2⟩ := ((h4 _ _ hk).2.mem q).2 ((inLayer_iff hgo ho).2 hqd)
    refine hlex _ _ hk (as.map Prod.fst) dest' (bs.map Prod.fst) path' ds q (by rw [f4]; simp) hpath hrec hpl hds (by omega) ?_
    rw [f4] at hm2
    rcases List.mem_append.1 hm2 with h' | h'
    · have := f5 _ h'
      simp [hq] at this
    · have := List.mem_map_of_mem (f := Prod.fst) h'
      simpa using this

theorem ComesBefore.asymm {as bs : List Dir} (h : ComesBefore as bs) (h' : as = bs ∨ ComesBefore bs as) : False := by
  obtain ⟨pre, a, as', b, bs', rfl, rfl, h⟩ := h
  rcases h' with h' | ⟨pre', b', bs'', a', as'', h1, h2, h'⟩
  · have := (List.append_cancel_left h')
    injection this with e
    subst e
    omega
  · induction pre generalizing pre' with
    | nil =>
      cases pre' with
      | nil =>
        simp only [List.nil_append, List.cons.injEq] at h1 h2
        obtain ⟨rfl, -⟩ := h1
        obtain ⟨rfl, -⟩ := h2
        omega
      | cons c pre' =>
        simp only [List.nil_append, List.cons_append, List.cons.injEq] at h1 h2
        obtain ⟨rfl, -⟩ := h1
        obtain ⟨rfl, -⟩ := h2
        omega
    | cons c pre ih =>
      cases pre' with
      | nil =>
        simp only [List.nil_append, List.cons_append, List.cons.injEq] at h1 h2
        obtain ⟨rfl, -⟩ := h1
        obtain ⟨rfl, -⟩ := h2
        omega
      | cons c' pre' =>
        simp only [List.cons_append, List.cons.injEq] at h1 h2
        exact ih pre' h1.2 h2.2

/-- C142. Each step goes in the first direction, clockwise from north, that leads to a goal in the steps that are left: from any earlier direction every way to a goal has
more steps. -/
theorem C142_step [Target] (T : PosTy) (hT : T.Searchable) (bfs) (hbfs : Bf.IsSearch T bfs) (D : Bool) (go : Int × Int → Dir → Option (Int × Int))
    (hgo : Adjacent T go) (orig : Int × Int) (ho : InGrid T orig) (found : Int × Int → Bool) (fuel : Nat) (dest : Int × Int) (as : List Dir) (d : Dir) (bs : List Dir)
    (h : bfs D go orig found fuel = .ok (.ok (dest, as ++ d :: bs))) (p : Int × Int) (hp : follow go orig as = some p) (d' : Dir) (hd' : Allowed D d')
    (hlt : (clockwise true).idxOf d' < (clockwise true).idxOf d) (r : Int × Int) (hr : go p d' = some r) (q : Int × Int) (hq : found q = true) (hne : q ≠ orig)
    (ds : List Dir) (hds : IsPath go D r ds q) : bs.length < ds.length := by
  obtain ⟨-, hpath⟩ := C51_valid_path T hT bfs hbfs D go hgo orig ho found fuel dest _ h
  have h1 : IsPath go D orig as p := ⟨fun x hx => hpath.1 x (by simp [hx]), hp⟩
  have h2 := isPath_append h1 (isPath_append (isPath_single hd' hr) hds)
  rcases C142_first T hT bfs hbfs D go hgo orig ho found fuel dest _ h q hq hne _ h2 with h3 | ⟨-, h3⟩
  · simp only [List.length_append, List.length_cons, List.length_nil] at h3
    omega
  · refine (ComesBefore.asymm (as := as ++ ([d'] ++ ds)) (bs := as ++ d :: bs) ⟨as, d', ds, d, bs, rfl, rfl, hlt⟩ ?_).elim
    exact h3.elim (fun h => .inl h.symm) .inr

/-- C142. This determines the path: a shortest path to a goal, each step of which goes in the first such direction, is the one that is returned, if one is. -/
theorem C142_exact [Target] (T : PosTy) (hT : T.Searchable) (bfs) (hbfs : Bf.IsSearch T bfs) (D : Bool) (go : Int × Int → Dir → Option (Int × Int))
    (hgo : Adjacent T go) (orig : Int × Int) (ho : InGrid T orig) (found : Int × Int → Bool) (fuel : Nat) (dest : Int × Int) (path : List Dir)
    (h : bfs D go orig found fuel = .ok (.ok (dest, path))) (q : Int × Int) (hq : found q = true) (hne : q ≠ orig) (way : List Dir)
    (hway : IsPath go D orig way q) (hmin : ∀ q' ds, found q' = true → q' ≠ orig → IsPath go D orig ds q' → way.length ≤ ds.length)
    (hfirst : ∀ as d bs p d' r q' ds, way = as ++ d :: bs → follow go orig as = some p → Allowed D d' → (clockwise true).idxOf d' < (clockwise true).idxOf d →
      go p d' = some r → found q' = true → q' ≠ orig → IsPath go D r ds q' → bs.length < ds.length) : path = way := by
  obtain ⟨hf, hpath⟩ := C51_valid_path T hT bfs hbfs D go hgo orig ho found fuel dest _ h
  have hdo : dest ≠ orig := by
    obtain ⟨fuel, hfuel, h⟩ := hbfs.more (cols T * rows T) h
    rw [hbfs.eq hT hgo.staysIn ho] at h
    rcases Bf.searchPath_spec hT D found hgo ho fuel (by have := hT.cells_eq; omega) with
      ⟨-, h2⟩ | ⟨dest', n, h1, h2, h3, ⟨-, path', h4, h5, h6⟩ | ⟨-, h6⟩⟩
    · rw [h2] at h; cases h
    · rw [h6] at h
      injection h with h
      injection h with h
      injection h with e1 e2
      subst e1
      rintro rfl
      exact absurd (h2.2 [] isPath_nil) (by simp)
    · rw [h6] at h; cases h
  rcases C142_first T hT bfs hbfs D go hgo orig ho found fuel dest path h q hq hne way hway with h3 | ⟨h3, h4 | h4⟩
  · have := hmin dest path hf hdo hpath
    omega
  · exact h4
  · obtain ⟨as, a, as', b, bs', rfl, rfl, hlt⟩ := h4
    have h5 : ∃ p, IsPath go D orig as p ∧ IsPath go D p (a :: as') dest := by
      have h7 := hpath.2
      rw [follow_append] at h7
      cases h8 : follow go orig as with
      | none => rw [h8] at h7; cases h7
      | some p => rw [h8] at h7; exact ⟨p, ⟨fun d hd => hpath.1 d (by simp [hd]), h8⟩, fun d hd => hpath.1 d (List.mem_append_right _ hd), h7⟩
    obtain ⟨p, hp, h5⟩ := h5
    exfalso
    have h6 : ∃ r, go p a = some r ∧ IsPath go D r as' dest := by
      have h7 := h5.2
      simp only [follow] at h7
      cases h8 : go p a with
      | none => rw [h8] at h7; cases h7
      | some r => rw [h8] at h7; exact ⟨r, rfl, fun d hd => h5.1 d (by simp [hd]), h7⟩
    obtain ⟨r, hr, h7⟩ := h6
    have := hfirst as b bs' p a r dest as' rfl hp.2 (h5.1 a (by simp)) hlt hr hf hdo h7
    simp only [List.length_append, List.length_cons] at h3
    omega

/-- Of the two goals at distance 2 from (1, 1), each with two shortest paths, the one of the path N W is chosen; not W N to the same goal, nor S E and E S to the
other. -/
example : Bf.pathHash (PosTy.pos 2 2) false (aroundWalls (PosTy.pos 2 2) []) (1, 1) (fun p => p == (0, 0) || p == (2, 2)) 10 =
    .ok (.ok ((0, 0), [.N, .W])) := by decide +kernel
example : IsPath (aroundWalls (PosTy.pos 2 2) []) false (1, 1) [.E, .S] (2, 2) := ⟨by simp [Allowed, unit], by decide⟩
-- No way of one step leads from what is north, east or south of (1, 0) to (0, 0), so the second step is west.
example : aroundWalls (PosTy.pos 2 2) [] (1, 0) .E = some (2, 0) ∧ aroundWalls (PosTy.pos 2 2) [] (1, 0) .S = some (1, 1) ∧ aroundWalls (PosTy.pos 2 2) [] (1, 0) .W = some (0, 0) := by
  decide
example : ComesBefore [.N, .W] [.E, .S] := ⟨[], _, _, _, _, rfl, rfl, by decide⟩
example : ComesBefore [.N, .E, .N] [.N, .S, .N] := ⟨[.N], _, _, _, _, rfl, rfl, by decide⟩

end Sqrid
