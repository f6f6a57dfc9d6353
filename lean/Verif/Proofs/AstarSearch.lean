import Verif.Proofs.BestFirstYield
/-! The outcome of `astar::search_path`. -/

namespace Sqrid

open Spec

section
variable {T : PosTy} {go : GoFn} {D : Bool} {p q : P2}

/-- With unit costs the cost is the length. -/
theorem isCostPath_unit {ds : List Dir} {n : Int} : IsCostPath (unitCost go) D p ds q n ↔ IsPath go D p ds q ∧ n = ds.length := by
  have key : ∀ ds p q, follow go p ds = some q → pathCost (unitCost go) p ds = some (ds.length : Int) := by
    intro ds
    induction ds with
    | nil => intro p q _; rfl
    | cons d ds ih =>
      intro p q h
      simp only [follow] at h
      simp only [pathCost, unitCost]
      cases hg : go p d with
      | none => rw [hg] at h; cases h
      | some r =>
        rw [hg] at h
        simp only [Option.map_some]
        have := ih r q h
        rw [this]
        simp only [Option.map_some, List.length_cons]
        congr 1
        push_cast
        omega
  unfold IsCostPath
  rw [dropCost_unitCost]
  constructor
  · rintro ⟨h1, h2⟩
    refine ⟨h1, ?_⟩
    rw [key ds p q h1.2] at h2
    injection h2 with h2
    exact h2.symm
  · rintro ⟨h1, rfl⟩
    exact ⟨h1, key ds p q h1.2⟩

theorem isMinCost_unit {n : Int} : IsMinCost (unitCost go) D p q n ↔ ∃ k : Nat, n = k ∧ IsDist go D p q k := by
  constructor
  · rintro ⟨⟨ds, hds⟩, hmin⟩
    rw [isCostPath_unit] at hds
    refine ⟨ds.length, hds.2, ⟨ds, hds.1, rfl⟩, fun ds' hds' => ?_⟩
    have := hmin ds' ds'.length (isCostPath_unit.2 ⟨hds', rfl⟩)
    omega
  · rintro ⟨k, rfl, ⟨ds, h1, h2⟩, hmin⟩
    refine ⟨⟨ds, isCostPath_unit.2 ⟨h1, by omega⟩⟩, fun ds' m hm => ?_⟩
    rw [isCostPath_unit] at hm
    have := hmin ds' hm.1
    omega

theorem unit_inGrid (hgo : StaysIn T go) (hp : InGrid T p) : ∀ ds q n, IsCostPath (unitCost go) D p ds q n → InGrid T q := by
  intro ds q n h
  exact isPath_inGrid hgo hp (isCostPath_unit.1 h).1

theorem unit_adjacent (hgo : Adjacent T go) : Adjacent T (dropCost (unitCost go)) := by rw [dropCost_unitCost]; exact hgo

theorem l1_step {p dest : P2} {d : Dir} (hd : Allowed false d) : l1 p dest ≤ 1 + l1 (neighbour p d) dest := by
  rcases hd with hd | hd
  · cases hd
  · cases d <;> simp [unit] at hd <;> simp only [l1, neighbour, unit] <;> omega

theorem l1_step' {p q : P2} {d : Dir} (hd : Allowed false d) : l1 p (neighbour q d) ≤ l1 p q + 1 := by
  rcases hd with hd | hd
  · cases hd
  · cases d <;> simp [unit] at hd <;> simp only [l1, neighbour, unit] <;> omega

/-- Without diagonals the Manhattan distance is a consistent heuristic. -/
theorem astar_consistent (hgo : Adjacent T go) (hp : InGrid T p) (dest : P2) : Consistent (unitCost go) false p (fun q => l1 q dest) := by
  intro ds n u d r w h1 h2
  have hu := unit_inGrid hgo.staysIn hp _ _ _ h1
  obtain ⟨h3, rfl⟩ := unitCost_some.1 h2.2
  rw [(hgo u d r hu h3).2]
  exact l1_step h2.1

theorem l1_le_path (hgo : Adjacent T go) (hp : InGrid T p) {ds : List Dir} (h : IsPath go false p ds q) : l1 p q ≤ ds.length := by
  induction ds using List.reverseRecOn generalizing q with
  | nil => have := h.2; injection this with e; subst e; simp [l1]
  | append_singleton ds d ih =>
    obtain ⟨r, h1, h2, h3⟩ := isPath_concat h
    have := ih h1
    rw [(hgo r d q (isPath_inGrid hgo.staysIn hp h1) h3).2]
    have := l1_step' (p := p) (q := r) h2
    simp only [List.length_append, List.length_singleton]
    push_cast
    omega

/-- If no path is cheaper than the limit, there is no path. -/
theorem not_reachable_of_limit [Target] {L : List P2} (hL : ∀ q, Reachable go D p q → q ∈ L) (hlen : (L.length : Int) ≤ usizeMax)
    (h : ∀ ds n, IsCostPath (unitCost go) D p ds q n → usizeMax ≤ n) : ¬ Reachable go D p q := by
  intro hr
  obtain ⟨n, hn⟩ := reachable_iff_isDist.1 hr
  have h1 := isDist_lt_list hL hn
  obtain ⟨⟨ds, h2, h3⟩, -⟩ := hn
  have h4 := h ds ds.length (isCostPath_unit.2 ⟨h2, rfl⟩)
  omega

end

/-- `camefrom_into_path` on the map of a search. -/
theorem camefrom_of_inv [Target] {T : PosTy} (hT : T.WF) {go : WGo} {D : Bool} {INF : Int} {orig dest : P2} {K : P2 → Prop} {f : P2 → Option Dir} {s : BSt}
    (hgo : Adjacent T (dropCost go)) (hG : ∀ ds q n, IsCostPath go D orig ds q n → InGrid T q) (H : GInv go D INF orig K f s) (hK : K dest) :
    ∃ o, camefromIntoPath T (MapImpl.ideal none) f orig dest = wayOut T orig dest o ∧
      ((∃ path, o = some path ∧ Arrives T f orig dest path ∧ IsPath (dropCost go) D orig path dest) ∨
      (o = none ∧ ∀ path, ¬ Arrives T f orig dest path)) := by
  have hd : InGrid T dest := by
    obtain ⟨ds, hds⟩ := H.walk dest (H.fin dest hK)
    exact hG _ _ _ hds
  have hm : f dest ≠ none := by
    obtain ⟨d, h1, -⟩ := H.from_some dest hK
    rw [h1]; simp
  by_cases h : ∃ path, Arrives T f orig dest path
  · obtain ⟨path, h⟩ := h
    exact ⟨some path, camefrom_arrives_out hT hd hm h, .inl ⟨path, rfl, h, H.arrives_path hgo hG h hK⟩⟩
  · have h' : ∀ path, ¬ Arrives T f orig dest path := fun path hp => h ⟨path, hp⟩
    exact ⟨none, camefrom_circle_out hT hd hm h' (fun n hn => H.not_stuck hgo hG hK hn), .inr ⟨rfl, h'⟩⟩

section
variable {T : PosTy} {go : GoFn}

theorem reach_of_cost {D : Bool} {orig : P2} {L : List P2} (hL : ∀ q, Reachable go D orig q → q ∈ L) :
    ∀ ds q n, IsCostPath (unitCost go) D orig ds q n → q ∈ L := fun ds q _ h => hL q ⟨ds, (isCostPath_unit.1 h).1⟩

/-- The outcome of the search in every position type, up to the arithmetic of the way back, where the arithmetic of the loop is exact. -/
theorem Astar.searchPath_out [Target] (hT : T.WF) (D : Bool) {orig dest : P2} (hgo : Adjacent T go) (ho : InGrid T orig)
    {L : List P2} (hL : ∀ q, Reachable go D orig q → q ∈ L) (fuel : Nat) (hfuel : 2 * (L.length * L.length) + 1 < fuel)
    (heq : Astar.searchMapmov T (MapImpl.ideal none) (MapImpl.ideal 0) D go orig dest fuel =
      BSt.search (unitCost go) (fun q => l1 q dest) D dest fuel (BSt.init usizeMax orig) (fun _ => none)) :
    ((∀ ds n, IsCostPath (unitCost go) D orig ds dest n → usizeMax ≤ n) ∧
      Astar.searchPath T (MapImpl.ideal none) (MapImpl.ideal 0) D go orig dest fuel = .ok (.error .destinationUnreachable)) ∨
    (Reachable go D orig dest ∧ ∃ o, (∀ path, o = some path → IsPath go D orig path dest ∧ path.length < L.length) ∧
      Astar.searchPath T (MapImpl.ideal none) (MapImpl.ideal 0) D go orig dest fuel = wayOut T orig dest o) := by
  obtain ⟨r, h1, h2⟩ := BSt.search_general (L := L) (go := go) (D := D) (h := fun q => l1 q dest) (dest := dest) usizeMax_pos hL fuel
    (GInv.init _ _ usizeMax_pos _ _) (UInv.init usizeMax_pos (hL orig ⟨[], isPath_nil⟩)) (fun h => h)
    (Nat.lt_of_le_of_lt (uMeasure_init L _ _) hfuel) (f := fun _ => none)
  rw [← heq] at h1
  rw [Astar.searchPath_of_mapmov h1]
  cases r with
  | error e => exact .inl ⟨h2.2, by rw [h2.1]⟩
  | ok f =>
    obtain ⟨K, s, H, hK⟩ := h2
    have hG := unit_inGrid (D := D) hgo.staysIn ho
    have hreach : ∀ q, K q → Reachable go D orig q := fun q hq => by
      obtain ⟨ds, hds⟩ := H.walk q (H.fin q hq)
      exact ⟨ds, (isCostPath_unit.1 hds).1⟩
    refine .inr ⟨hreach dest hK, ?_⟩
    obtain ⟨o, a1, a2⟩ := camefrom_of_inv hT (unit_adjacent hgo) hG H hK
    refine ⟨o, fun path ho => ?_, a1⟩
    rcases a2 with ⟨path', rfl, b1, b2⟩ | ⟨rfl, -⟩
    · injection ho with ho
      subst ho
      rw [dropCost_unitCost] at b2
      exact ⟨b2, b1.length_lt_list (H.back_step (unit_adjacent hgo) hG) (fun q hq => hL q (hreach q hq)) hK⟩
    · cases ho

/-- The same without diagonals. -/
theorem Astar.searchPath_straight_out [Target] (hT : T.WF) {orig dest : P2} (hgo : Adjacent T go) (ho : InGrid T orig)
    {L : List P2} (hL : ∀ q, Reachable go false orig q → q ∈ L) (fuel : Nat) (hfuel : 8 * L.length + 1 < fuel)
    (heq : Astar.searchMapmov T (MapImpl.ideal none) (MapImpl.ideal 0) false go orig dest fuel =
      BSt.search (unitCost go) (fun q => l1 q dest) false dest fuel (BSt.init usizeMax orig) (fun _ => none)) :
    ((∀ ds n, IsCostPath (unitCost go) false orig ds dest n → usizeMax ≤ n) ∧
      Astar.searchPath T (MapImpl.ideal none) (MapImpl.ideal 0) false go orig dest fuel = .ok (.error .destinationUnreachable)) ∨
    (∃ path, IsPath go false orig path dest ∧ path.length < L.length ∧
      (∀ n, IsDist go false orig dest n → (n : Int) = l1 orig dest → path.length = n) ∧
      Astar.searchPath T (MapImpl.ideal none) (MapImpl.ideal 0) false go orig dest fuel = wayOut T orig dest (some path)) := by
  have hG := unit_inGrid (D := false) hgo.staysIn ho
  have hcons := astar_consistent hgo ho dest
  have hadj := unit_adjacent hgo
  obtain ⟨r, h1, h2⟩ := BSt.search_init (L := L) (INF := usizeMax) usizeMax_pos (unitCost_nonneg go) hcons (dest := dest)
    (reach_of_cost hL) hfuel (fun _ => none)
  rw [← heq] at h1
  rw [Astar.searchPath_of_mapmov h1]
  cases r with
  | error e => exact .inl ⟨h2.2, by rw [h2.1]⟩
  | ok f =>
    obtain ⟨t, n, F, s, H, ht, hF⟩ := h2
    right
    simp only
    obtain ⟨path, b1, b2⟩ := H.arrives hadj hG dest ht
    have hlt := b1.length_lt_list (H.g.back_step hadj hG) (fun q hq => by
      obtain ⟨ds, hds⟩ := H.g.walk q (H.g.fin q hq)
      exact reach_of_cost hL _ _ _ hds) ht
    rw [dropCost_unitCost] at b2
    refine ⟨path, b2, hlt, fun k hk hkl => ?_, ?_⟩
    · -- every recorded step is on a shortest path
      have hmin := H.isMinCost ht
      have hck : s.c dest = k := isMinCost_unique hmin (isMinCost_unit.2 ⟨k, rfl, hk⟩)
      have hF' : F = l1 orig dest := by
        rw [hF, hck, hkl]
        simp [l1]
      have hlow : ∀ u, 1 ≤ t u → l1 orig dest ≤ s.c u + l1 u dest := by
        intro u hu
        obtain ⟨ds, hds⟩ := H.g.walk u (H.g.fin u hu)
        rw [isCostPath_unit] at hds
        have := l1_le_path hgo ho hds.1
        have h3 : l1 orig dest ≤ l1 orig u + l1 u dest := by simp only [l1]; omega
        omega
      obtain ⟨path', c1, c2⟩ := H.arrives_tight hadj hG (by
        intro q d u w hq hne hf hu he hle
        have h3 := hlow q hq
        have h4 := H.closed u hu _ _ _ he
        omega) dest ht
      rw [b1.unique c1]
      have := (isCostPath_unit.1 c2).2
      omega
    · obtain ⟨o, a1, ⟨path', rfl, a2, -⟩ | ⟨-, a2⟩⟩ := camefrom_of_inv hT hadj hG H.g ht
      · rw [a1, b1.unique a2]
      · exact absurd b1 (a2 _)

theorem covers (hgo : StaysIn T go) {D : Bool} {orig : P2} (ho : InGrid T orig) : ∀ q, Reachable go D orig q → q ∈ allPositions T true :=
  fun _ ⟨_, hds⟩ => PosTy.mem_allPositions.2 (isPath_inGrid hgo ho hds)

theorem cells_lt [Target] (hT : T.Searchable) : ((allPositions T true).length : Int) ≤ usizeMax := by
  have h4 := hT.room
  have h5 : ((T.nx * T.ny : Nat) : Int) = (T.X.MAX + 1) * (T.Y.MAX + 1) := by push_cast; rw [hT.nx_eq, hT.ny_eq]
  have hx := hT.xmax0
  have hy := hT.ymax0
  rw [usizeMax_eq, PosTy.allPositions_length]
  omega

theorem Astar.searchPath_general [Target] (hT : T.Searchable) (D : Bool) {orig dest : P2} (hgo : StaysIn T go) (ho : InGrid T orig) (hd : InGrid T dest)
    (fuel : Nat) (hfuel : 2 * ((T.nx * T.ny) * (T.nx * T.ny)) + 1 < fuel) :
    ∃ r, Astar.searchMapmov T (MapImpl.ideal none) (MapImpl.ideal 0) D go orig dest fuel = .ok r ∧
      GAnswer (unitCost go) D usizeMax orig dest r := by
  rw [Astar.searchMapmov_eq hT hgo ho hd D fuel]
  refine BSt.search_general (L := allPositions T true) usizeMax_pos (covers hgo ho) fuel (GInv.init _ _ usizeMax_pos _ _)
    (UInv.init usizeMax_pos (PosTy.mem_allPositions.2 ho)) (fun h => h) ?_
  refine Nat.lt_of_le_of_lt (uMeasure_init _ _ _) ?_
  rw [PosTy.allPositions_length]
  exact hfuel

/-- The outcome in both modes. -/
theorem Astar.searchPath_spec [Target] (hT : T.Searchable) (D : Bool) {orig dest : P2} (hgo : Adjacent T go) (ho : InGrid T orig) (hd : InGrid T dest)
    (fuel : Nat) (hfuel : 2 * ((T.nx * T.ny) * (T.nx * T.ny)) + 1 < fuel) :
    (¬ Reachable go D orig dest ∧
      Astar.searchPath T (MapImpl.ideal none) (MapImpl.ideal 0) D go orig dest fuel = .ok (.error .destinationUnreachable)) ∨
    (∃ path, IsPath go D orig path dest ∧ path.length ≤ T.nx * T.nx ∧
      Astar.searchPath T (MapImpl.ideal none) (MapImpl.ideal 0) D go orig dest fuel = .ok (.ok path)) ∨
    (Reachable go D orig dest ∧ Astar.searchPath T (MapImpl.ideal none) (MapImpl.ideal 0) D go orig dest fuel = .ok (.error .loop)) := by
  rcases Astar.searchPath_out hT.wf D hgo ho (covers hgo.staysIn ho) fuel (by rwa [PosTy.allPositions_length])
    (Astar.searchMapmov_eq hT hgo.staysIn ho hd D fuel) with ⟨h1, h2⟩ | ⟨h1, o, h2, h3⟩
  · exact .inl ⟨not_reachable_of_limit (covers hgo.staysIn ho) (cells_lt hT) h1, h2⟩
  · rw [h3, wayOut_searchable hT ho hd]
    cases o with
    | none => exact .inr (.inr ⟨h1, rfl⟩)
    | some path =>
      simp only
      by_cases hl : path.length ≤ T.nx * T.nx
      · exact .inr (.inl ⟨path, (h2 _ rfl).1, hl, by rw [if_pos hl]⟩)
      · exact .inr (.inr ⟨h1, by rw [if_neg hl]⟩)

/-- The outcome without diagonals. -/
theorem Astar.searchPath_straight [Target] (hT : T.Searchable) {orig dest : P2} (hgo : Adjacent T go) (ho : InGrid T orig) (hd : InGrid T dest)
    (fuel : Nat) (hfuel : 8 * (T.nx * T.ny) + 1 < fuel) :
    (¬ Reachable go false orig dest ∧
      Astar.searchPath T (MapImpl.ideal none) (MapImpl.ideal 0) false go orig dest fuel = .ok (.error .destinationUnreachable)) ∨
    (∃ path, IsPath go false orig path dest ∧ path.length < T.nx * T.ny ∧
      (∀ n, IsDist go false orig dest n → (n : Int) = l1 orig dest → path.length = n) ∧
      Astar.searchPath T (MapImpl.ideal none) (MapImpl.ideal 0) false go orig dest fuel =
        if path.length ≤ T.nx * T.nx then .ok (.ok path) else .ok (.error .loop)) := by
  rcases Astar.searchPath_straight_out hT.wf hgo ho (covers hgo.staysIn ho) fuel (by rwa [PosTy.allPositions_length])
    (Astar.searchMapmov_eq hT hgo.staysIn ho hd false fuel) with ⟨h1, h2⟩ | ⟨path, h1, h2, h3, h4⟩
  · exact .inl ⟨not_reachable_of_limit (covers hgo.staysIn ho) (cells_lt hT) h1, h2⟩
  · rw [PosTy.allPositions_length] at h2
    refine .inr ⟨path, h1, h2, h3, ?_⟩
    rw [h4, wayOut_searchable hT ho hd]
    simp only
    split <;> rfl

end

end Sqrid
