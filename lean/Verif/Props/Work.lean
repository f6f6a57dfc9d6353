import Verif.Spec.Work
import Verif.Proofs.Work
import Verif.Props.Astar
import Verif.Props.Ucs
/-! C120: how often an iterator yields a position, and how many calls to `next` a search makes. -/

namespace Sqrid

open Spec

attribute [local instance] debug64

theorem times_eq (q : P2) (ys : List (P2 × Dir)) : times q ys = (ys.map Prod.fst).count q := by
  rw [times, List.count, List.countP_map]
  refine List.countP_congr fun m _ => ?_
  simp

theorem fan_eq (D : Bool) : (clockwise D).length = fan D := by cases D <;> rfl

/-- Steps between neighbours change the distance to the destination by one. -/
theorem astar_zigzag {T : PosTy} {go : GoFn} {p : P2} (hgo : Adjacent T go) (hp : InGrid T p) (dest : P2) :
    Zigzag (unitCost go) (fun q => l1 q dest) false p := by
  intro ds n u d r w h1 h2
  have hu := unit_inGrid hgo.staysIn hp _ _ _ h1
  obtain ⟨h3, rfl⟩ := unitCost_some.1 h2.2
  refine ⟨rfl, ?_⟩
  have hd : d ∈ clockwise false := mem_clockwise.2 h2.1
  rw [(hgo u d r hu h3).2]
  simp only [clockwise, Bool.false_eq_true, if_false, List.mem_cons, List.not_mem_nil, or_false] at hd
  simp only [l1, neighbour]
  rcases hd with rfl | rfl | rfl | rfl <;> simp only [unit] <;> omega

/-- A position that has been popped is in the list. -/
theorem CInv.known_mem {go : WGo} {h : P2 → Int} {D : Bool} {INF : Int} {orig : P2} {t : P2 → Nat} {n : Nat} {F : Int} {f : P2 → Option Dir} {s : BSt}
    (H : CInv go h D INF orig t n F f s) {L : List P2} (hL : ∀ ds q n, IsCostPath go D orig ds q n → q ∈ L) (q : P2) (hq : 1 ≤ t q) : q ∈ L := by
  obtain ⟨ds, hds⟩ := (H.isMinCost hq).1
  exact hL _ _ _ hds

/-- What both invariants say about A*. -/
def AInv (orig dest : P2) (t : P2 → Nat) (ys : List (P2 × Dir)) (s : BSt) : Prop :=
  OInv orig false (fun q => 1 ≤ t q) ys s ∧ DInv (fun q => l1 q dest) orig (fun q => 1 ≤ t q) ys s

theorem AInv.tracked {T : PosTy} {go : GoFn} {orig : P2} (hgo : Adjacent T go) (ho : InGrid T orig) (dest : P2) (INF : Int) :
    Tracked (unitCost go) (fun q => l1 q dest) false INF orig (AInv orig dest) := by
  intro t n F f s ys e rest t' n' H j hp h2 h1 H1 ht hs
  exact ⟨OInv.tracked (unitCost_nonneg go) (unit_adjacent hgo) (unit_inGrid hgo.staysIn ho) t n F f s ys e rest t' n' H j.1 hp h2 h1 H1 ht hs,
    DInv.tracked (unitCost_nonneg go) (astar_zigzag hgo ho dest) (unit_adjacent hgo) (unit_inGrid hgo.staysIn ho) t n F f s ys e rest t' n' H j.2 hp h2 h1 H1
      ht hs⟩

theorem AInv.init {T : PosTy} {go : GoFn} {orig : P2} (hgo : Adjacent T go) (ho : InGrid T orig) (dest : P2) (INF : Int) :
    AInv orig dest (upd (fun _ => 0) orig 1) [(orig, Dir.N)]
      (BSt.after (unitCost go) (fun q => l1 q dest) false (BSt.init INF orig).c (0, orig, Dir.N) []) :=
  ⟨OInv.init (unitCost_nonneg go) (unit_adjacent hgo) ho, DInv.init (unitCost_nonneg go) (astar_zigzag hgo ho dest) (unit_adjacent hgo) ho⟩

/-- C120, A*. After any number `n` of calls to `next` without diagonals: no item has been yielded twice, no position more than twice, the origin not more than
once, and thus not more than `2 N - 1` items in all, `N` the number of cells. -/
theorem C120_astar_twice [Target] (T : PosTy) (hT : T.Searchable) (C : MapImpl Int) (hC : C.Is T 0) (go : Int × Int → Dir → Option (Int × Int))
    (hgo : Adjacent T go) (orig dest : Int × Int) (ho : InGrid T orig) (hd : InGrid T dest) (n : Nat) :
    ∃ items st, (do let it ← AstarIter.new C orig; yields (AstarIter.next T C false go dest) n it) = .ok (items, st) ∧
      items.Nodup ∧ (∀ q, times q items ≤ 2) ∧ times orig items ≤ 1 ∧ (items.length : Int) ≤ 2 * (cols T * rows T) - 1 := by
  obtain ⟨R, hR⟩ := MapImpl.sim_of_is hT.toIsGrid hC
  have hL := covers (D := false) hgo.staysIn ho
  have hfit := hT.astarFits (D := false) hgo.staysIn ho hd
  obtain ⟨ys, s', h1, h2⟩ := yields_track_init (INF := usizeMax) (emb := BSt.astar) (next := AstarIter.next T (MapImpl.ideal 0) false go dest)
    usizeMax_pos (unitCost_nonneg go) (astar_consistent hgo ho dest) (AInv.tracked hgo ho dest usizeMax) (AInv.init hgo ho dest usizeMax)
    (fun s hs => AstarIter.next_none hs) (by
      intro s e rest hp hlt hm
      obtain ⟨k, hk, hk'⟩ := isMinCost_unit.1 hm
      have h1 := isDist_lt_list hL hk'
      have hr : Reachable go false orig e.2.1 := reachable_iff_isDist.2 ⟨k, hk'⟩
      refine AstarIter.next_eq false hp ⟨by omega, ?_, fun d q hd hg => ?_⟩
      · have h4 := (hfit _ hr).2
        have hl : 0 ≤ l1 e.2.1 dest := by simp only [l1]; omega
        omega
      · obtain ⟨ds, hds⟩ := hr
        have h4 := hfit q ⟨_, isPath_append hds (isPath_single hd hg)⟩
        exact ⟨h4.1, by omega⟩) n
  have hrel : Out.Rel (fun a b => a.1 = b.1 ∧ AstarIter.Rel T R a.2 b.2) (do let it ← AstarIter.new C orig; yields (AstarIter.next T C false go dest) n it)
      (.ok (ys, s'.astar)) := by
    rw [← h1, show yields (AstarIter.next T (MapImpl.ideal 0) false go dest) n (BSt.init usizeMax orig).astar =
      (AstarIter.new (MapImpl.ideal 0) orig >>= fun it => yields (AstarIter.next T (MapImpl.ideal 0) false go dest) n it) from rfl]
    refine (AstarIter.rel_new hR ho).bind fun a b hab => ?_
    exact yields_rel (Q := AstarIter.Rel T R) (fun s t h => (AstarIter.rel_next hR hgo.staysIn false dest h).mono fun a b h => ⟨h.1.1, h.2⟩) n a b hab
  revert hrel
  generalize (do let it ← AstarIter.new C orig; yields (AstarIter.next T C false go dest) n it) = x
  intro hrel
  have hcells : ((allPositions T true).length : Int) = cols T * rows T := by rw [PosTy.allPositions_length, hT.cells_eq]
  have hom : orig ∈ allPositions T true := PosTy.mem_allPositions.2 ho
  have hpos := List.length_pos_of_mem hom
  cases x with
  | ok x =>
    obtain ⟨items, st⟩ := x
    obtain ⟨e1, e2⟩ := hrel
    simp only at e1
    subst e1
    refine ⟨items, st, rfl, ?_⟩
    simp only [times_eq]
    rcases h2 with rfl | ⟨t', n', F', f', H, j⟩
    · exact ⟨List.nodup_nil, by simp, by simp, by simp only [List.length_nil]; omega⟩
    · refine ⟨(List.nodup_append.1 j.1.nodup).1, fun q => (j.2.count_le q).1, (j.2.count_le orig).2 rfl, ?_⟩
      have := j.2.length_le (H.known_mem (reach_of_cost hL)) hom
      omega
  | panic => exact hrel.elim
  | ub => exact hrel.elim
  | timeout => exact hrel.elim

/-- Going back through a map of directions ends with an answer. -/
theorem camefrom_answers [Target] {T : PosTy} (hT : T.Searchable) (f : P2 → Option Dir) {orig dest : P2} (ho : InGrid T orig) (hd : InGrid T dest) :
    ∃ r, camefromIntoPath T (MapImpl.ideal none) f orig dest = .ok r := by
  rcases camefromIntoPath_spec hT (MapImpl.ideal none) f f ho hd (fun p _ => rfl) with ⟨-, h⟩ | ⟨-, ⟨path, -, -, h⟩ | ⟨n, -, -, h⟩ | ⟨-, -, h⟩⟩ <;>
    exact ⟨_, h⟩

/-- C120, A*. Without diagonals a search answers after at most `2 N` calls to `next`. -/
theorem C120_astar_calls [Target] (T : PosTy) (hT : T.Searchable) (astar) (hastar : Astar.IsSearch T astar) (go : Int × Int → Dir → Option (Int × Int))
    (hgo : Adjacent T go) (orig dest : Int × Int) (ho : InGrid T orig) (hd : InGrid T dest) :
    ∃ r, ∀ calls : Nat, 2 * (cols T * rows T) ≤ (calls : Int) → astar false go orig dest calls = .ok r := by
  have hL := covers (D := false) hgo.staysIn ho
  have hcells : ((allPositions T true).length : Int) = cols T * rows T := by rw [PosTy.allPositions_length, hT.cells_eq]
  have hom : orig ∈ allPositions T true := PosTy.mem_allPositions.2 ho
  have hpos := List.length_pos_of_mem hom
  have key : ∃ r, Astar.searchPath T (MapImpl.ideal none) (MapImpl.ideal 0) false go orig dest (2 * (allPositions T true).length) = .ok r := by
    obtain ⟨r, hr⟩ := BSt.search_track_init (INF := usizeMax) usizeMax_pos (unitCost_nonneg go) (astar_consistent hgo ho dest)
      (AInv.tracked hgo ho dest usizeMax) (AInv.init hgo ho dest usizeMax) (B := 2 * (allPositions T true).length - 1)
      (fun t n F f s ys H j => j.2.length_le (H.known_mem (reach_of_cost hL)) hom) dest (fun _ => none) (k := 2 * (allPositions T true).length) (by omega)
    rw [Astar.searchPath_of_mapmov ((Astar.searchMapmov_eq hT hgo.staysIn ho hd false _).trans hr)]
    cases r with
    | error e => exact ⟨_, rfl⟩
    | ok f => exact camefrom_answers hT f ho hd
  obtain ⟨r, hr⟩ := key
  refine ⟨r, fun calls hc => ?_⟩
  rw [hastar.eq hT hgo.staysIn ho hd]
  exact (Astar.searchPath_below T _ _ false go orig dest (by omega)).ok hr

/-- A position yielded twice does occur: `(0, 2)`, in an open grid. -/
theorem C120_astar_twice_occurs [Target] :
    (AstarIter.new (MapImpl.hash 0) (0, 0) >>= fun it =>
      yields (AstarIter.next (PosTy.pos 2 2) (.hash 0) false (aroundWalls (PosTy.pos 2 2) []) (1, 2)) 20 it >>= fun r => .ok r.1) =
    .ok [((0, 0), .N), ((1, 0), .W), ((1, 1), .N), ((1, 2), .N), ((0, 1), .N), ((0, 2), .N), ((2, 2), .W), ((2, 1), .W), ((2, 0), .W), ((0, 2), .E)] := by
  decide_target

/-- C120, uniform-cost search. After any number `n` of calls to `next`: no item has been yielded twice, no position more often than there are directions, the
origin not more than once, and thus not more than `4 (N - 1) + 1` items in all without diagonals, `8 (N - 1) + 1` with them. -/
theorem C120_ucs_once [Target] (T : PosTy) (hT : T.Searchable) (C : MapImpl Int) (hC : C.Is T 0) (D : Bool)
    (go : Int × Int → Dir → Option ((Int × Int) × Int)) (hgo : Adjacent T (dropCost go)) (hc : UsizeCosts go) (orig : Int × Int) (ho : InGrid T orig)
    (hno : NoOverflow go D orig) (n : Nat) :
    ∃ items st, (do let it ← UcsIter.new C orig; yields (UcsIter.next C D go) n it) = .ok (items, st) ∧
      items.Nodup ∧ (∀ q, times q items ≤ fan D) ∧ times orig items ≤ 1 ∧ (items.length : Int) ≤ fan D * (cols T * rows T - 1) + 1 := by
  obtain ⟨R, hR⟩ := MapImpl.sim_of_is hT.toIsGrid hC
  have hw := hc.nonNeg
  have hG := cost_inGrid (D := D) hgo.staysIn ho
  obtain ⟨ys, s', h1, h2⟩ := yields_track_init (INF := usizeMax) (emb := BSt.ucs) (next := UcsIter.next (MapImpl.ideal 0) D go)
    usizeMax_pos hw (consistent_zero (D := D) (orig := orig) hw) (OInv.tracked hw hgo hG) (OInv.init hw hgo ho) (fun s hs => UcsIter.next_none hs)
    (fun s e rest hp hlt hm => UcsIter.next_eq hw D hp (hno.room (isMinCost_nonneg hw hm) hlt hm)) n
  have hrel : Out.Rel (fun a b => a.1 = b.1 ∧ UcsIter.Rel T R a.2 b.2) (do let it ← UcsIter.new C orig; yields (UcsIter.next C D go) n it)
      (.ok (ys, s'.ucs)) := by
    rw [← h1, show yields (UcsIter.next (MapImpl.ideal 0) D go) n (BSt.init usizeMax orig).ucs =
      (UcsIter.new (MapImpl.ideal 0) orig >>= fun it => yields (UcsIter.next (MapImpl.ideal 0) D go) n it) from rfl]
    refine (UcsIter.rel_new hR ho).bind fun a b hab => ?_
    exact yields_rel (Q := UcsIter.Rel T R) (fun s t h => (UcsIter.rel_next hR hgo.staysIn D h).mono fun a b h => ⟨h.1.1, h.2⟩) n a b hab
  revert hrel
  generalize (do let it ← UcsIter.new C orig; yields (UcsIter.next C D go) n it) = x
  intro hrel
  have hcells : ((allPositions T true).length : Int) = cols T * rows T := by rw [PosTy.allPositions_length, hT.cells_eq]
  have hom : orig ∈ allPositions T true := PosTy.mem_allPositions.2 ho
  have hpos := List.length_pos_of_mem hom
  have hn1 : 0 ≤ (fan D : Int) * (cols T * rows T - 1) := Int.mul_nonneg (by omega) (by omega)
  cases x with
  | ok x =>
    obtain ⟨items, st⟩ := x
    obtain ⟨e1, e2⟩ := hrel
    simp only at e1
    subst e1
    refine ⟨items, st, rfl, ?_⟩
    simp only [times_eq]
    rcases h2 with rfl | ⟨t', n', F', f', H, j⟩
    · exact ⟨List.nodup_nil, by simp, by simp, by simp only [List.length_nil]; omega⟩
    · refine ⟨(List.nodup_append.1 j.nodup).1, fun q => ?_, j.orig_le, ?_⟩
      · rw [← fan_eq]
        exact j.count_le q
      · have := j.length_le (H.known_mem (fun ds q n h => PosTy.mem_allPositions.2 (hG ds q n h))) hom
        rw [fan_eq] at this
        rw [← hcells]
        have e : ((fan D * ((allPositions T true).length - 1) + 1 : Nat) : Int) = fan D * (((allPositions T true).length : Int) - 1) + 1 := by
          rw [Nat.cast_add, Nat.cast_mul, Nat.cast_sub hpos]
          rfl
        omega
  | panic => exact hrel.elim
  | ub => exact hrel.elim
  | timeout => exact hrel.elim

/-- C120, uniform-cost search. A search answers after at most `4 (N - 1) + 2` calls to `next` without diagonals, `8 (N - 1) + 2` with them. -/
theorem C120_ucs_calls [Target] (T : PosTy) (hT : T.Searchable) (ucs) (hucs : Ucs.IsSearch T ucs) (D : Bool)
    (go : Int × Int → Dir → Option ((Int × Int) × Int)) (hgo : Adjacent T (dropCost go)) (hc : UsizeCosts go) (orig dest : Int × Int) (ho : InGrid T orig)
    (hd : InGrid T dest) (hno : NoOverflow go D orig) :
    ∃ r, ∀ calls : Nat, fan D * (cols T * rows T - 1) + 2 ≤ (calls : Int) → ucs D go orig dest calls = .ok r := by
  have hw := hc.nonNeg
  have hG := cost_inGrid (D := D) hgo.staysIn ho
  have hcells : ((allPositions T true).length : Int) = cols T * rows T := by rw [PosTy.allPositions_length, hT.cells_eq]
  have hom : orig ∈ allPositions T true := PosTy.mem_allPositions.2 ho
  have hpos := List.length_pos_of_mem hom
  have key : ∃ r, Ucs.searchPath T (MapImpl.ideal none) (MapImpl.ideal 0) D go orig dest (fan D * ((allPositions T true).length - 1) + 2) = .ok r := by
    obtain ⟨r, hr⟩ := BSt.search_track_init (INF := usizeMax) usizeMax_pos hw (consistent_zero (D := D) (orig := orig) hw) (OInv.tracked hw hgo hG)
      (OInv.init hw hgo ho) (B := fan D * ((allPositions T true).length - 1) + 1)
      (fun t n F f s ys H j => by
        rw [← fan_eq]
        exact j.length_le (H.known_mem (fun ds q n h => PosTy.mem_allPositions.2 (hG ds q n h))) hom) dest (fun _ => none) (Nat.lt_succ_self _)
    rw [Ucs.searchPath_of_mapmov ((Ucs.searchMapmov_eq hw hno dest _).trans hr)]
    cases r with
    | error e => exact ⟨_, rfl⟩
    | ok f => exact camefrom_answers hT f ho hd
  obtain ⟨r, hr⟩ := key
  refine ⟨r, fun calls hcl => ?_⟩
  rw [hucs.eq hT hgo.staysIn ho hd]
  refine (Ucs.searchPath_below T _ _ D go orig dest ?_).ok hr
  have e : ((fan D * ((allPositions T true).length - 1) + 2 : Nat) : Int) = fan D * (((allPositions T true).length : Int) - 1) + 2 := by
    rw [Nat.cast_add, Nat.cast_mul, Nat.cast_sub hpos]
    rfl
  rw [hcells] at e
  omega

/-- Steps into the middle of a grid of 3x3, cheaper and cheaper in the order in which the positions around it are reached. -/
def middleCost (p : Int × Int) (d : Dir) : Int :=
  if neighbour p d = (1, 1) then
    if p = (0, 0) then 40 else if p = (1, 0) then 36 else if p = (0, 1) then 32 else if p = (2, 1) then 28 else
    if p = (2, 0) then 24 else if p = (1, 2) then 20 else if p = (0, 2) then 16 else 12
  else 1

/-- A position yielded once for every direction does occur, in both modes. -/
theorem C120_ucs_fan_occurs [Target] (D : Bool) :
    (UcsIter.new (MapImpl.hash 0) (0, 0) >>= fun it =>
      yields (UcsIter.next (.hash 0) D (stepCosts (PosTy.pos 2 2) [] middleCost)) 20 it >>= fun r => .ok (times (1, 1) r.1)) = .ok (fan D) := by
  cases D <;> decide_target

example : Adjacent (PosTy.pos 2 2) (dropCost (stepCosts (PosTy.pos 2 2) [] middleCost)) := stepCosts_adjacent _ _ _

theorem middleCost_bounds (p : Int × Int) (d : Dir) : 0 ≤ middleCost p d ∧ middleCost p d ≤ 40 := by
  unfold middleCost
  repeat' split
  all_goals omega

example : UsizeCosts (stepCosts (PosTy.pos 2 2) [] middleCost) := stepCosts_usize _ _ fun p d => by
  have := middleCost_bounds p d
  have := limit_pos
  omega
example : NoOverflow (stepCosts (PosTy.pos 2 2) [] middleCost) true (0, 0) :=
  (stepCosts_below (PosTy.pos_searchable (by decide) (by decide) (.inl rfl)) _ _ (by decide) (B := 40) (by decide)
    (fun p d => (middleCost_bounds p d).2) (by decide)).noOverflow
example : (PosTy.pos 2 2).Searchable := PosTy.pos_searchable (by decide) (by decide) (.inl rfl)
example : Ucs.pathHash (PosTy.pos 2 2) false (stepCosts (PosTy.pos 2 2) [] middleCost) (0, 0) (1, 1) 34 = .ok (.ok [.S, .S, .E, .N]) := by decide +kernel
example : Astar.pathHash (PosTy.pos 2 2) false (aroundWalls (PosTy.pos 2 2) []) (0, 0) (1, 2) 18 = .ok (.ok [.E, .S, .S]) := by decide +kernel

end Sqrid
