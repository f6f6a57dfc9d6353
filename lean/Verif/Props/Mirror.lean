import Verif.Proofs.Mirror
import Verif.Props.Bf
import Verif.Props.Astar
import Verif.Props.Ucs
import Verif.Props.SearchLaws
/-! C122: mirrored, transposed and turned problems. -/

namespace Sqrid

open Spec

attribute [local instance] debug64

/-! ## C122 -/

/-- The outcomes of a breadth-first search. -/
theorem Bf.found_cases [Target] {T : PosTy} (hT : T.Searchable) {bfs} (hbfs : Bf.IsSearch T bfs) {D : Bool} {go : GoFn} (hgo : Adjacent T go) {orig : P2}
    (ho : InGrid T orig) (found : P2 → Bool) {fuel : Nat} (hfuel : cols T * rows T < (fuel : Int)) :
    ((∀ q, found q = true → q ≠ orig → ¬ Reachable go D orig q) ∧ bfs D go orig found fuel = .ok (.error .destinationUnreachable)) ∨
    ∃ n, (∃ q, found q = true ∧ q ≠ orig ∧ IsDist go D orig q n) ∧ (∀ q m, found q = true → q ≠ orig → IsDist go D orig q m → n ≤ m) ∧
      Finds (cols T) Prod.snd (bfs D go orig found fuel) n := by
  obtain ⟨h1, h2⟩ := C53_exact T hT bfs hbfs D go hgo orig ho found fuel hfuel
  by_cases hr : ∃ n q, found q = true ∧ q ≠ orig ∧ IsDist go D orig q n
  · classical
    obtain ⟨q, a1, a2, a3⟩ := Nat.find_spec hr
    have hmin : ∀ q m, found q = true → q ≠ orig → IsDist go D orig q m → Nat.find hr ≤ m := fun q m b1 b2 b3 => Nat.find_min' hr ⟨q, b1, b2, b3⟩
    refine .inr ⟨Nat.find hr, ⟨q, a1, a2, a3⟩, hmin, ?_⟩
    obtain ⟨c1, c2⟩ := h2 q _ a1 a2 a3 hmin
    unfold Finds
    split
    · rename_i hle
      obtain ⟨dest, path, h⟩ := c1 hle
      refine ⟨(dest, path), h, ?_⟩
      obtain ⟨d1, d2⟩ := C52_shortest T hT bfs hbfs D go hgo orig ho found fuel dest path h
      obtain ⟨e1, -⟩ := C51_valid_path T hT bfs hbfs D go hgo orig ho found fuel dest path h
      obtain ⟨⟨ds, f1, f2⟩, -⟩ := a3
      have h3 := d2 q ds a1 a2 f1
      have h4 : dest ≠ orig := by
        rintro rfl
        obtain ⟨fuel', hfuel', h'⟩ := hbfs.more (cols T * rows T) h
        rw [hbfs.eq hT hgo.staysIn ho] at h'
        rcases Bf.searchPath_spec hT D found hgo ho fuel' (by have := hT.cells_eq; omega) with
          ⟨-, g2⟩ | ⟨dest', n, -, g2, -, ⟨-, path', -, g5, g6⟩ | ⟨-, g6⟩⟩
        · rw [g2] at h'; cases h'
        · rw [g6] at h'
          injection h' with h'
          injection h' with h'
          injection h' with h' h''
          subst h'
          have := g2.2 [] ⟨by simp, rfl⟩
          simp at this
        · rw [g6] at h'; cases h'
      have := hmin dest _ e1 h4 d1
      simp only
      omega
    · rename_i hle
      exact c2 (by omega)
  · refine .inl ⟨fun q a1 a2 a3 => ?_, ?_⟩
    · obtain ⟨n, hn⟩ := reachable_iff_isDist.1 a3
      exact hr ⟨n, q, a1, a2, hn⟩
    · refine h1 fun q a1 a2 a3 => ?_
      obtain ⟨n, hn⟩ := reachable_iff_isDist.1 a3
      exact hr ⟨n, q, a1, a2, hn⟩

/-- C122, breadth-first search. In a mirrored, transposed or turned problem, the path has the same length. -/
theorem C122_bfs [Target] (T T' : PosTy) (hT : T.Searchable) (hT' : T'.Searchable) (bfs bfs') (hbfs : Bf.IsSearch T bfs) (hbfs' : Bf.IsSearch T' bfs') (D : Bool)
    (f : Int × Int → Int × Int) (g : Dir → Dir) (hfg : Symmetry f g) (go go' : Int × Int → Dir → Option (Int × Int)) (hgo : Adjacent T go)
    (hgo' : Adjacent T' go') (hi : ImageGo T f g go go') (orig : Int × Int) (ho : InGrid T orig) (ho' : InGrid T' (f orig)) (found found' : Int × Int → Bool)
    (hf : ∀ p, found' (f p) = found p) (fuel fuel' : Nat) (hfuel : cols T * rows T < (fuel : Int)) (hfuel' : cols T' * rows T' < (fuel' : Int)) :
    SameLength (cols T) (cols T') Prod.snd (bfs D go orig found fuel) (bfs' D go' (f orig) found' fuel') := by
  have hdist : ∀ q' n, IsDist go' D (f orig) q' n → ∃ q, q' = f q ∧ IsDist go D orig q n := by
    intro q' n h
    obtain ⟨⟨ds, h1, -⟩, -⟩ := id h
    obtain ⟨-, q, -, rfl, -⟩ := isPath_of_image hfg hgo.staysIn hi ho h1
    exact ⟨q, rfl, (isDist_image hfg hgo.staysIn hi ho).1 h⟩
  have hne : ∀ q, f q ≠ f orig ↔ q ≠ orig := fun q => not_congr hfg.injective.eq_iff
  rcases Bf.found_cases hT hbfs (D := D) hgo ho found hfuel with ⟨h1, h2⟩ | ⟨n, ⟨q, h1, h2, h3⟩, h4, h5⟩ <;>
    rcases Bf.found_cases hT' hbfs' (D := D) hgo' ho' found' hfuel' with ⟨g1, g2⟩ | ⟨m, ⟨r', g1, g2, g3⟩, g4, g5⟩
  · exact .inl ⟨h2, g2⟩
  · obtain ⟨r, rfl, hr⟩ := hdist _ _ g3
    exact absurd (reachable_iff_isDist.2 ⟨_, hr⟩) (h1 r (by rw [← hf]; exact g1) ((hne r).1 g2))
  · exact absurd (reachable_iff_isDist.2 ⟨_, (isDist_image hfg hgo.staysIn hi ho).2 h3⟩) (g1 (f q) (by rw [hf]; exact h1) ((hne q).2 h2))
  · obtain ⟨r, rfl, hr⟩ := hdist _ _ g3
    have e1 := h4 r m (by rw [← hf]; exact g1) ((hne r).1 g2) hr
    have e2 := g4 (f q) n (by rw [hf]; exact h1) ((hne q).2 h2) ((isDist_image hfg hgo.staysIn hi ho).2 h3)
    obtain rfl : n = m := by omega
    exact .inr ⟨n, h5, g5⟩

/-- C122, `bf_iter`. Each layer has the images of the positions of the layer, in some order. -/
theorem C122_bf_iter [Target] (T T' : PosTy) (hT : T.IsGrid) (hT' : T'.IsGrid) (iter iter') (hiter : Bf.IsIter T iter) (hiter' : Bf.IsIter T' iter') (D : Bool)
    (f : Int × Int → Int × Int) (g : Dir → Dir) (hfg : Symmetry f g) (go go' : Int × Int → Dir → Option (Int × Int)) (hgo : StaysIn T go)
    (hgo' : StaysIn T' go') (hi : ImageGo T f g go go') (orig : Int × Int) (ho : InGrid T orig) (ho' : InGrid T' (f orig)) (fuel fuel' : Nat)
    (hfuel : cols T * rows T < (fuel : Int)) (hfuel' : cols T' * rows T' < (fuel' : Int)) :
    ∃ ls ls', iter D go orig fuel = .ok ls ∧ iter' D go' (f orig) fuel' = .ok ls' ∧
      List.Forall₂ (fun l l' => ((l.map Prod.fst).map f).Perm (l'.map Prod.fst)) ls ls' := by
  obtain ⟨ls, a1, a2, a3, -⟩ := Bf.iterAll_layers D hgo ho fuel (by have := hT.cells_eq; omega)
  obtain ⟨ls', b1, b2, b3, -⟩ := Bf.iterAll_layers D hgo' ho' fuel' (by have := hT'.cells_eq; omega)
  have hedge : Edge go' D (f orig) (f orig) ↔ Edge go D orig orig := by
    constructor
    · rintro ⟨d', h1, h2⟩
      obtain ⟨d, rfl⟩ := hfg.surjective d'
      rw [hi orig d ho, Option.map_eq_some_iff] at h2
      obtain ⟨q, h3, h4⟩ := h2
      cases hfg.injective h4
      exact ⟨d, (hfg.allowed D d).1 h1, h3⟩
    · rintro ⟨d, h1, h2⟩
      exact ⟨g d, (hfg.allowed D d).2 h1, by rw [hi orig d ho, h2]; rfl⟩
  have hin : ∀ k q, InLayer go' D (f orig) k (f q) ↔ InLayer go D orig k q := fun k q => by
    unfold InLayer
    rw [isDist_image hfg hgo hi ho, hfg.injective.eq_iff, hedge]
  have hsurj : ∀ k q', InLayer go' D (f orig) k q' → ∃ q, q' = f q := by
    rintro k q' (⟨⟨ds, h1, -⟩, -⟩ | ⟨-, rfl, -⟩)
    · obtain ⟨-, q, -, rfl, -⟩ := isPath_of_image hfg hgo hi ho h1
      exact ⟨q, rfl⟩
    · exact ⟨orig, rfl⟩
  have hlen : ls.length = ls'.length := by
    refine Nat.le_antisymm (Nat.le_of_not_lt fun hlt => ?_) (Nat.le_of_not_lt fun hlt => ?_)
    · obtain ⟨c1, c2⟩ := a2 ls'.length _ (List.getElem?_eq_getElem hlt)
      obtain ⟨⟨q, d⟩, hm⟩ := List.exists_mem_of_ne_nil _ c1
      exact b3 ls'.length (f q) (Nat.le_refl _) ((hin _ q).2 ((c2.mem q).1 ⟨d, hm⟩))
    · obtain ⟨c1, c2⟩ := b2 ls.length _ (List.getElem?_eq_getElem hlt)
      obtain ⟨⟨q', d⟩, hm⟩ := List.exists_mem_of_ne_nil _ c1
      have h1 := (c2.mem q').1 ⟨d, hm⟩
      obtain ⟨q, rfl⟩ := hsurj _ _ h1
      exact a3 ls.length q (Nat.le_refl _) ((hin _ q).1 h1)
  refine ⟨ls, ls', (hiter.eq hT hgo ho fuel).trans a1, (hiter'.eq hT' hgo' ho' fuel').trans b1, List.forall₂_iff_get.2 ⟨hlen, fun k hk hk' => ?_⟩⟩
  obtain ⟨-, c2⟩ := a2 k _ (List.getElem?_eq_getElem hk)
  obtain ⟨-, d2⟩ := b2 k _ (List.getElem?_eq_getElem hk')
  refine (List.perm_ext_iff_of_nodup (c2.nodup.map hfg.injective) d2.nodup).2 fun q' => ?_
  have hc : ∀ q, q ∈ ls[k].map Prod.fst ↔ InLayer go D orig k q := fun q => by rw [← c2.mem q]; simp
  have hd : ∀ q, q ∈ ls'[k].map Prod.fst ↔ InLayer go' D (f orig) k q := fun q => by rw [← d2.mem q]; simp
  rw [hd, List.mem_map]
  constructor
  · rintro ⟨q, h1, rfl⟩
    exact (hin k q).2 ((hc q).1 h1)
  · intro h1
    obtain ⟨q, rfl⟩ := hsurj k q' h1
    exact ⟨q, (hc q).2 ((hin k q).1 h1), rfl⟩

/-- C122, A*. The image of a problem has no path exactly if the problem has none. -/
theorem C122_astar_unreachable [Target] (T T' : PosTy) (hT : T.Searchable) (hT' : T'.Searchable) (astar astar') (hastar : Astar.IsSearch T astar)
    (hastar' : Astar.IsSearch T' astar') (D : Bool) (f : Int × Int → Int × Int) (g : Dir → Dir) (hfg : Symmetry f g)
    (go go' : Int × Int → Dir → Option (Int × Int)) (hgo : Adjacent T go) (hgo' : Adjacent T' go') (hi : ImageGo T f g go go') (orig dest : Int × Int)
    (ho : InGrid T orig) (hd : InGrid T dest) (ho' : InGrid T' (f orig)) (hd' : InGrid T' (f dest)) (fuel fuel' : Nat)
    (hfuel : Astar.steps T < (fuel : Int)) (hfuel' : Astar.steps T' < (fuel' : Int)) :
    astar D go orig dest fuel = .ok (.error .destinationUnreachable) ↔ astar' D go' (f orig) (f dest) fuel' = .ok (.error .destinationUnreachable) := by
  rw [(C57_unreachable_partial T hT astar hastar D go hgo orig dest ho hd fuel hfuel).1,
    (C57_unreachable_partial T' hT' astar' hastar' D go' hgo' (f orig) (f dest) ho' hd' fuel' hfuel').1, reachable_image hfg hgo.staysIn hi ho]

/-- C122, A*. The paths have the same length if one of them can go straight to the destination. -/
theorem C122_astar_direct [Target] (T T' : PosTy) (hT : T.Searchable) (hT' : T'.Searchable) (astar astar') (hastar : Astar.IsSearch T astar)
    (hastar' : Astar.IsSearch T' astar') (f : Int × Int → Int × Int) (g : Dir → Dir) (hfg : Symmetry f g)
    (go go' : Int × Int → Dir → Option (Int × Int)) (hgo : Adjacent T go) (hgo' : Adjacent T' go') (hi : ImageGo T f g go go') (orig dest : Int × Int)
    (ho : InGrid T orig) (hd : InGrid T dest) (ho' : InGrid T' (f orig)) (hd' : InGrid T' (f dest)) (fuel fuel' : Nat) (straight : List Dir)
    (hs : IsPath go false orig straight dest) (hl : (straight.length : Int) = l1 orig dest) (path path' : List Dir)
    (h : astar false go orig dest fuel = .ok (.ok path)) (h' : astar' false go' (f orig) (f dest) fuel' = .ok (.ok path')) : path'.length = path.length := by
  have h1 := C58_no_detour_partial T hT astar hastar go hgo orig dest ho hd fuel straight hs hl path h
  have h2 := C58_no_detour_partial T' hT' astar' hastar' go' hgo' (f orig) (f dest) ho' hd' fuel' (straight.map g)
    ((isPath_image hfg hgo.staysIn hi ho).2 hs) (by rw [List.length_map, hfg.l1]; exact hl) path' h'
  have h3 := C55_valid_path T hT astar hastar false go hgo orig dest ho hd fuel path h
  have h4 := C55_valid_path T' hT' astar' hastar' false go' hgo' (f orig) (f dest) ho' hd' fuel' path' h'
  have e1 := h2 _ ((isPath_image hfg hgo.staysIn hi ho).2 h3)
  obtain ⟨ds, rfl⟩ := exists_map_dir hfg path'
  have e2 := h1 _ ((isPath_image hfg hgo.staysIn hi ho).1 h4)
  simp only [List.length_map] at e1 ⊢
  omega

/-- C122, uniform-cost search with unit costs. -/
theorem C122_ucs_unit [Target] (T T' : PosTy) (hT : T.Searchable) (hT' : T'.Searchable) (ucs ucs') (hucs : Ucs.IsSearch T ucs) (hucs' : Ucs.IsSearch T' ucs')
    (D : Bool) (f : Int × Int → Int × Int) (g : Dir → Dir) (hfg : Symmetry f g) (go go' : Int × Int → Dir → Option (Int × Int)) (hgo : Adjacent T go)
    (hgo' : Adjacent T' go') (hi : ImageGo T f g go go') (orig dest : Int × Int) (ho : InGrid T orig) (hd : InGrid T dest) (ho' : InGrid T' (f orig))
    (hd' : InGrid T' (f dest)) (fuel fuel' : Nat) (hfuel : Ucs.steps T < (fuel : Int)) (hfuel' : Ucs.steps T' < (fuel' : Int)) :
    SameLength (cols T) (cols T') id (ucs D (unitCost go) orig dest fuel) (ucs' D (unitCost go') (f orig) (f dest) fuel') := by
  have key : ∀ n, IsDist go D orig dest n → ∃ n, Finds (cols T) id (ucs D (unitCost go) orig dest fuel) n ∧
      Finds (cols T') id (ucs' D (unitCost go') (f orig) (f dest) fuel') n := by
    intro n hn
    obtain ⟨a1, a2⟩ := C62_unit_exact T hT ucs hucs D go hgo orig dest ho hd fuel hfuel n hn
    obtain ⟨b1, b2⟩ := C62_unit_exact T' hT' ucs' hucs' D go' hgo' (f orig) (f dest) ho' hd' fuel' hfuel' n ((isDist_image hfg hgo.staysIn hi ho).2 hn)
    refine ⟨n, ?_, ?_⟩ <;> unfold Finds <;> split <;> rename_i hle
    · exact a1 hle
    · exact a2 (by omega)
    · exact b1 hle
    · exact b2 (by omega)
  rcases Ucs.unit_cases hT hucs (D := D) hgo ho hd hfuel with ⟨h1, h2⟩ | ⟨n, h1, -⟩ | ⟨n, h1, -⟩
  · refine .inl ⟨h2, ?_⟩
    rcases Ucs.unit_cases hT' hucs' (D := D) hgo' ho' hd' hfuel' with ⟨-, g2⟩ | ⟨n, g1, -⟩ | ⟨n, g1, -⟩
    · exact g2
    · exact absurd ((reachable_image hfg hgo.staysIn hi ho).1 (reachable_iff_isDist.2 ⟨n, g1⟩)) h1
    · exact absurd ((reachable_image hfg hgo.staysIn hi ho).1 (reachable_iff_isDist.2 ⟨n, g1⟩)) h1
  · exact .inr (key n h1)
  · exact .inr (key n h1)

/-- C122, uniform-cost search. The image of a problem has no path exactly if the problem has none. -/
theorem C122_ucs_unreachable [Target] (T T' : PosTy) (hT : T.Searchable) (hT' : T'.Searchable) (ucs ucs') (hucs : Ucs.IsSearch T ucs)
    (hucs' : Ucs.IsSearch T' ucs') (D : Bool) (f : Int × Int → Int × Int) (g : Dir → Dir) (hfg : Symmetry f g)
    (go go' : Int × Int → Dir → Option ((Int × Int) × Int)) (hgo : Adjacent T (dropCost go)) (hgo' : Adjacent T' (dropCost go')) (hc : UsizeCosts go)
    (hc' : UsizeCosts go') (hi : ImageCosts T f g go go') (orig dest : Int × Int) (ho : InGrid T orig) (hd : InGrid T dest) (ho' : InGrid T' (f orig))
    (hd' : InGrid T' (f dest)) (hb : BelowLimit go D orig) (fuel fuel' : Nat) (hfuel : Ucs.steps T < (fuel : Int)) (hfuel' : Ucs.steps T' < (fuel' : Int)) :
    ucs D go orig dest fuel = .ok (.error .destinationUnreachable) ↔ ucs' D go' (f orig) (f dest) fuel' = .ok (.error .destinationUnreachable) := by
  rw [(C62_unreachable_partial T hT ucs hucs D go hgo hc orig dest ho hd hb fuel hfuel).1,
    (C62_unreachable_partial T' hT' ucs' hucs' D go' hgo' hc' (f orig) (f dest) ho' hd' (belowLimit_image hfg hgo.staysIn hi ho hb) fuel' hfuel').1,
    reachable_image hfg hgo.staysIn hi.drop ho]

/-- C122, uniform-cost search. If the cost of a step depends only on the position it leads to, the paths are equally expensive. -/
theorem C122_ucs_cost [Target] (T T' : PosTy) (hT : T.Searchable) (hT' : T'.Searchable) (ucs ucs') (hucs : Ucs.IsSearch T ucs)
    (hucs' : Ucs.IsSearch T' ucs') (D : Bool) (f : Int × Int → Int × Int) (g : Dir → Dir) (hfg : Symmetry f g)
    (go go' : Int × Int → Dir → Option ((Int × Int) × Int)) (hgo : Adjacent T (dropCost go)) (hgo' : Adjacent T' (dropCost go')) (hc : UsizeCosts go)
    (hc' : UsizeCosts go') (he : EnterCost go) (he' : EnterCost go') (hi : ImageCosts T f g go go') (orig dest : Int × Int) (ho : InGrid T orig)
    (hd : InGrid T dest) (ho' : InGrid T' (f orig)) (hd' : InGrid T' (f dest)) (hb : BelowLimit go D orig) (fuel fuel' : Nat) (path path' : List Dir)
    (h : ucs D go orig dest fuel = .ok (.ok path)) (h' : ucs' D go' (f orig) (f dest) fuel' = .ok (.ok path')) :
    ∃ n, pathCost go orig path = some n ∧ pathCost go' (f orig) path' = some n := by
  obtain ⟨n, h1, h2⟩ := C63_enter_cost_partial T hT ucs hucs D go hgo hc he orig dest (.inr hb.noOverflow) ho hd fuel path h
  obtain ⟨m, g1, g2⟩ := C63_enter_cost_partial T' hT' ucs' hucs' D go' hgo' hc' he' (f orig) (f dest)
    (.inr (belowLimit_image hfg hgo.staysIn hi ho hb).noOverflow) ho' hd' fuel' path' h'
  have h3 := (isMinCost_image hfg hgo.staysIn hi ho).2 (⟨⟨path, h1⟩, h2⟩ : IsMinCost go D orig dest n)
  have e1 := h3.2 _ _ g1
  obtain ⟨ds, hds⟩ := h3.1
  have e2 := g2 _ _ hds
  obtain rfl : n = m := by omega
  exact ⟨n, h1.2, g1.2⟩

/-- C122. The image of the problem of going around walls is that of going around the images of the walls. -/
theorem C122_walls (T T' : PosTy) (f : Int × Int → Int × Int) (g : Dir → Dir) (hfg : Symmetry f g) (hf : ∀ p, InGrid T' (f p) ↔ InGrid T p)
    (walls : List (Int × Int)) : ImageGo T f g (aroundWalls T walls) (aroundWalls T' (walls.map f)) := aroundWalls_image hfg hf walls

/-- C122, A*. The lengths do differ: this path without diagonals has ten steps, and the one in the mirrored grid eight. -/
theorem C122_astar_differs_straight [Target] :
    Astar.pathHash (PosTy.pos 4 3) false (aroundWalls (PosTy.pos 4 3) [(2, 3), (1, 0), (1, 2), (3, 1)]) (4, 0) (1, 3) 1000 =
      .ok (.ok [.S, .S, .W, .W, .N, .W, .W, .S, .S, .E]) ∧
    Astar.pathHash (PosTy.pos 4 3) false (aroundWalls (PosTy.pos 4 3) ([(2, 3), (1, 0), (1, 2), (3, 1)].map (mirror 4))) (mirror 4 (4, 0)) (mirror 4 (1, 3)) 1000 =
      .ok (.ok [.E, .E, .S, .E, .E, .S, .S, .W]) := by decide_target

/-- C122, A*. With diagonals they differ too: four steps and three. -/
theorem C122_astar_differs_diagonals [Target] :
    Astar.pathHash (PosTy.pos 3 2) true (aroundWalls (PosTy.pos 3 2) [(0, 1), (3, 2), (2, 1)]) (3, 0) (0, 2) 1000 = .ok (.ok [.S, .SW, .W, .W]) ∧
    Astar.pathHash (PosTy.pos 3 2) true (aroundWalls (PosTy.pos 3 2) ([(0, 1), (3, 2), (2, 1)].map (mirror 3))) (mirror 3 (3, 0)) (mirror 3 (0, 2)) 1000 =
      .ok (.ok [.E, .SE, .SE]) := by decide_target

/-- The costs of `C63_refuted_straight` in a mirror. -/
def mirroredCosts (p : Int × Int) (d : Dir) : Option ((Int × Int) × Int) :=
  (stepCosts (PosTy.pos 2 1) [] badCosts (mirror 2 p) (mirrorDir d)).map fun x => (mirror 2 x.1, x.2)

/-- C122, uniform-cost search. With other costs they differ: the costs are 12 and 10. -/
theorem C122_ucs_differs [Target] :
    Ucs.pathHash (PosTy.pos 2 1) false (stepCosts (PosTy.pos 2 1) [] badCosts) (0, 0) (2, 1) 100 = .ok (.ok [.E, .S, .E]) ∧
    pathCost (stepCosts (PosTy.pos 2 1) [] badCosts) (0, 0) [.E, .S, .E] = some 12 ∧
    Ucs.pathHash (PosTy.pos 2 1) false mirroredCosts (mirror 2 (0, 0)) (mirror 2 (2, 1)) 100 = .ok (.ok [.S, .W, .W]) ∧
    pathCost mirroredCosts (mirror 2 (0, 0)) [.S, .W, .W] = some 10 := by decide_target

/-! A grid of 4x3, and what becomes of it in a mirror and by a quarter of a turn. -/

theorem mirror_grid (p : Int × Int) : InGrid (PosTy.pos 3 2) (mirror 3 p) ↔ InGrid (PosTy.pos 3 2) p := by
  simp only [InGrid, mirror, PosTy.pos, BTy.MIN, BTy.MAX]
  omega
theorem turn_symmetry : Symmetry (mirror 2 ∘ transpose) (mirrorDir ∘ transposeDir) := .comp .transpose (.mirror 2)
theorem turn_grid (p : Int × Int) : InGrid (PosTy.pos 2 3) ((mirror 2 ∘ transpose) p) ↔ InGrid (PosTy.pos 3 2) p := by
  simp only [InGrid, mirror, transpose, Function.comp_apply, PosTy.pos, BTy.MIN, BTy.MAX]
  omega

example : (mirror 2 ∘ transpose) (3, 0) = (2, 3) ∧ (mirrorDir ∘ transposeDir) .N = .E ∧ (mirrorDir ∘ transposeDir) .E = .S := by decide
example : ImageGo (PosTy.pos 3 2) (mirror 2 ∘ transpose) (mirrorDir ∘ transposeDir) (aroundWalls (PosTy.pos 3 2) [(1, 0), (1, 1)])
    (aroundWalls (PosTy.pos 2 3) [(2, 1), (1, 1)]) := C122_walls _ _ _ _ turn_symmetry turn_grid _
example : ImageGo (PosTy.pos 3 2) (mirror 3) mirrorDir (aroundWalls (PosTy.pos 3 2) [(1, 0), (1, 1)])
    (aroundWalls (PosTy.pos 3 2) [(2, 0), (2, 1)]) := C122_walls _ _ _ _ (.mirror 3) mirror_grid _
example : ImageCosts (PosTy.pos 2 1) (mirror 2) mirrorDir (stepCosts (PosTy.pos 2 1) [] badCosts) mirroredCosts := by
  intro p d _
  have e1 : mirror 2 (mirror 2 p) = p := by simp only [mirror]; ext <;> simp only; omega
  have e2 : mirrorDir (mirrorDir d) = d := by cases d <;> rfl
  rw [mirroredCosts, e1, e2]
example : EnterCost (stepCosts (PosTy.pos 3 2) [] swamp) := by
  intro u u' d d' q w w' h h'
  simp only [stepCosts, aroundWalls, Option.map_eq_some_iff, Prod.mk.injEq, Option.ite_none_right_eq_some, Option.some.injEq] at h h'
  obtain ⟨_, ⟨-, rfl⟩, rfl, rfl⟩ := h
  obtain ⟨_, ⟨-, rfl⟩, h3, rfl⟩ := h'
  simp only [swamp, h3]
-- the breadth-first searches from corner to corner, both around the walls
example : Bf.pathHash (PosTy.pos 3 2) false (aroundWalls (PosTy.pos 3 2) [(1, 0), (1, 1), (2, 1)]) (0, 0) (fun p => p == (3, 0)) 13 =
    .ok (.ok ((3, 0), [.S, .S, .E, .E, .E, .N, .N])) := by decide +kernel
example : Bf.pathHash (PosTy.pos 2 3) false (aroundWalls (PosTy.pos 2 3) [(2, 1), (1, 1), (1, 2)]) (2, 0) (fun p => p == (2, 3)) 13 =
    .ok (.ok ((2, 3), [.W, .W, .S, .S, .S, .E, .E])) := by decide +kernel

end Sqrid
