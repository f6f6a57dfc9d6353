import Verif.Props.Bf
import Verif.Props.Astar
import Verif.Props.Ucs
import Verif.Proofs.Shift
/-!
# C118: where in which grid a problem is does not matter
-/

namespace Sqrid

open Spec

attribute [local instance] debug64

/-! ## C118 -/

/-- C118, `bf_iter`. The layers are those of the same problem with other names of the positions, in any other grid. -/
theorem C118_bf_iter [Target] (T T' : PosTy) (hT : T.IsGrid) (hT' : T'.IsGrid) (iter iter') (hiter : Bf.IsIter T iter) (hiter' : Bf.IsIter T' iter') (D : Bool)
    (go go' : Int × Int → Dir → Option (Int × Int)) (hgo : StaysIn T go) (hgo' : StaysIn T' go') (rename : Int × Int → Int × Int)
    (hinj : Function.Injective rename) (hrename : ∀ p d, go' (rename p) d = (go p d).map rename) (orig : Int × Int) (ho : InGrid T orig)
    (ho' : InGrid T' (rename orig)) (fuel : Nat) :
    iter' D go' (rename orig) fuel = (do
      let layers ← iter D go orig fuel
      .ok (layers.map (List.map fun m => (rename m.1, m.2)))) := by
  rw [hiter.eq hT hgo ho, hiter'.eq hT' hgo' ho']
  have := Bf.iterAll_renamed hinj hrename D orig fuel
  generalize Bf.iterAll SetImpl.ideal D go orig fuel = a at this ⊢
  generalize Bf.iterAll SetImpl.ideal D go' (rename orig) fuel = b at this ⊢
  cases a <;> cases b <;> first | exact congrArg Out.ok this | exact this.elim | rfl

/-- C118, `ucs_path`, also if the sums of the costs do not fit. -/
theorem C118_ucs [Target] (T T' : PosTy) (hT : T.Searchable) (hT' : T'.Searchable) (ucs ucs') (hucs : Ucs.IsSearch T ucs) (hucs' : Ucs.IsSearch T' ucs') (D : Bool)
    (go go' : Int × Int → Dir → Option ((Int × Int) × Int)) (hgo : Adjacent T (dropCost go)) (hgo' : Adjacent T' (dropCost go')) (v : Int × Int)
    (hv : ∀ p d, go' (shift v p) d = (go p d).map fun x => (shift v x.1, x.2)) (orig dest : Int × Int) (ho : InGrid T orig) (hd : InGrid T dest)
    (ho' : InGrid T' (shift v orig)) (hd' : InGrid T' (shift v dest)) (fuel : Nat) :
    SameAnswer (cols T) (cols T') id id (ucs D go orig dest fuel) (ucs' D go' (shift v orig) (shift v dest) fuel) := by
  rw [hucs.eq hT hgo.staysIn ho hd, hucs'.eq hT' hgo'.staysIn ho' hd']
  have H := Ucs.searchMapmov_renamed (shift_injective v) (shift_lt v) hv D orig dest fuel
  unfold Ucs.searchPath
  cases hm : Ucs.searchMapmov (MapImpl.ideal none) (MapImpl.ideal 0) D go orig dest fuel <;>
    cases hm' : Ucs.searchMapmov (MapImpl.ideal none) (MapImpl.ideal 0) D go' (shift v orig) (shift v dest) fuel <;>
    rw [hm, hm'] at H <;> first | exact H.elim | skip
  · rename_i r r'
    cases r with
    | error e =>
      cases r' with
      | error e' => cases H; exact .inl rfl
      | ok f' => exact H.elim
    | ok f =>
      cases r' with
      | error e' => exact H.elim
      | ok f' =>
        obtain ⟨b1, b2⟩ := Ucs.searchMapmov_backed hgo ho dest fuel hm
        obtain ⟨b1', b2'⟩ := Ucs.searchMapmov_backed hgo' ho' (shift v dest) fuel hm'
        refine camefrom_shift hT hT' (D := D) hgo hgo' (fun p d => ?_) H ho hd ho' hd' (Backed.not_stuck b2 b1) (Backed.not_stuck b2' b1')
          (fun _ h => Backed.isPath b2 h) (fun _ h => Backed.isPath b2' h)
        simp only [dropCost, hv, Option.map_map]
        rfl
  all_goals exact .inl rfl

/-- C62. `ucs_path` never returns `InvalidMovement`, also if the sums of the costs do not fit. -/
theorem C62_never_invalid [Target] (T : PosTy) (hT : T.Searchable) (ucs) (hucs : Ucs.IsSearch T ucs) (D : Bool)
    (go : Int × Int → Dir → Option ((Int × Int) × Int)) (hgo : Adjacent T (dropCost go)) (orig dest : Int × Int) (ho : InGrid T orig) (hd : InGrid T dest)
    (fuel : Nat) : ucs D go orig dest fuel ≠ .ok (.error .invalidMovement) := by
  rw [hucs.eq hT hgo.staysIn ho hd]
  intro h
  cases hm : Ucs.searchMapmov (MapImpl.ideal none) (MapImpl.ideal 0) D go orig dest fuel with
  | ok r =>
    rw [Ucs.searchPath_of_mapmov hm] at h
    cases r with
    | error e =>
      unfold Ucs.searchMapmov at hm
      rw [UcsIter.new_eq, Out.ok_bind] at hm
      rw [Ucs.loop_error fuel hm] at h
      cases h
    | ok f =>
      obtain ⟨b1, b2⟩ := Ucs.searchMapmov_backed hgo ho dest fuel hm
      simp only at h
      rcases camefromIntoPath_spec hT (MapImpl.ideal none) f f ho hd (fun _ _ => rfl) with ⟨h1, -⟩ | ⟨-, ⟨path, -, -, h1⟩ | ⟨n, h1, -⟩ | ⟨-, -, h1⟩⟩
      · exact b1 h1
      · rw [h1] at h; cases h
      · exact Backed.not_stuck b2 b1 n h1
      · rw [h1] at h; cases h
  | panic => unfold Ucs.searchPath at h; rw [hm] at h; cases h
  | ub => unfold Ucs.searchPath at h; rw [hm] at h; cases h
  | timeout => unfold Ucs.searchPath at h; rw [hm] at h; cases h

/-- C118, `astar_path`. -/
theorem C118_astar [Target] (T T' : PosTy) (hT : T.Searchable) (hT' : T'.Searchable) (astar astar') (hastar : Astar.IsSearch T astar)
    (hastar' : Astar.IsSearch T' astar') (D : Bool) (go go' : Int × Int → Dir → Option (Int × Int)) (hgo : Adjacent T go) (hgo' : Adjacent T' go') (v : Int × Int)
    (hv : ∀ p d, go' (shift v p) d = (go p d).map (shift v)) (orig dest : Int × Int) (ho : InGrid T orig) (hd : InGrid T dest)
    (ho' : InGrid T' (shift v orig)) (hd' : InGrid T' (shift v dest)) (fuel : Nat) :
    SameAnswer (cols T) (cols T') id id (astar D go orig dest fuel) (astar' D go' (shift v orig) (shift v dest) fuel) := by
  rw [hastar.eq hT hgo.staysIn ho hd, hastar'.eq hT' hgo'.staysIn ho' hd']
  have H := BSt.renamed_search (go := unitCost go) (go' := unitCost go') (h := fun q => l1 q dest) (h' := fun q => l1 q (shift v dest)) (shift_injective v)
    (shift_lt v) (fun p d => by simp only [unitCost, hv, Option.map_map]; rfl) (fun p => l1_shift v p dest) D dest fuel (BSt.renamed_init (shift_injective v) usizeMax orig)
    (f := fun _ => none) (f' := fun _ => none) (fun _ => rfl)
  have E := Astar.searchMapmov_eq hT hgo.staysIn ho hd D fuel
  have E' := Astar.searchMapmov_eq hT' hgo'.staysIn ho' hd' D fuel
  have hb : ∀ (T : PosTy) (orig : Int × Int), InGrid T orig → ∀ go, ∀ e ∈ (BSt.init usizeMax orig).heap, Backed T go D orig (fun _ => none) e.2 := by
    intro T orig ho go e he
    simp only [BSt.init, List.mem_singleton] at he
    subst he
    exact ⟨ho, .inl rfl⟩
  unfold Astar.searchPath
  rw [E, E']
  cases hm : BSt.search (unitCost go) (fun q => l1 q dest) D dest fuel (BSt.init usizeMax orig) (fun _ => none) <;>
    cases hm' : BSt.search (unitCost go') (fun q => l1 q (shift v dest)) D (shift v dest) fuel (BSt.init usizeMax (shift v orig)) (fun _ => none) <;>
    rw [hm, hm'] at H <;> first | exact H.elim | skip
  · rename_i r r'
    cases r with
    | error e =>
      cases r' with
      | error e' => cases H; exact .inl rfl
      | ok f' => exact H.elim
    | ok f =>
      cases r' with
      | error e' => exact H.elim
      | ok f' =>
        obtain ⟨b1, b2⟩ := BSt.search_backed hgo dest fuel (hb T orig ho go) (fun _ _ h => by cases h) hm
        obtain ⟨b1', b2'⟩ := BSt.search_backed hgo' (shift v dest) fuel (hb T' _ ho' go') (fun _ _ h => by cases h) hm'
        exact camefrom_shift hT hT' (D := D) hgo hgo' hv H ho hd ho' hd' (Backed.not_stuck b2 b1) (Backed.not_stuck b2' b1')
          (fun _ h => Backed.isPath b2 h) (fun _ h => Backed.isPath b2' h)
  all_goals exact .inl rfl

/-- C118, `bfs_path`. -/
theorem C118_bfs [Target] (T T' : PosTy) (hT : T.Searchable) (hT' : T'.Searchable) (bfs bfs') (hbfs : Bf.IsSearch T bfs) (hbfs' : Bf.IsSearch T' bfs') (D : Bool)
    (go go' : Int × Int → Dir → Option (Int × Int)) (hgo : Adjacent T go) (hgo' : Adjacent T' go') (v : Int × Int)
    (hv : ∀ p d, go' (shift v p) d = (go p d).map (shift v)) (orig : Int × Int) (ho : InGrid T orig) (ho' : InGrid T' (shift v orig))
    (found found' : Int × Int → Bool) (hfound : ∀ p, found' (shift v p) = found p) (fuel : Nat) :
    SameAnswer (cols T) (cols T') (fun a => a.2) (fun a => (shift v a.1, a.2)) (bfs D go orig found fuel) (bfs' D go' (shift v orig) found' fuel) := by
  rw [hbfs.eq hT hgo.staysIn ho, hbfs'.eq hT' hgo'.staysIn ho']
  have H := Bf.searchMapmov_renamed (shift_injective v) hv hfound D orig fuel
  unfold Bf.searchPath
  cases hm : Bf.searchMapmov SetImpl.ideal (MapImpl.ideal none) D go orig found fuel <;>
    cases hm' : Bf.searchMapmov SetImpl.ideal (MapImpl.ideal none) D go' (shift v orig) found' fuel <;>
    rw [hm, hm'] at H <;> first | exact H.elim | skip
  · rename_i r r'
    cases r with
    | error e =>
      cases r' with
      | error e' => cases H; exact .inl rfl
      | ok f' => exact H.elim
    | ok x =>
      cases r' with
      | error e' => exact H.elim
      | ok x' =>
        obtain ⟨dest, f⟩ := x
        obtain ⟨dest', f'⟩ := x'
        obtain ⟨e, H⟩ := H
        simp only at e H
        subst e
        obtain ⟨b1, b2, path, b3, b4⟩ := Bf.searchMapmov_way hgo ho fuel hm
        obtain ⟨b1', b2', path', b3', b4'⟩ := Bf.searchMapmov_way hgo' ho' fuel hm'
        have K := camefrom_shift hT hT' (D := D) hgo hgo' hv H ho b2 ho' b2' b3.not_stuck b3'.not_stuck
          (fun _ h => by rw [h.unique b3]; exact b4) (fun _ h => by rw [h.unique b3']; exact b4')
        simp only [Out.ok_bind]
        rcases K with K | ⟨p, K, K'⟩
        · left
          rw [K]
          cases camefromIntoPath T (MapImpl.ideal none) f orig dest with
          | ok r => cases r <;> rfl
          | panic => rfl
          | ub => rfl
          | timeout => rfl
        · right
          refine ⟨(dest, p), ?_, ?_⟩
          · rw [K, Out.ok_bind]
            by_cases hl : (p.length : Int) ≤ cols T * cols T
            · simp only [id, if_pos hl]
            · simp only [id, if_neg hl]
          · rw [K', Out.ok_bind]
            by_cases hl : (p.length : Int) ≤ cols T' * cols T'
            · simp only [id, if_pos hl]
            · simp only [id, if_neg hl]
  all_goals exact .inl rfl

/-- A movement function that stays in one grid can be moved to any grid that has all the positions. -/
theorem shiftGo_adjacent {T T' : PosTy} (v : Int × Int) (walls : List (Int × Int)) (h : ∀ p, InGrid T p → InGrid T' (shift v p)) :
    Adjacent T' (shiftGo v (aroundWalls T walls)) := by
  intro p d q _ hg
  simp only [shiftGo, aroundWalls] at hg
  split at hg
  · rename_i hw
    injection hg with hg
    subst hg
    refine ⟨h _ hw.1, ?_⟩
    simp only [shift, neighbour, Prod.mk.injEq]
    omega
  · cases hg

theorem shiftGo_shift (v : Int × Int) (go : Int × Int → Dir → Option (Int × Int)) (p : Int × Int) (d : Dir) :
    shiftGo v go (shift v p) d = (go p d).map (shift v) := by
  simp only [shiftGo, shift, Int.add_sub_cancel]

-- the problem of the example of C57 in a grid of 3 columns and in the corner of a larger one
example : Adjacent (PosTy.pos 9 9) (shiftGo (7, 7) (aroundWalls (PosTy.pos 2 2) [(1, 1), (1, 0)])) :=
  shiftGo_adjacent (7, 7) _ (by rintro ⟨a, b⟩ h; simp [InGrid, PosTy.pos, shift, BTy.MIN, BTy.MAX] at h ⊢; omega)
example : Astar.pathHash (PosTy.pos 2 2) false (aroundWalls (PosTy.pos 2 2) [(1, 1), (1, 0)]) (0, 0) (2, 0) 500 = .ok (.ok [.S, .S, .E, .E, .N, .N]) := by
  decide +kernel
example : Astar.pathHash (PosTy.pos 9 9) false (shiftGo (7, 7) (aroundWalls (PosTy.pos 2 2) [(1, 1), (1, 0)])) (7, 7) (9, 7) 500 =
    .ok (.ok [.S, .S, .E, .E, .N, .N]) := by decide +kernel
-- the same path is too long for a narrow grid
example : Bf.pathHash (PosTy.pos 0 2) false (aroundWalls (PosTy.pos 0 2) []) (0, 0) (fun p => p == (0, 2)) 9 = .ok (.error .loop) ∧
    Bf.pathHash (PosTy.pos 3 4) false (shiftGo (3, 1) (aroundWalls (PosTy.pos 0 2) [])) (3, 1) (fun p => p == (3, 3)) 9 = .ok (.ok ((3, 3), [.S, .S])) := by
  decide +kernel

end Sqrid
