import Verif.Model.Hash
import Verif.Props.AnyType
/-!
# Properties of hashing: C112, C113
-/

namespace Sqrid

-- Statements that do not mention a target are about a debug build for a 64-bit machine.
attribute [local instance] debug64

open Spec

/-! ## C112 -/

/-- C112. Bounded integers make the same calls to a hasher exactly if they are equal, and so do positions and directions. -/
theorem C112_values [Target] (B : BTy) (T : PosTy) (v w : Int) (p q : Int × Int) (d e : Dir) :
    (B.hash v = B.hash w ↔ v = w) ∧ (T.hash p = T.hash q ↔ p = q) ∧ (Dir.hash d = Dir.hash e ↔ d = e) := by
  refine ⟨by simp [BTy.hash], ?_, ?_⟩
  · simp [PosTy.hash, BTy.hash, Prod.ext_iff]
  · cases d <;> cases e <;> simp [Dir.hash, Dir.toIdx]

/-- C112. A position feeds a hasher its two integers, each as its own type, x first; thus a `Pos` feeds it the same as the tuple of its integers. -/
theorem C112_position_calls (T : PosTy) (p : Int × Int) : T.hash p = [.int T.X.base p.1, .int T.Y.base p.2] := rfl

example : ({ X := .prim IntTy.u8, Y := .prim IntTy.i16, WIDTH := 0, HEIGHT := 0 } : PosTy).hash (7, -9) = [.int IntTy.u8 7, .int IntTy.i16 (-9)] := by decide

/-- C112. Boolean grids make the same calls exactly if they have the same words. Grids whose items are equal make the same calls, if equal items do;
and only these do, if items that are not equal make different calls and no item makes only the first calls of another. -/
theorem C112_grids [Target] (gb hb : List (BitVec 32)) (eq : α → α → Bool) (h : α → List HCall) (g g' : List α) :
    (Gridbool.hash gb = Gridbool.hash hb ↔ gb = hb) ∧
    ((∀ a b, eq a b = true → h a = h b) → Grid.beq eq g g' = true → Grid.hash h g = Grid.hash h g') ∧
    ((∀ a b xs ys, h a ++ xs = h b ++ ys → eq a b = true ∧ xs = ys) → Grid.hash h g = Grid.hash h g' → Grid.beq eq g g' = true) := by
  refine ⟨?_, fun he hb => ?_, fun he hh => ?_⟩
  · constructor
    · intro h
      simp only [Gridbool.hash, List.cons.injEq, HCall.ints.injEq, true_and, and_true] at h
      obtain ⟨-, h⟩ := h
      refine List.map_injective_iff.2 (fun a b hab => ?_) h
      exact BitVec.eq_of_toNat_eq (by exact_mod_cast hab)
    · rintro rfl; rfl
  · have : g.length = g'.length ∧ g.flatMap h = g'.flatMap h := by
      induction g generalizing g' with
      | nil => cases g' with
        | nil => exact ⟨rfl, rfl⟩
        | cons b bs => simp [Grid.beq] at hb
      | cons a as ih => cases g' with
        | nil => simp [Grid.beq] at hb
        | cons b bs =>
          simp only [Grid.beq, Bool.and_eq_true] at hb
          obtain ⟨h1, h2⟩ := ih bs hb.2
          simp [h1, h2, he a b hb.1]
    simp [Grid.hash, this]
  · simp only [Grid.hash, List.cons.injEq, HCall.int.injEq, true_and] at hh
    obtain ⟨hl', hh⟩ := hh
    have hl : g.length = g'.length := by exact_mod_cast hl'
    clear hl'
    induction g generalizing g' with
    | nil => cases g' with
      | nil => rfl
      | cons b bs => simp at hl
    | cons a as ih => cases g' with
      | nil => simp at hl
      | cons b bs =>
        simp only [List.flatMap_cons] at hh
        obtain ⟨h1, h2⟩ := he _ _ _ _ hh
        simp only [Grid.beq, Bool.and_eq_true]
        exact ⟨h1, ih bs h2 (by simpa using hl)⟩

example : (∀ a b : Int × Int, decide (a = b) = true → (PosTy.pos 3 3).hash a = (PosTy.pos 3 3).hash b) ∧
    (∀ (a b : Int × Int) xs ys, (PosTy.pos 3 3).hash a ++ xs = (PosTy.pos 3 3).hash b ++ ys → decide (a = b) = true ∧ xs = ys) ∧
    Grid.hash (PosTy.pos 3 3).hash [(1, 2), (3, 0)] =
      [.int .u64 2, .int .u16 1, .int .u16 2, .int .u16 3, .int .u16 0] ∧
    Gridbool.hash [0x14000000#32] = [.int .u64 1, .ints .u32 [335544320]] ∧ Dir.hash .SE = [.int .i64 3] := by
  refine ⟨fun a b h => by rw [of_decide_eq_true h], fun a b xs ys h => ?_, rfl, rfl, rfl⟩
  simpa [PosTy.hash, BTy.hash, Prod.ext_iff, and_assoc] using h

theorem SetImpl.table_sim (T : PosTy) (h : List HCall → Nat) :
    (SetImpl.table T h).Sim T fun s f => ∀ q, f q = decide (q ∈ s (h (T.hash q))) where
  default := fun q => by simp [SetImpl.table]
  contains := by intro s f p hs _; rw [hs p]; rfl
  insert := by
    intro s f p hs _
    refine ⟨_, rfl, fun q => ?_⟩
    show _ = decide (q ∈ if h (T.hash q) = h (T.hash p) then SetImpl.hashInsert (s (h (T.hash q))) p else s (h (T.hash q)))
    by_cases hk : h (T.hash q) = h (T.hash p)
    · rw [if_pos hk, ← MemRep.hashInsert (f := fun r => decide (r ∈ s (h (T.hash q)))) (fun _ => rfl) p q]
      by_cases e : q = p
      · subst e; rw [upd_same, upd_same]
      · rw [upd_other _ _ e, upd_other _ _ e, hs q]
    · rw [if_neg hk, upd_other _ _ (fun e => hk (by rw [e])), hs q]
  remove := by
    intro s f p hs _
    refine ⟨_, rfl, fun q => ?_⟩
    show _ = decide (q ∈ if h (T.hash q) = h (T.hash p) then (s (h (T.hash q))).filter (fun r => decide (r ≠ p)) else s (h (T.hash q)))
    by_cases hk : h (T.hash q) = h (T.hash p)
    · rw [if_pos hk, ← MemRep.filter (f := fun r => decide (r ∈ s (h (T.hash q)))) (fun _ => rfl) p q]
      by_cases e : q = p
      · subst e; rw [upd_same, upd_same]
      · rw [upd_other _ _ e, upd_other _ _ e, hs q]
    · rw [if_neg hk, upd_other _ _ (fun e => hk (by rw [e])), hs q]

theorem MapImpl.table_sim (T : PosTy) (h : List HCall → Nat) (dflt : Item) :
    (MapImpl.table T h dflt).Sim T dflt fun s f => ∀ q, f q = (MapImpl.hashGet (s.1 (h (T.hash q))) q).getD s.2 where
  default := fun _ => rfl
  new := fun _ _ => rfl
  get := by intro s f p hs _; rw [hs p]; rfl
  set := by
    intro s f p v hs _
    refine ⟨_, rfl, fun q => ?_⟩
    show _ = (MapImpl.hashGet (if h (T.hash q) = h (T.hash p) then MapImpl.hashInsert (s.1 (h (T.hash q))) p v else s.1 (h (T.hash q))) q).getD s.2
    by_cases hk : h (T.hash q) = h (T.hash p)
    · rw [if_pos hk, hashGet_insert]
      by_cases e : q = p
      · subst e; simp [upd_same]
      · rw [upd_other _ _ e, if_neg e, hs q]
    · rw [if_neg hk, upd_other _ _ (fun e => hk (by rw [e])), hs q]

/-- C112. Whatever the hash function, also if it gives the same hash to different positions: after any sequence of insertions, removals and `set`s the hash
set contains exactly the positions last inserted, and after any sequence of `set`s the hash map returns the last value set at the position, or that of `new`. -/
theorem C112_sets_maps {Item : Type} (T : PosTy) (h : List HCall → Nat) (ops : List SetOp) (hops : ∀ op ∈ ops, InGrid T op.write.1) (dflt v : Item)
    (ws : List ((Int × Int) × Item)) (hws : ∀ w ∈ ws, InGrid T w.1) :
    (∃ s, ops.foldlM (SetImpl.table T h).run (SetImpl.table T h).default = .ok s ∧
      ∀ p, InGrid T p → (SetImpl.table T h).contains s p = .ok ((lastWrite (ops.map SetOp.write) p).getD false)) ∧
    ∃ m, (MapImpl.table T h dflt).sets ((MapImpl.table T h dflt).new v) ws = .ok m ∧
      ∀ p, InGrid T p → (MapImpl.table T h dflt).get m p = .ok ((lastWrite ws p).getD v) := by
  constructor
  · obtain ⟨s, f, h1, h2, h3⟩ := SetImpl.runs_sim (SetImpl.table_sim T h) ops hops
    exact ⟨s, h1, fun p hp => by rw [(SetImpl.table_sim T h).contains h2 hp, h3 p]⟩
  · obtain ⟨s, f, h1, h2, h3⟩ := MapImpl.sets_sim (MapImpl.table_sim T h dflt) v ((MapImpl.table_sim T h dflt).new v) ws hws
    exact ⟨s, h1, fun p hp => by rw [(MapImpl.table_sim T h dflt).get h2 hp, h3 p]⟩

/-- Three positions with the same hash. -/
example : ∃ s, [SetOp.insert (1, 2), .insert (-1, 5), .remove (1, 2), .insert (0, 0)].foldlM (SetImpl.table (.tuple .i8) fun _ => 7).run
      (SetImpl.table (.tuple .i8) fun _ => 7).default = .ok s ∧
    (SetImpl.table (.tuple .i8) fun _ => 7).contains s (1, 2) = .ok false ∧ (SetImpl.table (.tuple .i8) fun _ => 7).contains s (-1, 5) = .ok true ∧
    ∀ op ∈ [SetOp.insert (1, 2), .insert (-1, 5), .remove (1, 2), .insert (0, 0)], InGrid (.tuple .i8) op.write.1 :=
  ⟨_, rfl, rfl, rfl, by decide⟩

/-- C112. The traversal and the searches that use hash sets and maps give the same result with all hash functions, which std chooses at random, and the same
as with the btree sets and maps. -/
theorem C112_searches [Target] (T : PosTy) (hT : T.WF) (h1 h2 : List HCall → Nat) (D : Bool) (go : Int × Int → Dir → Option (Int × Int)) (hgo : StaysIn T go)
    (cgo : Int × Int → Dir → Option ((Int × Int) × Int)) (hcgo : StaysIn T (dropCost cgo)) (orig dest : Int × Int) (ho : InGrid T orig) (hd : InGrid T dest)
    (found : Int × Int → Bool) (fuel : Nat) :
    (Bf.iterTable T h1 D go orig fuel = Bf.iterHash D go orig fuel ∧ Bf.iterTable T h1 D go orig fuel = Bf.iterBtree D go orig fuel) ∧
    (Bf.pathTable T h1 h2 D go orig found fuel = Bf.pathHash T D go orig found fuel ∧
      Bf.pathTable T h1 h2 D go orig found fuel = Bf.pathBtree T D go orig found fuel) ∧
    (Astar.pathTable T h1 h2 D go orig dest fuel = Astar.pathHash T D go orig dest fuel ∧
      Astar.pathTable T h1 h2 D go orig dest fuel = Astar.pathBtree T D go orig dest fuel) ∧
    (Ucs.pathTable T h1 h2 D cgo orig dest fuel = Ucs.pathHash T D cgo orig dest fuel ∧
      Ucs.pathTable T h1 h2 D cgo orig dest fuel = Ucs.pathBtree T D cgo orig dest fuel) := by
  have a := Bf.iterAll_ideal (SetImpl.table_sim T h1) hgo D ho fuel
  have b := Bf.searchPath_ideal hT (SetImpl.table_sim T h1) (MapImpl.table_sim T h2 none) hgo D ho found fuel
  have c := Astar.searchPath_ideal hT (MapImpl.table_sim T h2 0) (MapImpl.table_sim T h1 none) hgo D ho hd fuel
  have d := Ucs.searchPath_ideal hT (MapImpl.table_sim T h2 0) (MapImpl.table_sim T h1 none) hcgo D ho hd fuel
  refine ⟨⟨a.trans ?_, a.trans ?_⟩, ⟨b.trans ?_, b.trans ?_⟩, ⟨c.trans ?_, c.trans ?_⟩, ⟨d.trans ?_, d.trans ?_⟩⟩
  · exact (Bf.iterAll_ideal (SetImpl.hash_sim T) hgo D ho fuel).symm
  · exact (Bf.iterAll_ideal (SetImpl.btree_sim T) hgo D ho fuel).symm
  · exact (Bf.searchPath_ideal hT (SetImpl.hash_sim T) (MapImpl.hash_sim T none) hgo D ho found fuel).symm
  · exact (Bf.searchPath_ideal hT (SetImpl.btree_sim T) (MapImpl.btree_sim T none) hgo D ho found fuel).symm
  · exact (Astar.searchPath_ideal hT (MapImpl.hash_sim T 0) (MapImpl.hash_sim T none) hgo D ho hd fuel).symm
  · exact (Astar.searchPath_ideal hT (MapImpl.btree_sim T 0) (MapImpl.btree_sim T none) hgo D ho hd fuel).symm
  · exact (Ucs.searchPath_ideal hT (MapImpl.hash_sim T 0) (MapImpl.hash_sim T none) hcgo D ho hd fuel).symm
  · exact (Ucs.searchPath_ideal hT (MapImpl.btree_sim T 0) (MapImpl.btree_sim T none) hcgo D ho hd fuel).symm

example : (PosTy.tuple .i8).WF ∧ StaysIn (.tuple .i8) room ∧ InGrid (.tuple .i8) (-2, 0) ∧ InGrid (.tuple .i8) (2, 0) ∧
    Astar.pathTable (.tuple .i8) (fun cs => cs.length) (fun _ => 3) false room (-2, 0) (2, 0) 202 = .ok (.ok [.E, .S, .S, .E, .E, .E, .N, .N]) :=
  ⟨by decide, (room_adjacent .i8 (by decide)).staysIn, by decide, by decide, by decide +kernel⟩

end Sqrid
