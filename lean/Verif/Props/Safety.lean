import Verif.Proofs.NoUb
import Verif.Props.Gridbool
/-!
# Memory safety of `Gridbool` with every position type: C101. The order of the directions: C102
-/

namespace Sqrid

-- Statements that do not mention a target are about a debug build for a 64-bit machine.
attribute [local instance] debug64

open Spec

open Out.NoUb

/-! ## C101 -/

theorem Out.NoUb.mapM {f : α → Out β} (hf : ∀ a, (f a).NoUb) : ∀ l : List α, (l.mapM f).NoUb
  | [] => ok _
  | a :: l => by rw [List.mapM_cons]; exact (hf a).bind fun _ => (mapM hf l).bind fun _ => ok _

theorem Out.NoUb.toUsize [Target] (T : PosTy) (p : Int × Int) : (T.toUsize p).NoUb :=
  (intoUsize _ _).bind fun _ => (intoUsize _ _).bind fun _ => (width T).bind fun _ => (mul _ _ _).bind fun _ => add _ _ _

theorem Out.NoUb.positions (T : PosTy) (b : Bool) : (PosIter.toList T b).NoUb := collectWith (fun _ => ok _) _ _

namespace Gridbool

theorem get_noUb [Target] (T : PosTy) (gb : List (BitVec 32)) (p : Int × Int) : (get T gb p).NoUb :=
  (Out.NoUb.toUsize T p).bind fun i => by
    simp only
    split
    · exact ok _
    · exact panic

theorem setT_noUb [Target] (T : PosTy) (gb : List (BitVec 32)) (p : Int × Int) : (setT T gb p).NoUb :=
  (Out.NoUb.toUsize T p).bind fun i => by
    simp only
    split
    · exact ok _
    · exact panic

theorem setF_noUb [Target] (T : PosTy) (gb : List (BitVec 32)) (p : Int × Int) : (setF T gb p).NoUb :=
  (Out.NoUb.toUsize T p).bind fun i => by
    simp only
    split
    · exact ok _
    · exact panic

theorem set_noUb [Target] (T : PosTy) (gb : List (BitVec 32)) (p : Int × Int) (v : Bool) : (set T gb p v).NoUb := by
  unfold set
  split
  · exact setT_noUb _ _ _
  · exact setF_noUb _ _ _

theorem filterOut_noUb {f : (Int × Int) → Out Bool} (hf : ∀ p, (f p).NoUb) : ∀ l, (filterOut f l).NoUb
  | [] => ok _
  | p :: l => (hf p).bind fun _ => (filterOut_noUb hf l).bind fun _ => ok _

theorem fromBoolsLoop_noUb [Target] (T : PosTy) : ∀ ps items gb, (fromBoolsLoop T ps items gb).NoUb
  | [], _, _ => ok _
  | _ :: _, [], _ => panic
  | p :: ps, b :: items, gb => (set_noUb T gb p b).bind fun gb => fromBoolsLoop_noUb T ps items gb

theorem swap_noUb [Target] (T : PosTy) (gb : List (BitVec 32)) (p q : Int × Int) :
    (do let tmp ← get T gb p; let v2 ← get T gb q; let gb ← set T gb p v2; set T gb q tmp : Out _).NoUb :=
  (get_noUb _ _ _).bind fun _ => (get_noUb _ _ _).bind fun _ => (set_noUb _ _ _ _).bind fun _ => set_noUb _ _ _ _

end Gridbool

/-- C101. No function of `Gridbool` has undefined behaviour: with any type of positions, any number of words with any content and any arguments. -/
theorem C101_no_ub [Target] (T : PosTy) (gb : List (BitVec 32)) :
    (∀ p, Gridbool.get T gb p ≠ .ub ∧ Gridbool.setT T gb p ≠ .ub ∧ Gridbool.setF T gb p ≠ .ub ∧ ∀ v, Gridbool.set T gb p v ≠ .ub) ∧
    Gridbool.iter T gb ≠ .ub ∧ Gridbool.iterPos T gb ≠ .ub ∧ Gridbool.iterT T gb ≠ .ub ∧ Gridbool.iterF T gb ≠ .ub ∧
    (∀ ps, Gridbool.setIterT T gb ps ≠ .ub ∧ Gridbool.setIterF T gb ps ≠ .ub) ∧
    (∀ WORDS ps, Gridbool.fromPositions T WORDS ps ≠ .ub) ∧ (∀ WORDS bs, Gridbool.fromBools T WORDS bs ≠ .ub) ∧
    Gridbool.flipH T gb ≠ .ub ∧ Gridbool.flipV T gb ≠ .ub ∧ ∀ M, Gridbool.rotateCw M gb ≠ .ub ∧ Gridbool.rotateCc M gb ≠ .ub := by
  have hT : ∀ gb ps, (Gridbool.setIterT T gb ps).NoUb := fun gb ps => foldlM (fun s a => Gridbool.setT_noUb T s a) ps gb
  have hrot : ∀ M p, ((PosTy.pos M M).rotateCw p).NoUb := fun M p => (sub _ _ _).bind fun _ => (unwrapRes _).bind fun _ => (unwrapRes _).bind fun _ => ok _
  have hB : ∀ B : BTy, B.toList.NoUb := fun B => Out.NoUb.collectWith (fun _ => ok _) _ _
  refine ⟨fun p => ⟨Gridbool.get_noUb T gb p, Gridbool.setT_noUb T gb p, Gridbool.setF_noUb T gb p, Gridbool.set_noUb T gb p⟩,
    (positions T true).bind fun ps => mapM (fun p => Gridbool.get_noUb T gb p) ps,
    (positions T true).bind fun ps => mapM (fun p => (Gridbool.get_noUb T gb p).bind fun _ => ok _) ps,
    (positions T true).bind fun ps => Gridbool.filterOut_noUb (fun p => Gridbool.get_noUb T gb p) ps,
    (positions T true).bind fun ps => Gridbool.filterOut_noUb (fun p => (Gridbool.get_noUb T gb p).bind fun _ => ok _) ps,
    fun ps => ⟨hT gb ps, foldlM (fun s a => Gridbool.setF_noUb T s a) ps gb⟩, fun WORDS ps => hT _ ps, fun WORDS bs => ?_, ?_, ?_, fun M => ⟨?_, ?_⟩⟩
  · refine (positions T true).bind fun ps => (Gridbool.fromBoolsLoop_noUb T ps bs _).bind fun r => ?_
    simp only
    split
    · exact ok _
    · exact panic
  · refine (hB _).bind fun ys => (width T).bind fun w => foldlM (fun s y => foldlM (fun s x => ?_) _ s) ys gb
    exact (unwrapRes _).bind fun p => ((unwrap _).bind fun _ => unwrapRes _).bind fun q => Gridbool.swap_noUb T s p q
  · refine ((intoUsize _ _).bind fun _ => add _ _ _).bind fun h => (hB _).bind fun xs => foldlM (fun s y => foldlM (fun s x => ?_) _ s) _ gb
    exact (unwrapRes _).bind fun p => ((unwrap _).bind fun _ => unwrapRes _).bind fun q => Gridbool.swap_noUb T s p q
  all_goals
    refine foldlM (fun s y => foldlM (fun s x => ?_) _ s) _ gb
    exact (unwrapRes _).bind fun p0 => (hrot M p0).bind fun p1 => (hrot M p1).bind fun p2 => (hrot M p2).bind fun p3 =>
      (Gridbool.get_noUb _ _ _).bind fun _ => (Gridbool.get_noUb _ _ _).bind fun _ => (Gridbool.get_noUb _ _ _).bind fun _ => (Gridbool.get_noUb _ _ _).bind fun _ =>
      (Gridbool.set_noUb _ _ _ _).bind fun _ => (Gridbool.set_noUb _ _ _ _).bind fun _ => (Gridbool.set_noUb _ _ _ _).bind fun _ => Gridbool.set_noUb _ _ _ _

/-- C101. Reading and writing, with any type of positions and any number of words: with a word for the index of the position, a write changes that bit alone; without one,
reading and writing panic, as they do for a position that has no index. -/
theorem C101_get_set_exact [Target] (T : PosTy) (gb : List (BitVec 32)) (p : Int × Int) :
    (T.toUsize p = .panic → Gridbool.get T gb p = .panic ∧ ∀ v, Gridbool.set T gb p v = .panic) ∧
    ∀ i : Nat, T.toUsize p = .ok i →
      (32 * gb.length ≤ i → Gridbool.get T gb p = .panic ∧ ∀ v, Gridbool.set T gb p v = .panic) ∧
      (i < 32 * gb.length → (∃ b, Gridbool.get T gb p = .ok b) ∧ ∀ v, ∃ gb', Gridbool.set T gb p v = .ok gb' ∧ gb'.length = gb.length ∧
        Gridbool.get T gb' p = .ok v ∧ ∀ q (j : Nat), T.toUsize q = .ok j → j ≠ i → Gridbool.get T gb' q = Gridbool.get T gb q) := by
  refine ⟨fun h => ⟨by rw [Gridbool.get, h]; rfl, fun v => by cases v <;> simp [Gridbool.set, Gridbool.setT, Gridbool.setF, h]⟩, fun i h => ⟨fun hi => ?_, fun hi => ?_⟩⟩
  · have hn : gb[i / 32]? = none := List.getElem?_eq_none (by omega)
    exact ⟨by simp [Gridbool.get, h, Gridbool.byteBit, hn], fun v => by cases v <;> simp [Gridbool.set, Gridbool.setT, Gridbool.setF, h, Gridbool.byteBit, hn]⟩
  · have hget : ∀ (g : List (BitVec 32)) q (j : Nat), T.toUsize q = .ok j → Gridbool.get T g q = if j < 32 * g.length then .ok (Gridbool.bit g j) else .panic := by
      intro g q j hj
      rw [Gridbool.get, hj, Out.ok_bind]
      simp only [Gridbool.byteBit, Int.toNat_natCast]
      by_cases hl : j / 32 < g.length
      · rw [List.getElem?_eq_getElem hl, if_pos (by omega)]
        simp only
        rw [Gridbool.bit, List.getElem?_eq_getElem hl, Option.getD_some]
        exact congrArg Out.ok (Gridbool.and_shift_bit _ _ (by omega))
      · rw [List.getElem?_eq_none (by omega), if_neg (by omega)]
    have hlt : i / 32 < gb.length := by omega
    have hw : (gb[i / 32]?).getD 0#32 = gb[i / 32] := by rw [List.getElem?_eq_getElem hlt, Option.getD_some]
    refine ⟨⟨_, by rw [hget gb p i h, if_pos hi]⟩, fun v => ?_⟩
    have key : ∃ w', Gridbool.set T gb p v = .ok (gb.set (i / 32) w') ∧
        ∀ m, m < 32 → w'.getLsbD m = if m = 31 - i % 32 then v else ((gb[i / 32]?).getD 0#32).getLsbD m := by
      cases v
      · refine ⟨gb[i / 32] &&& ~~~ BitVec.twoPow 32 (31 - i % 32), ?_, fun m hm => by rw [Gridbool.andNot_bit _ _ _ hm, hw]⟩
        rw [Gridbool.set, if_neg (by simp), Gridbool.setF, h, Out.ok_bind]
        simp only [Gridbool.byteBit, Int.toNat_natCast]
        rw [List.getElem?_eq_getElem hlt, Gridbool.shift_bit _ (by omega)]
      · refine ⟨gb[i / 32] ||| BitVec.twoPow 32 (31 - i % 32), ?_, fun m hm => by rw [Gridbool.or_bit _ _ _ (by omega), hw]⟩
        rw [Gridbool.set, if_pos rfl, Gridbool.setT, h, Out.ok_bind]
        simp only [Gridbool.byteBit, Int.toNat_natCast]
        rw [List.getElem?_eq_getElem hlt, Gridbool.shift_bit _ (by omega)]
    obtain ⟨w', k1, k2⟩ := key
    refine ⟨_, k1, List.length_set, ?_, fun q j hj hne => ?_⟩
    · rw [hget _ p i h, List.length_set, if_pos hi, Gridbool.bit_set gb i i hlt w' v k2, if_pos rfl]
    · rw [hget _ q j hj, hget _ q j hj, List.length_set, Gridbool.bit_set gb i j hlt w' v k2, if_neg hne]

example : (PosTy.tuple .u8).toUsize (255, 255) = .ok (65535 : Nat) ∧ Gridbool.staticOk (PosTy.tuple .u8) 2033 = true ∧ 32 * (Gridbool.repeat 2033 false).length ≤ 65535 ∧
    (PosTy.tuple .u8).toUsize (3, 0) = .ok (3 : Nat) ∧ (PosTy.tuple .i8).toUsize (-1, 0) = .panic := by decide +kernel

/-! ## C102 -/

/-- C102. The directions are ordered clockwise from the north, strictly and totally. -/
theorem C102_dir_order (a b c : Dir) :
    (Dir.lt a b = true ↔ (clockwise true).idxOf a < (clockwise true).idxOf b) ∧ Dir.lt a a = false ∧
    (Dir.lt a b = true ∨ a = b ∨ Dir.lt b a = true) ∧ (Dir.lt a b = true → Dir.lt b c = true → Dir.lt a c = true) ∧ (a = .N ∨ Dir.lt .N a = true) := by
  cases a <;> cases b <;> cases c <;> decide

example : Dir.lt .N .NE = true ∧ Dir.lt .W .NW = true ∧ Dir.lt .S .E = false := by decide

end Sqrid
