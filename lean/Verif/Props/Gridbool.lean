import Verif.Proofs.Gridbool
import Verif.Props.Grid
import Verif.Spec.Gridbool
/-!
# Properties of boolean grids: C37 – C44

A gridbool is the list of its WORDS 32-bit words. `cols T * rows T ≤ 32 * WORDS` says that there is a bit per position; the check made at
compile time implies it for every `Pos` (C43).
-/

namespace Sqrid

-- Statements that do not mention a target are about a debug build for a 64-bit machine.
attribute [local instance] debug64

open Spec

namespace Gridbool

/-- Runs one writing operation. -/
def run [Target] (T : PosTy) (gb : List (BitVec 32)) : GbOp → Out (List (BitVec 32))
  | .set p value => set T gb p value
  | .setT p => setT T gb p
  | .setF p => setF T gb p
  | .setIterT ps => setIterT T gb ps
  | .setIterF ps => setIterF T gb ps

theorem writes_rep [Target] {T : PosTy} (hT : T.IsGrid) {W : Nat} (hW : T.nx * T.ny ≤ 32 * W) (ws : List (P2 × Bool))
    (hws : ∀ w ∈ ws, T.Valid w.1) {gb f pad} (h : Rep T W gb f pad) :
    ∃ gb', ws.foldlM (fun gb w => set T gb w.1 w.2) gb = .ok gb' ∧
      Rep T W gb' (fun p => (lastWrite ws p).getD (f p)) pad := by
  obtain ⟨g', h1, h2⟩ := foldlM_rel (fun gb f => Rep T W gb f pad) (fun gb (w : P2 × Bool) => set T gb w.1 w.2)
    (fun f w => upd f w.1 w.2) ws (fun g f w hw hR => hR.set hT hW (hws w hw) w.2) gb f h
  refine ⟨g', h1, h2.1, fun p hp => ?_, h2.2.2⟩
  rw [h2.2.1 p hp]
  clear h1 h2 hws h
  induction ws using List.reverseRecOn with
  | nil => rfl
  | append_singleton ws w ih =>
    simp only at ih ⊢
    rw [List.foldl_append, List.foldl_cons, List.foldl_nil, Grid.lastWrite_concat]
    by_cases e : w.1 = p
    · subst e; simp
    · rw [upd_other _ _ (fun h => e h.symm), if_neg e, ih]

theorem run_eq [Target] (T : PosTy) (gb : List (BitVec 32)) (op : GbOp) :
    run T gb op = op.writes.foldlM (fun gb w => set T gb w.1 w.2) gb := by
  have one : ∀ (x : Out (List (BitVec 32))), (x >>= fun s => (pure s : Out _)) = x := by
    intro x; cases x <;> rfl
  cases op with
  | set p b => simp only [run, GbOp.writes, List.foldlM_cons, List.foldlM_nil, one]
  | setT p => simp only [run, GbOp.writes, List.foldlM_cons, List.foldlM_nil, one]; rfl
  | setF p => simp only [run, GbOp.writes, List.foldlM_cons, List.foldlM_nil, one]; rfl
  | setIterT ps => simp only [run, GbOp.writes, List.foldlM_map, setIterT]; rfl
  | setIterF ps => simp only [run, GbOp.writes, List.foldlM_map, setIterF]; rfl

theorem runs_eq [Target] (T : PosTy) (ops : List GbOp) : ∀ gb : List (BitVec 32),
    ops.foldlM (run T) gb = (ops.flatMap GbOp.writes).foldlM (fun gb w => set T gb w.1 w.2) gb := by
  induction ops with
  | nil => intro gb; rfl
  | cons op ops ih =>
    intro gb
    rw [List.foldlM_cons, List.flatMap_cons, List.foldlM_append, run_eq]
    congr 1
    funext gb'
    exact ih gb'

end Gridbool

/-! ## C37 -/

/-- C37. From any gridbool, after any sequence of writing operations, reading `p` gives the last value set at `p`, or the value before; no
panic. -/
theorem C37_history [Target] (T : PosTy) (hT : T.IsGrid) (gb : List (BitVec 32)) (hW : cols T * rows T ≤ 32 * (gb.length : Int))
    (ops : List GbOp) (hops : ∀ op ∈ ops, ∀ w ∈ op.writes, InGrid T w.1) :
    ∃ gb', ops.foldlM (Gridbool.run T) gb = .ok gb' ∧ gb'.length = gb.length ∧
      ∀ p, InGrid T p → Gridbool.get T gb' p = match lastWrite (ops.flatMap GbOp.writes) p with
        | some v => .ok v
        | none => Gridbool.get T gb p := by
  have hW' := (Gridbool.words_iff hT _).1 hW
  have h := Gridbool.exists_rep T gb
  obtain ⟨gb', h1, h2⟩ := Gridbool.writes_rep hT hW' (ops.flatMap GbOp.writes) (by
    intro w hw
    obtain ⟨op, hop, hw⟩ := List.mem_flatMap.1 hw
    exact hops op hop w hw) h
  refine ⟨gb', by rw [Gridbool.runs_eq, h1], h2.1, fun p hp => ?_⟩
  rw [h2.get hT hW' hp, h.get hT hW' hp]
  cases lastWrite (ops.flatMap GbOp.writes) p <;> rfl

/-- C37. The same from `Gridbool::repeat(b)`, for every `Pos` type and every WORDS accepted by the check at compile time. -/
theorem C37_from_repeat [Target] (xmax ymax : Int) (hx : 0 ≤ xmax ∧ xmax ≤ 65535) (hy : 0 ≤ ymax ∧ ymax ≤ 65535) (WORDS : Nat)
    (hok : Gridbool.staticOk (PosTy.pos xmax ymax) WORDS = true) (b : Bool) (ops : List GbOp)
    (hops : ∀ op ∈ ops, ∀ w ∈ op.writes, InGrid (PosTy.pos xmax ymax) w.1) :
    ∃ gb', ops.foldlM (Gridbool.run (PosTy.pos xmax ymax)) (Gridbool.repeat WORDS b) = .ok gb' ∧
      ∀ p, InGrid (PosTy.pos xmax ymax) p →
        Gridbool.get (PosTy.pos xmax ymax) gb' p = .ok ((lastWrite (ops.flatMap GbOp.writes) p).getD b) := by
  simp only [Gridbool.staticOk, Bool.and_eq_true, decide_eq_true_eq, IntTy.usize_has] at hok
  have hT := PosTy.pos_isGrid hx hy ((fits_iff hx hy).2 hok.1.1.2)
  have hW : cols (PosTy.pos xmax ymax) * rows (PosTy.pos xmax ymax) ≤ 32 * (WORDS : Int) := by
    have := hok.2.1
    simp only [PosTy.pos] at this
    show (xmax - 0 + 1) * (ymax - 0 + 1) ≤ _
    rw [Int.sub_zero, Int.sub_zero]
    omega
  have hl : (Gridbool.repeat WORDS b).length = WORDS := by simp [Gridbool.repeat]
  obtain ⟨gb', h1, -, h3⟩ := C37_history _ hT (Gridbool.repeat WORDS b) (by rw [hl]; exact hW) ops hops
  refine ⟨gb', h1, fun p hp => ?_⟩
  have hW' := (Gridbool.words_iff hT _).1 hW
  rw [h3 p hp, (Gridbool.rep_repeat hT hW' b).get hT hW' hp]
  cases lastWrite (ops.flatMap GbOp.writes) p <;> rfl

/-- Non-vacuity: 35 positions in two words, with writes on both sides of the word boundary. -/
example : Gridbool.staticOk (PosTy.pos 6 4) 2 = true ∧
    (∀ op ∈ ([.set (3, 4) true, .setIterT [(4, 4), (0, 0)], .setF (0, 0)] : List GbOp), ∀ w ∈ op.writes, InGrid (PosTy.pos 6 4) w.1) ∧
    ([.set (3, 4) true, .setIterT [(4, 4), (0, 0)], .setF (0, 0)] : List GbOp).foldlM (Gridbool.run (PosTy.pos 6 4))
      (Gridbool.repeat 2 false) = .ok [0x00000001#32, 0x80000000#32] :=
  ⟨by decide, by unfold InGrid; decide, by decide⟩

/-- C37. Every position of `ALL_TRUE` is true, and every position of `ALL_FALSE`, which is also the `Default`, is false. -/
theorem C37_constants [Target] (xmax ymax : Int) (hx : 0 ≤ xmax ∧ xmax ≤ 65535) (hy : 0 ≤ ymax ∧ ymax ≤ 65535) (WORDS : Nat)
    (hok : Gridbool.staticOk (PosTy.pos xmax ymax) WORDS = true) (p : Int × Int) (hp : InGrid (PosTy.pos xmax ymax) p) :
    Gridbool.get (PosTy.pos xmax ymax) (Gridbool.ALL_TRUE WORDS) p = .ok true ∧
    Gridbool.get (PosTy.pos xmax ymax) (Gridbool.ALL_FALSE WORDS) p = .ok false := by
  have key : ∀ b, Gridbool.get (PosTy.pos xmax ymax) (Gridbool.repeat WORDS b) p = .ok b := by
    intro b
    obtain ⟨gb', h1, h2⟩ := C37_from_repeat xmax ymax hx hy WORDS hok b [] (by simp)
    rw [List.foldlM_nil] at h1
    injection h1 with h1
    subst h1
    exact h2 p hp
  exact ⟨key true, key false⟩

example : Gridbool.staticOk (PosTy.pos 7 4) 2 = true ∧ Gridbool.get (PosTy.pos 7 4) (Gridbool.ALL_TRUE 2) (7, 4) = .ok true := by decide +kernel

/-! ## C38 -/

theorem Gridbool.mapM_get [Target] {T : PosTy} (hT : T.IsGrid) {W : Nat} (hW : T.nx * T.ny ≤ 32 * W) {gb f pad}
    (h : Gridbool.Rep T W gb f pad) (l : List P2) (hl : ∀ p ∈ l, T.Valid p) :
    l.mapM (fun p => Gridbool.get T gb p) = .ok (l.map f) ∧
    l.mapM (fun p => do let v ← Gridbool.get T gb p; (.ok (p, v) : Out (P2 × Bool))) = .ok (l.map fun p => (p, f p)) ∧
    Gridbool.filterOut (fun p => Gridbool.get T gb p) l = .ok (l.filter f) ∧
    Gridbool.filterOut (fun p => do let b ← Gridbool.get T gb p; .ok (!b)) l = .ok (l.filter fun p => !f p) := by
  induction l with
  | nil => exact ⟨rfl, rfl, rfl, rfl⟩
  | cons p l ih =>
    obtain ⟨i1, i2, i3, i4⟩ := ih (fun q hq => hl q (by simp [hq]))
    have hg := h.get hT hW (hl p (by simp))
    refine ⟨?_, ?_, ?_, ?_⟩
    · rw [List.mapM_cons, hg, Out.ok_bind, i1]; rfl
    · rw [List.mapM_cons, hg, Out.ok_bind, Out.ok_bind, i2]; rfl
    · rw [Gridbool.filterOut, hg, Out.ok_bind, i3, Out.ok_bind, List.filter_cons]
    · rw [Gridbool.filterOut, hg, Out.ok_bind, Out.ok_bind, i4, Out.ok_bind, List.filter_cons]

/-- C38. `iter` and `iter_pos` give what `get` gives at each position, in reading order. -/
theorem C38_iter [Target] (T : PosTy) (hT : T.IsGrid) (gb : List (BitVec 32)) (hW : cols T * rows T ≤ 32 * (gb.length : Int)) :
    ∃ l, Gridbool.iter T gb = .ok l ∧ l.map Out.ok = (allPositions T true).map (Gridbool.get T gb) ∧
      Gridbool.iterPos T gb = .ok ((allPositions T true).zip l) := by
  have hW' := (Gridbool.words_iff hT _).1 hW
  have h := Gridbool.exists_rep T gb
  have hv : ∀ p ∈ allPositions T true, T.Valid p := fun p hp => PosTy.mem_allPositions.1 hp
  obtain ⟨m1, m2, -, -⟩ := Gridbool.mapM_get hT hW' h (allPositions T true) hv
  refine ⟨_, by rw [Gridbool.iter, PosTy.toList_eq hT.wf, Out.ok_bind, m1], ?_, ?_⟩
  · rw [List.map_map]
    apply List.map_congr_left
    intro p hp
    exact (h.get hT hW' (hv p hp)).symm
  · rw [Gridbool.iterPos, PosTy.toList_eq hT.wf, Out.ok_bind, m2, List.zip_map_right]
    congr 1
    generalize allPositions T true = l
    induction l with
    | nil => rfl
    | cons a l ih => simp only [List.map_cons, List.zip_cons_cons, ← ih]; rfl

/-- C38. `iter_t` yields exactly the positions where `get` is true and `iter_f` exactly those where it is false, each once and in
reading order. -/
theorem C38_iter_t_f [Target] (T : PosTy) (hT : T.IsGrid) (gb : List (BitVec 32)) (hW : cols T * rows T ≤ 32 * (gb.length : Int)) :
    ∃ lt lf, Gridbool.iterT T gb = .ok lt ∧ Gridbool.iterF T gb = .ok lf ∧
      List.Sublist lt (allPositions T true) ∧ List.Sublist lf (allPositions T true) ∧
      (∀ p, p ∈ lt ↔ InGrid T p ∧ Gridbool.get T gb p = .ok true) ∧
      (∀ p, p ∈ lf ↔ InGrid T p ∧ Gridbool.get T gb p = .ok false) := by
  have hW' := (Gridbool.words_iff hT _).1 hW
  have h := Gridbool.exists_rep T gb
  have hv : ∀ p ∈ allPositions T true, T.Valid p := fun p hp => PosTy.mem_allPositions.1 hp
  obtain ⟨-, -, m3, m4⟩ := Gridbool.mapM_get hT hW' h (allPositions T true) hv
  refine ⟨_, _, by rw [Gridbool.iterT, PosTy.toList_eq hT.wf, Out.ok_bind, m3],
    by rw [Gridbool.iterF, PosTy.toList_eq hT.wf, Out.ok_bind, m4], List.filter_sublist, List.filter_sublist, ?_, ?_⟩
  · intro p
    rw [List.mem_filter, PosTy.mem_allPositions]
    refine and_congr_right fun hp => ?_
    rw [h.get hT hW' hp]; simp
  · intro p
    rw [List.mem_filter, PosTy.mem_allPositions]
    refine and_congr_right fun hp => ?_
    rw [h.get hT hW' hp]; simp

example : Gridbool.iterT (PosTy.pos 2 1) [0x14000000#32] = .ok [(0, 1), (2, 1)] ∧
    Gridbool.iterF (PosTy.pos 2 1) [0x14000000#32] = .ok [(0, 0), (1, 0), (2, 0), (1, 1)] ∧
    Gridbool.iter (PosTy.pos 2 1) [0x14000000#32] = .ok [false, false, false, true, false, true] := by decide

/-! ## C39 -/

/-- C39. Collecting positions gives true exactly at the collected positions. -/
theorem C39_collect_positions [Target] (T : PosTy) (hT : T.IsGrid) (WORDS : Nat) (hW : cols T * rows T ≤ 32 * (WORDS : Int))
    (items : List (Int × Int)) (hi : ∀ p ∈ items, InGrid T p) :
    ∃ gb, Gridbool.fromPositions T WORDS items = .ok gb ∧
      ∀ p, InGrid T p → Gridbool.get T gb p = .ok (decide (p ∈ items)) := by
  have hW' := (Gridbool.words_iff hT _).1 hW
  have hl : (Gridbool.repeat WORDS false).length = WORDS := by simp [Gridbool.repeat]
  obtain ⟨gb, h1, -, h3⟩ := C37_history T hT (Gridbool.repeat WORDS false) (by rw [hl]; exact hW) [.setIterT items] (by
    intro op hop w hw
    simp only [List.mem_singleton] at hop
    subst hop
    simp only [GbOp.writes, List.mem_map] at hw
    obtain ⟨p, hp, rfl⟩ := hw
    exact hi p hp)
  refine ⟨gb, ?_, fun p hp => ?_⟩
  · rw [List.foldlM_cons] at h1
    rw [Gridbool.fromPositions, Gridbool.ALL_FALSE, ← h1]
    simp only [Gridbool.run]
    cases Gridbool.setIterT T (Gridbool.repeat WORDS false) items <;> rfl
  · rw [h3 p hp, (Gridbool.rep_repeat hT hW' false).get hT hW' hp]
    simp only [List.flatMap_cons, List.flatMap_nil, List.append_nil, GbOp.writes, lastWrite]
    rw [← List.map_reverse]
    by_cases hm : p ∈ items
    · cases hf : (items.reverse.map fun p => (p, true)).find? (fun w => decide (w.1 = p)) with
      | none =>
        rw [List.find?_eq_none] at hf
        exact absurd (hf (p, true) (List.mem_map.2 ⟨p, List.mem_reverse.2 hm, rfl⟩)) (by simp)
      | some w =>
        have := List.mem_of_find?_eq_some hf
        obtain ⟨q, -, rfl⟩ := List.mem_map.1 this
        simp [hm]
    · have hf : (items.reverse.map fun p => (p, true)).find? (fun w => decide (w.1 = p)) = none := by
        rw [List.find?_eq_none]
        intro w hw
        obtain ⟨q, hq, rfl⟩ := List.mem_map.1 hw
        simp only [decide_eq_true_eq]
        rintro rfl
        exact hm (List.mem_reverse.1 hq)
      rw [hf]; simp [hm]

theorem Gridbool.fromBoolsLoop_rep [Target] {T : PosTy} (hT : T.IsGrid) {W : Nat} (hW : T.nx * T.ny ≤ 32 * W) (ps : List P2) :
    ∀ (items : List Bool) (gb f pad), (∀ p ∈ ps, T.Valid p) → Gridbool.Rep T W gb f pad → ps.length ≤ items.length →
      ∃ gb' f', Gridbool.fromBoolsLoop T ps items gb = .ok (gb', items.drop ps.length) ∧ Gridbool.Rep T W gb' f' pad ∧
        (∀ q, q ∉ ps → f' q = f q) ∧ (ps.Nodup → ps.map f' = items.take ps.length) := by
  induction ps with
  | nil => intro items gb f pad _ hR _; exact ⟨gb, f, rfl, hR, fun _ _ => rfl, fun _ => rfl⟩
  | cons p ps ih =>
    intro items gb f pad hv hR hle
    cases items with
    | nil => simp at hle
    | cons b items =>
      obtain ⟨g1, h1, h2⟩ := hR.set hT hW (hv p (by simp)) b
      obtain ⟨gb', f', k1, k2, k3, k4⟩ := ih items g1 _ pad (fun q hq => hv q (by simp [hq])) h2
        (by simpa using hle)
      refine ⟨gb', f', ?_, k2, ?_, ?_⟩
      · rw [Gridbool.fromBoolsLoop, h1, Out.ok_bind, k1]; rfl
      · intro q hq
        simp only [List.mem_cons, not_or] at hq
        rw [k3 q hq.2, upd_other _ _ hq.1]
      · intro hn
        rw [List.nodup_cons] at hn
        rw [List.map_cons, List.length_cons, List.take_succ_cons, k4 hn.2, k3 p hn.1, upd_same]

theorem Gridbool.fromBoolsLoop_short [Target] {T : PosTy} (hT : T.IsGrid) {W : Nat} (hW : T.nx * T.ny ≤ 32 * W) (ps : List P2) :
    ∀ (items : List Bool) (gb f pad), (∀ p ∈ ps, T.Valid p) → Gridbool.Rep T W gb f pad → items.length < ps.length →
      Gridbool.fromBoolsLoop T ps items gb = .panic := by
  induction ps with
  | nil => intro items gb f pad _ _ h; simp at h
  | cons p ps ih =>
    intro items gb f pad hv hR hlt
    cases items with
    | nil => rfl
    | cons b items =>
      obtain ⟨g1, h1, h2⟩ := hR.set hT hW (hv p (by simp)) b
      rw [Gridbool.fromBoolsLoop, h1, Out.ok_bind]
      exact ih items g1 _ pad (fun q hq => hv q (by simp [hq])) h2 (by simpa using hlt)

/-- C39. Collecting booleans succeeds exactly when there is one per position (it panics otherwise), and then `iter` returns the same
sequence. -/
theorem C39_collect_bools [Target] (T : PosTy) (hT : T.IsGrid) (WORDS : Nat) (hW : cols T * rows T ≤ 32 * (WORDS : Int))
    (items : List Bool) :
    ((items.length : Int) = cols T * rows T →
      ∃ gb, Gridbool.fromBools T WORDS items = .ok gb ∧ gb.length = WORDS ∧ Gridbool.iter T gb = .ok items) ∧
    ((items.length : Int) ≠ cols T * rows T → Gridbool.fromBools T WORDS items = .panic) := by
  have hW' := (Gridbool.words_iff hT _).1 hW
  have hv : ∀ p ∈ allPositions T true, T.Valid p := fun p hp => PosTy.mem_allPositions.1 hp
  have hlen := PosTy.allPositions_length (T := T) true
  have hcells := hT.cells_eq
  have hR := Gridbool.rep_repeat hT hW' false
  rw [Gridbool.fromBools, PosTy.toList_eq hT.wf, Out.ok_bind]
  constructor
  · intro hl
    have hl' : items.length = (allPositions T true).length := by omega
    obtain ⟨gb', f', k1, k2, -, k4⟩ := Gridbool.fromBoolsLoop_rep hT hW' (allPositions T true) items _ _ _ hv hR (by omega)
    refine ⟨gb', ?_, k2.1, ?_⟩
    · rw [Gridbool.ALL_FALSE, k1, Out.ok_bind]
      simp [hl']
    · rw [Gridbool.iter, PosTy.toList_eq hT.wf, Out.ok_bind, (Gridbool.mapM_get hT hW' k2 _ hv).1,
        k4 (PosTy.allPositions_nodup true), List.take_of_length_le (by omega)]
  · intro hl
    rw [Gridbool.ALL_FALSE]
    by_cases hlt : items.length < (allPositions T true).length
    · rw [Gridbool.fromBoolsLoop_short hT hW' _ _ _ _ _ hv hR hlt]; rfl
    · obtain ⟨gb', f', k1, k2, -, -⟩ := Gridbool.fromBoolsLoop_rep hT hW' (allPositions T true) items _ _ _ hv hR (by omega)
      rw [k1, Out.ok_bind]
      have : (items.drop (allPositions T true).length).isEmpty = false := by
        rw [List.isEmpty_eq_false_iff]; intro hc
        rw [List.drop_eq_nil_iff] at hc; omega
      simp [this]

example : Gridbool.fromBools (PosTy.pos 1 1) 1 [true, false, true, true] = .ok [0xB0000000#32] ∧
    Gridbool.fromBools (PosTy.pos 1 1) 1 [true, false, true] = .panic ∧
    Gridbool.fromBools (PosTy.pos 1 1) 1 [true, false, true, true, false] = .panic ∧
    Gridbool.fromPositions (PosTy.pos 1 1) 1 [(1, 0), (0, 1), (1, 0)] = .ok [0x60000000#32] := by decide

/-! ## C40 -/

/-- C40. After `flip_h`, reading `p` gives the former value at `p.flip_h()`; after `flip_v`, that at `p.flip_v()`; no
panic. -/
theorem C40_flip [Target] (T : PosTy) (hT : T.IsGrid) (gb : List (BitVec 32)) (hW : cols T * rows T ≤ 32 * (gb.length : Int)) :
    (∃ g', Gridbool.flipH T gb = .ok g' ∧ g'.length = gb.length ∧
      (∀ p, InGrid T p → Gridbool.get T g' p = Gridbool.get T gb (cols T - 1 - p.1, p.2)) ∧
      (∀ p, InGrid T p → Gridbool.get T g' p = (T.flipH p >>= fun q => Gridbool.get T gb q))) ∧
    (∃ g', Gridbool.flipV T gb = .ok g' ∧ g'.length = gb.length ∧
      (∀ p, InGrid T p → Gridbool.get T g' p = Gridbool.get T gb (p.1, rows T - 1 - p.2)) ∧
      (∀ p, InGrid T p → Gridbool.get T g' p = (T.flipV p >>= fun q => Gridbool.get T gb q))) := by
  have hW' := (Gridbool.words_iff hT _).1 hW
  have hf := Gridbool.exists_rep T gb
  constructor
  · obtain ⟨g', f', h1, h2, h3⟩ := Gridbool.flipH_rep hT hW' hf
    have key : ∀ p, InGrid T p → Gridbool.get T g' p = Gridbool.get T gb (T.X.MAX - p.1, p.2) := by
      intro p hp
      rw [h2.get hT hW' hp, h3 p hp, hf.get hT hW' (C17_flip_h_exact T hT p hp).2]
    refine ⟨g', h1, h2.1, fun p hp => ?_, fun p hp => ?_⟩
    · rw [key p hp, show cols T - 1 - p.1 = T.X.MAX - p.1 by rw [cols, hT.x0]; omega]
    · rw [(C17_flip_h_exact T hT p hp).1, Out.ok_bind, key p hp]
  · obtain ⟨g', f', h1, h2, h3⟩ := Gridbool.flipV_rep hT hW' hf
    have key : ∀ p, InGrid T p → Gridbool.get T g' p = Gridbool.get T gb (p.1, T.Y.MAX - p.2) := by
      intro p hp
      rw [h2.get hT hW' hp, h3 p hp, hf.get hT hW' (C17_flip_v_exact T hT p hp).2]
    refine ⟨g', h1, h2.1, fun p hp => ?_, fun p hp => ?_⟩
    · rw [key p hp, show rows T - 1 - p.2 = T.Y.MAX - p.2 by rw [rows, hT.y0]; omega]
    · rw [(C17_flip_v_exact T hT p hp).1, Out.ok_bind, key p hp]

/-- C40. Flipping twice restores the gridbool, bit by bit. -/
theorem C40_flip_twice [Target] (T : PosTy) (hT : T.IsGrid) (gb : List (BitVec 32)) (hW : cols T * rows T ≤ 32 * (gb.length : Int)) :
    (Gridbool.flipH T gb >>= Gridbool.flipH T) = .ok gb ∧ (Gridbool.flipV T gb >>= Gridbool.flipV T) = .ok gb := by
  have hW' := (Gridbool.words_iff hT _).1 hW
  have hf := Gridbool.exists_rep T gb
  constructor
  · obtain ⟨g1, f1, h1, h2, h3⟩ := Gridbool.flipH_rep hT hW' hf
    obtain ⟨g2, f2, k1, k2, k3⟩ := Gridbool.flipH_rep hT hW' h2
    rw [h1, Out.ok_bind, k1]
    congr 1
    refine k2.ext hT hf (fun p hp => ?_) (fun _ _ _ => rfl)
    rw [k3 p hp, h3 _ (C17_flip_h_exact T hT p hp).2]
    simp
  · obtain ⟨g1, f1, h1, h2, h3⟩ := Gridbool.flipV_rep hT hW' hf
    obtain ⟨g2, f2, k1, k2, k3⟩ := Gridbool.flipV_rep hT hW' h2
    rw [h1, Out.ok_bind, k1]
    congr 1
    refine k2.ext hT hf (fun p hp => ?_) (fun _ _ _ => rfl)
    rw [k3 p hp, h3 _ (C17_flip_v_exact T hT p hp).2]
    simp

example : Gridbool.flipH (PosTy.pos 2 1) [0x14000000#32] = .ok [0x14000000#32] ∧
    Gridbool.flipH (PosTy.pos 2 1) [0x18000000#32] = .ok [0x0C000000#32] ∧
    Gridbool.flipV (PosTy.pos 2 1) [0x18000000#32] = .ok [0xC0000000#32] := by decide

/-! ## C41 -/

/-- What C41 claims: on every square gridbool, the value at `p.rotate_cw()` after `rotate_cw` is the former value at `p`. -/
def C41_claim [Target] : Prop :=
  ∀ (M : Int), 0 ≤ M ∧ M ≤ 65535 → ∀ gb : List (BitVec 32), (M + 1) * (M + 1) ≤ 32 * (gb.length : Int) →
    ∃ g', Gridbool.rotateCw M gb = .ok g' ∧
      ∀ p, InGrid (PosTy.pos M M) p →
        ((PosTy.pos M M).rotateCw p >>= fun q => Gridbool.get (PosTy.pos M M) g' q) = Gridbool.get (PosTy.pos M M) gb p

/-- C41, exact behaviour for every size: `rotate_cw` rotates the positions outside the central part and leaves the central part as
it is. The central part is the centre if the number of lines is odd, and the four central positions if it is even. Same for `rotate_cc`. -/
theorem C41_rotate_exact [Target] (M : Int) (hM : 0 ≤ M ∧ M ≤ 65535) (hfit : Fits M M) (gb : List (BitVec 32))
    (hW : (M + 1) * (M + 1) ≤ 32 * (gb.length : Int)) :
    (∃ g', Gridbool.rotateCw M gb = .ok g' ∧ g'.length = gb.length ∧ ∀ q, InGrid (PosTy.pos M M) q →
      ((M / 2 ≤ q.1 ∧ q.1 ≤ M - M / 2) ∧ (M / 2 ≤ q.2 ∧ q.2 ≤ M - M / 2) →
        Gridbool.get (PosTy.pos M M) g' q = Gridbool.get (PosTy.pos M M) gb q) ∧
      (¬ ((M / 2 ≤ q.1 ∧ q.1 ≤ M - M / 2) ∧ (M / 2 ≤ q.2 ∧ q.2 ≤ M - M / 2)) →
        Gridbool.get (PosTy.pos M M) g' q = Gridbool.get (PosTy.pos M M) gb (q.2, M - q.1))) ∧
    (∃ g', Gridbool.rotateCc M gb = .ok g' ∧ g'.length = gb.length ∧ ∀ q, InGrid (PosTy.pos M M) q →
      ((M / 2 ≤ q.1 ∧ q.1 ≤ M - M / 2) ∧ (M / 2 ≤ q.2 ∧ q.2 ≤ M - M / 2) →
        Gridbool.get (PosTy.pos M M) g' q = Gridbool.get (PosTy.pos M M) gb q) ∧
      (¬ ((M / 2 ≤ q.1 ∧ q.1 ≤ M - M / 2) ∧ (M / 2 ≤ q.2 ∧ q.2 ≤ M - M / 2)) →
        Gridbool.get (PosTy.pos M M) g' q = Gridbool.get (PosTy.pos M M) gb (M - q.2, q.1))) := by
  have hT := PosTy.pos_isGrid hM hM hfit
  have hW' := (Gridbool.words_iff hT gb.length).1 (by
    show (M - 0 + 1) * (M - 0 + 1) ≤ _; rw [Int.sub_zero]; exact hW)
  have hf := Gridbool.exists_rep (PosTy.pos M M) gb
  have v1 : ∀ p, (PosTy.pos M M).Valid p → (PosTy.pos M M).Valid (M - p.2, p.1) :=
    fun p hp => (C18_rotate_exact _ hT rfl p hp).2.1
  have v2 : ∀ p, (PosTy.pos M M).Valid p → (PosTy.pos M M).Valid (p.2, M - p.1) :=
    fun p hp => (C18_rotate_exact _ hT rfl p hp).2.2.2
  obtain ⟨⟨g1, f1, h1, h2, h3⟩, ⟨g2, f2, k1, k2, k3⟩⟩ := Gridbool.rotate_rep hM hfit hW' hf
  refine ⟨⟨g1, h1, h2.1, fun q hq => ⟨fun hc => ?_, fun hc => ?_⟩⟩, ⟨g2, k1, k2.1, fun q hq => ⟨fun hc => ?_, fun hc => ?_⟩⟩⟩
  · rw [h2.get hT hW' hq, (h3 q hq).2 hc, hf.get hT hW' hq]
  · rw [h2.get hT hW' hq, (h3 q hq).1 hc, hf.get hT hW' (v2 q hq)]; rfl
  · rw [k2.get hT hW' hq, (k3 q hq).2 hc, hf.get hT hW' hq]
  · rw [k2.get hT hW' hq, (k3 q hq).1 hc, hf.get hT hW' (v1 q hq)]; rfl

/-- C41 does not hold, on any square with an even number of lines: some content is not rotated (a gridbool that is true only at one of the four
central positions is left as it is). -/
theorem C41_refuted_every_even_size [Target] (M : Int) (hM : 0 ≤ M ∧ M ≤ 65535) (hfit : Fits M M) (hodd : M % 2 = 1) (WORDS : Nat)
    (hW : (M + 1) * (M + 1) ≤ 32 * (WORDS : Int)) :
    ∃ gb g' p, gb.length = WORDS ∧ Gridbool.rotateCw M gb = .ok g' ∧ InGrid (PosTy.pos M M) p ∧
      ((PosTy.pos M M).rotateCw p >>= fun q => Gridbool.get (PosTy.pos M M) g' q) ≠ Gridbool.get (PosTy.pos M M) gb p := by
  have hT := PosTy.pos_isGrid hM hM hfit
  have hp : InGrid (PosTy.pos M M) (M / 2, M / 2) := by
    rw [PosTy.inGrid_iff, hT.valid_iff']
    show (0 ≤ M / 2 ∧ M / 2 ≤ M) ∧ (0 ≤ M / 2 ∧ M / 2 ≤ M)
    omega
  have hrot := C18_rotate_exact _ hT rfl _ hp
  have e1 : (PosTy.pos M M).rotateCw (M / 2, M / 2) = .ok (M - M / 2, M / 2) := hrot.1
  have hq : InGrid (PosTy.pos M M) (M - M / 2, M / 2) := hrot.2.1
  obtain ⟨gb, h1, h2⟩ := C39_collect_positions (PosTy.pos M M) hT WORDS (by
    show (M - 0 + 1) * (M - 0 + 1) ≤ _; rw [Int.sub_zero]; exact hW) [(M / 2, M / 2)] (by
    intro p hp'; rw [List.mem_singleton] at hp'; subst hp'; exact hp)
  have hlen : gb.length = WORDS := by
    have hl : (Gridbool.repeat WORDS false).length = WORDS := by simp [Gridbool.repeat]
    obtain ⟨g', a1, a2, -⟩ := C37_history (PosTy.pos M M) hT (Gridbool.repeat WORDS false) (by
      rw [hl]; show (M - 0 + 1) * (M - 0 + 1) ≤ _; rw [Int.sub_zero]; exact hW) [.setIterT [(M / 2, M / 2)]] (by
      intro op hop w hw
      simp only [List.mem_singleton] at hop
      subst hop
      simp only [GbOp.writes, List.mem_map, List.mem_singleton] at hw
      obtain ⟨p, rfl, rfl⟩ := hw
      exact hp)
    rw [List.foldlM_cons] at a1
    rw [Gridbool.fromPositions, Gridbool.ALL_FALSE] at h1
    simp only [Gridbool.run] at a1
    rw [h1] at a1
    injection a1 with a1
    rw [a1, a2, hl]
  obtain ⟨⟨g', k1, -, k3⟩, -⟩ := C41_rotate_exact M hM hfit gb (by rw [hlen]; exact hW)
  refine ⟨gb, g', (M / 2, M / 2), hlen, k1, hp, ?_⟩
  rw [e1, Out.ok_bind, (k3 _ hq).1 (by simp only; omega), h2 _ hq, h2 _ hp]
  have hne : ¬ ((M - M / 2, M / 2) : Int × Int) = (M / 2, M / 2) := by simp only [Prod.mk.injEq]; omega
  simp [hne]

/-- C41 does not hold as stated. -/
theorem C41_refuted [Target] : ¬ C41_claim := by
  intro h
  obtain ⟨gb, g', p, h1, h2, h3, h4⟩ := C41_refuted_every_even_size 1 (by decide_target) (by fits_small) (by decide_target) 1 (by decide_target)
  obtain ⟨g'', k1, k2⟩ := h 1 (by decide_target) gb (by rw [h1]; decide_target)
  rw [h2] at k1
  injection k1 with k1
  subst k1
  exact h4 (k2 p h3)

/-- C41, the part that holds: on squares with an odd number of lines (M even), after `rotate_cw` the value at `p.rotate_cw()` is the former
value at `p`, after `rotate_cc` that at `p.rotate_cc()` is, and each undoes the other. Missing: even sizes, see
`C41_refuted_every_even_size`. -/
theorem C41_odd_size_partial [Target] (M : Int) (hM : 0 ≤ M ∧ M ≤ 65535) (hfit : Fits M M) (heven : M % 2 = 0) (gb : List (BitVec 32))
    (hW : (M + 1) * (M + 1) ≤ 32 * (gb.length : Int)) :
    (∃ g', Gridbool.rotateCw M gb = .ok g' ∧ Gridbool.rotateCc M g' = .ok gb ∧ ∀ p, InGrid (PosTy.pos M M) p →
      ((PosTy.pos M M).rotateCw p >>= fun q => Gridbool.get (PosTy.pos M M) g' q) = Gridbool.get (PosTy.pos M M) gb p) ∧
    (∃ g', Gridbool.rotateCc M gb = .ok g' ∧ Gridbool.rotateCw M g' = .ok gb ∧ ∀ p, InGrid (PosTy.pos M M) p →
      ((PosTy.pos M M).rotateCc p >>= fun q => Gridbool.get (PosTy.pos M M) g' q) = Gridbool.get (PosTy.pos M M) gb p) := by
  have hT := PosTy.pos_isGrid hM hM hfit
  have hW' := (Gridbool.words_iff hT gb.length).1 (by
    show (M - 0 + 1) * (M - 0 + 1) ≤ _; rw [Int.sub_zero]; exact hW)
  have hcore : ∀ q, Gridbool.Core M q → cc M q = q ∧ cw M q = q := by
    intro q hq
    simp only [Gridbool.Core] at hq
    constructor <;> (apply Prod.ext <;> simp only [cc, cw] <;> omega)
  have hrep : ∀ {gb f pad}, Gridbool.Rep (PosTy.pos M M) gb.length gb f pad → gb.length = gb.length := fun _ => rfl
  have v1 : ∀ p, (PosTy.pos M M).Valid p → (PosTy.pos M M).rotateCw p = .ok (cw M p) ∧ (PosTy.pos M M).Valid (cw M p) :=
    fun p hp => ⟨(C18_rotate_exact _ hT rfl p hp).1, (C18_rotate_exact _ hT rfl p hp).2.1⟩
  have v2 : ∀ p, (PosTy.pos M M).Valid p → (PosTy.pos M M).rotateCc p = .ok (cc M p) ∧ (PosTy.pos M M).Valid (cc M p) :=
    fun p hp => ⟨(C18_rotate_exact _ hT rfl p hp).2.2.1, (C18_rotate_exact _ hT rfl p hp).2.2.2⟩
  have hf := Gridbool.exists_rep (PosTy.pos M M) gb
  obtain ⟨⟨g1, f1, h1, h2, h3⟩, ⟨g2, f2, k1, k2, k3⟩⟩ := Gridbool.rotate_rep hM hfit hW' hf
  have h3' : ∀ q, (PosTy.pos M M).Valid q → f1 q = Gridbool.bit gb ((PosTy.pos M M).idx (cc M q)) := by
    intro q hq
    by_cases hc : Gridbool.Core M q
    · rw [(h3 q hq).2 hc, (hcore q hc).1]
    · exact (h3 q hq).1 hc
  have k3' : ∀ q, (PosTy.pos M M).Valid q → f2 q = Gridbool.bit gb ((PosTy.pos M M).idx (cw M q)) := by
    intro q hq
    by_cases hc : Gridbool.Core M q
    · rw [(k3 q hq).2 hc, (hcore q hc).2]
    · exact (k3 q hq).1 hc
  obtain ⟨-, ⟨g3, f3, a1, a2, a3⟩⟩ := Gridbool.rotate_rep hM hfit hW' h2
  obtain ⟨⟨g4, f4, b1, b2, b3⟩, -⟩ := Gridbool.rotate_rep hM hfit hW' k2
  refine ⟨⟨g1, h1, ?_, fun p hp => ?_⟩, ⟨g2, k1, ?_, fun p hp => ?_⟩⟩
  · rw [a1]
    congr 1
    refine a2.ext hT hf (fun p hp => ?_) (fun _ _ _ => rfl)
    have e : f3 p = f1 (cw M p) := by
      by_cases hc : Gridbool.Core M p
      · rw [(a3 p hp).2 hc, (hcore p hc).2]
      · exact (a3 p hp).1 hc
    rw [e, h3' _ (v1 p hp).2, cc_cw]
  · rw [(v1 p hp).1, Out.ok_bind, h2.get hT hW' (v1 p hp).2, h3' _ (v1 p hp).2, cc_cw, hf.get hT hW' hp]
  · rw [b1]
    congr 1
    refine b2.ext hT hf (fun p hp => ?_) (fun _ _ _ => rfl)
    have e : f4 p = f2 (cc M p) := by
      by_cases hc : Gridbool.Core M p
      · rw [(b3 p hp).2 hc, (hcore p hc).1]
      · exact (b3 p hp).1 hc
    rw [e, k3' _ (v2 p hp).2, cw_cc]
  · rw [(v2 p hp).1, Out.ok_bind, k2.get hT hW' (v2 p hp).2, k3' _ (v2 p hp).2, cw_cc, hf.get hT hW' hp]

/-- A 3x3 gridbool is rotated; a 2x2 one is not. -/
example : Gridbool.rotateCw 2 [0x90000000#32] = .ok [0x60000000#32] ∧ Gridbool.rotateCw 1 [0x80000000#32] = .ok [0x80000000#32] := by
  decide

/-! ## C42 -/

/-- The gridbools of type `Gridbool<T, WORDS>` that the API can build from `repeat(b)`: by writes and flips, and by rotations on a
square. -/
inductive Gridbool.Built [Target] (T : PosTy) (WORDS : Nat) (b : Bool) : List (BitVec 32) → Prop
  | repeated : Built T WORDS b (Gridbool.repeat WORDS b)
  | op {gb gb'} (op : GbOp) : Built T WORDS b gb → (∀ w ∈ op.writes, InGrid T w.1) → Gridbool.run T gb op = .ok gb' → Built T WORDS b gb'
  | flipH {gb gb'} : Built T WORDS b gb → Gridbool.flipH T gb = .ok gb' → Built T WORDS b gb'
  | flipV {gb gb'} : Built T WORDS b gb → Gridbool.flipV T gb = .ok gb' → Built T WORDS b gb'
  | rotateCw {gb gb' M} : 0 ≤ M ∧ M ≤ 65535 → T = PosTy.pos M M → Built T WORDS b gb → Gridbool.rotateCw M gb = .ok gb' → Built T WORDS b gb'
  | rotateCc {gb gb' M} : 0 ≤ M ∧ M ≤ 65535 → T = PosTy.pos M M → Built T WORDS b gb → Gridbool.rotateCc M gb = .ok gb' → Built T WORDS b gb'

/-- What C42 claims: two gridbools built through the API are equal exactly when they agree at every position. -/
def C42_claim [Target] : Prop :=
  ∀ (T : PosTy), T.IsGrid → ∀ WORDS : Nat, Gridbool.staticOk T WORDS = true → ∀ b1 b2 g1 g2,
    Gridbool.Built T WORDS b1 g1 → Gridbool.Built T WORDS b2 g2 →
      (Gridbool.beq g1 g2 = true ↔ ∀ p, InGrid T p → Gridbool.get T g1 p = Gridbool.get T g2 p)

/-- C42 does not hold: on a 1x1 grid, `repeat(true)` and `repeat(false)` followed by `set_t((0,0))` agree at the only position, and are
not equal because the unused bits are compared. -/
theorem C42_refuted [Target] : ¬ C42_claim := by
  intro h
  have h1 := (h (PosTy.pos 0 0) (PosTy.pos_isGrid (by decide_target) (by decide_target) (by fits_small)) 1 (by decide_target) true false
    (Gridbool.repeat 1 true) [0x80000000#32] .repeated
    (.op (.setT (0, 0)) .repeated (by unfold InGrid; decide_target) (by decide_target))).2 (by
      rintro ⟨x, y⟩ hp
      have hp' : (0 ≤ x ∧ x ≤ 0) ∧ (0 ≤ y ∧ y ≤ 0) := hp
      obtain rfl : x = 0 := by omega
      obtain rfl : y = 0 := by omega
      decide_target)
  exact absurd h1 (by decide_target)

theorem Gridbool.Built.rep [Target] {T : PosTy} (hT : T.IsGrid) {WORDS : Nat} (hW : T.nx * T.ny ≤ 32 * WORDS) {b gb}
    (h : Gridbool.Built T WORDS b gb) : ∃ f, Gridbool.Rep T WORDS gb f (fun _ => b) := by
  induction h with
  | repeated => exact ⟨_, Gridbool.rep_repeat hT hW b⟩
  | op op _ hw hr ih =>
    obtain ⟨f, hf⟩ := ih
    obtain ⟨gb', h1, h2⟩ := Gridbool.writes_rep hT hW op.writes hw hf
    rw [Gridbool.run_eq, h1] at hr
    injection hr with hr
    subst hr
    exact ⟨_, h2⟩
  | flipH _ hr ih =>
    obtain ⟨f, hf⟩ := ih
    obtain ⟨g', f', h1, h2, -⟩ := Gridbool.flipH_rep hT hW hf
    rw [h1] at hr
    injection hr with hr
    subst hr
    exact ⟨_, h2⟩
  | flipV _ hr ih =>
    obtain ⟨f, hf⟩ := ih
    obtain ⟨g', f', h1, h2, -⟩ := Gridbool.flipV_rep hT hW hf
    rw [h1] at hr
    injection hr with hr
    subst hr
    exact ⟨_, h2⟩
  | rotateCw hM hTM _ hr ih =>
    obtain ⟨f, hf⟩ := ih
    subst hTM
    have hfit := (fits_iff hM hM).2 hT.fits
    obtain ⟨⟨g', f', h1, h2, -⟩, -⟩ := Gridbool.rotate_rep hM hfit hW hf
    rw [h1] at hr
    injection hr with hr
    subst hr
    exact ⟨_, h2⟩
  | rotateCc hM hTM _ hr ih =>
    obtain ⟨f, hf⟩ := ih
    subst hTM
    have hfit := (fits_iff hM hM).2 hT.fits
    obtain ⟨-, ⟨g', f', h1, h2, -⟩⟩ := Gridbool.rotate_rep hM hfit hW hf
    rw [h1] at hr
    injection hr with hr
    subst hr
    exact ⟨_, h2⟩

/-- C42, the part that holds: equality is agreement at every position between gridbools built from the same `repeat(b)` (in particular
between those built from `default()` or by collecting), and between any two when the number of positions is exactly `32 * WORDS`. Missing: gridbools
built from different constants on other sizes, see `C42_refuted`. -/
theorem C42_equality_partial [Target] (T : PosTy) (hT : T.IsGrid) (WORDS : Nat) (hW : cols T * rows T ≤ 32 * (WORDS : Int)) (b1 b2 : Bool)
    (g1 g2 : List (BitVec 32)) (h1 : Gridbool.Built T WORDS b1 g1) (h2 : Gridbool.Built T WORDS b2 g2)
    (hb : b1 = b2 ∨ cols T * rows T = 32 * (WORDS : Int)) :
    Gridbool.beq g1 g2 = true ↔ ∀ p, InGrid T p → Gridbool.get T g1 p = Gridbool.get T g2 p := by
  have hW' := (Gridbool.words_iff hT _).1 hW
  obtain ⟨f1, hf1⟩ := h1.rep hT hW'
  obtain ⟨f2, hf2⟩ := h2.rep hT hW'
  rw [Gridbool.beq, decide_eq_true_eq]
  constructor
  · rintro rfl p _; rfl
  · intro h
    refine hf1.ext hT hf2 (fun p hp => ?_) (fun i hi hi' => ?_)
    · have := h p hp
      rw [hf1.get hT hW' hp, hf2.get hT hW' hp] at this
      injection this
    · rcases hb with rfl | hb
      · rfl
      · rw [← hT.cells_eq] at hb; omega

/-- C42, the exact condition: two gridbools are equal if they agree at every position, and either were built from the same `repeat(b)` or have a bit
for every position and no other. -/
theorem C42_exact [Target] (T : PosTy) (hT : T.IsGrid) (WORDS : Nat) (hW : cols T * rows T ≤ 32 * (WORDS : Int)) (b1 b2 : Bool)
    (g1 g2 : List (BitVec 32)) (h1 : Gridbool.Built T WORDS b1 g1) (h2 : Gridbool.Built T WORDS b2 g2) :
    Gridbool.beq g1 g2 = true ↔ (∀ p, InGrid T p → Gridbool.get T g1 p = Gridbool.get T g2 p) ∧
      (b1 = b2 ∨ cols T * rows T = 32 * (WORDS : Int)) := by
  by_cases hb : b1 = b2 ∨ cols T * rows T = 32 * (WORDS : Int)
  · rw [C42_equality_partial T hT WORDS hW b1 b2 g1 g2 h1 h2 hb]
    exact ⟨fun h => ⟨h, hb⟩, And.left⟩
  · refine ⟨fun h => ?_, fun h => absurd h.2 hb⟩
    have hW' := (Gridbool.words_iff hT _).1 hW
    obtain ⟨f1, hf1⟩ := h1.rep hT hW'
    obtain ⟨f2, hf2⟩ := h2.rep hT hW'
    rw [Gridbool.beq, decide_eq_true_eq] at h
    subst h
    have hlt : T.nx * T.ny < 32 * WORDS := by
      by_contra hge
      have hN := hT.cells_eq
      exact hb (.inr (by omega))
    exact absurd (.inl ((hf1.2.2 _ (Nat.le_refl _) hlt).symm.trans (hf2.2.2 _ (Nat.le_refl _) hlt))) hb

/-- Collected gridbools are built from `repeat(false)`. -/
example : Gridbool.Built (PosTy.pos 2 1) 1 false [0x14000000#32] ∧
    cols (PosTy.pos 2 1) * rows (PosTy.pos 2 1) ≤ 32 * ((1 : Nat) : Int) ∧
    cols (PosTy.pos 7 3) * rows (PosTy.pos 7 3) = 32 * ((1 : Nat) : Int) :=
  ⟨.op (.setIterT [(2, 1), (0, 1)]) .repeated (by unfold InGrid; decide) (by decide), by decide, by decide⟩

/-! ## C43 -/

/-- C43. For every `Pos` type, the WORDS computed by `gridbool_create!` and by `sqrid_create!` pass the check made at compile
time, both give every position a word (no indexing panic), and the SIZE computed for `Grid` is the number of positions. -/
theorem C43_macros [Target] (xmax ymax : Nat) (hx : xmax ≤ 65535) (hy : ymax ≤ 65535) (hfit : Fits xmax ymax) (WORDS : Nat)
    (hw : WORDS = Gridbool.wordsGridboolCreate xmax ymax ∨ WORDS = Gridbool.wordsSqridCreate xmax ymax) :
    Gridbool.staticOk (PosTy.pos xmax ymax) WORDS = true ∧
    (∀ p, InGrid (PosTy.pos xmax ymax) p → ∃ i, (PosTy.pos xmax ymax).toUsize p = .ok i ∧ 0 ≤ i ∧ i / 32 < WORDS) ∧
    (Gridbool.sizeSqridCreate xmax ymax : Int) = cols (PosTy.pos xmax ymax) * rows (PosTy.pos xmax ymax) := by
  have hT := PosTy.pos_isGrid (xmax := xmax) (ymax := ymax) (by omega) (by omega) hfit
  have hlim := fits_room (xmax := xmax) (ymax := ymax) (by omega) (by omega) hfit
  rw [show ((xmax : Int) + 1) * ((ymax : Int) + 1) = (((xmax + 1) * (ymax + 1) : Nat) : Int) by push_cast; rfl] at hlim
  have hN : (((xmax + 1) * (ymax + 1) : Nat) : Int) = (xmax + 1 : Int) * (ymax + 1 : Int) := by push_cast; rfl
  have hc : cols (PosTy.pos xmax ymax) * rows (PosTy.pos xmax ymax) = (((xmax + 1) * (ymax + 1) : Nat) : Int) := by
    show ((xmax : Int) - 0 + 1) * ((ymax : Int) - 0 + 1) = _
    rw [Int.sub_zero, Int.sub_zero, hN]
  have hpos : 0 < (xmax + 1) * (ymax + 1) := Nat.mul_pos (by omega) (by omega)
  generalize hNN : (xmax + 1) * (ymax + 1) = N at *
  have hb : N ≤ 32 * WORDS ∧ 32 * WORDS ≤ N + 32 := by
    rcases hw with rfl | rfl
    · simp only [Gridbool.wordsGridboolCreate]; rw [hNN]; omega
    · simp only [Gridbool.wordsSqridCreate]; rw [hNN]; omega
  refine ⟨?_, ?_, ?_⟩
  · have hwh : (PosTy.pos xmax ymax).WIDTH * (PosTy.pos xmax ymax).HEIGHT = (N : Int) := hN.symm
    simp only [Gridbool.staticOk, hwh, Bool.and_eq_true, decide_eq_true_eq, IntTy.usize_has]
    omega
  · intro p hp
    obtain ⟨i, h1, -, h3, h4⟩ := C07_to_usize _ hT p hp
    refine ⟨i, h1, h3, ?_⟩
    rw [hc] at h4
    omega
  · rw [hc, Gridbool.sizeSqridCreate, hNN]

example : Gridbool.wordsGridboolCreate 7 3 = 1 ∧ Gridbool.wordsSqridCreate 7 3 = 2 ∧ Gridbool.wordsGridboolCreate 6 4 = 2 ∧
    Gridbool.wordsSqridCreate 6 4 = 2 := by decide

/-- C43. The check made at compile time accepts no grid whose positions cannot be counted in `usize`, and for the others, of all the WORDS whose bits
can be counted in `usize`, exactly the smallest that gives every position a bit, and the next one when the last word is full. -/
theorem C43_static_exact [Target] (xmax ymax WORDS : Nat) :
    Gridbool.staticOk (PosTy.pos xmax ymax) WORDS = true ↔
      cols (PosTy.pos xmax ymax) * rows (PosTy.pos xmax ymax) ≤ limit ∧ (WORDS : Int) * 32 ≤ limit ∧ (WORDS = ((xmax + 1) * (ymax + 1) + 31) / 32 ∨
        (xmax + 1) * (ymax + 1) % 32 = 0 ∧ WORDS = (xmax + 1) * (ymax + 1) / 32 + 1) := by
  have hc : cols (PosTy.pos xmax ymax) * rows (PosTy.pos xmax ymax) = (((xmax + 1) * (ymax + 1) : Nat) : Int) := by
    show ((xmax : Int) - 0 + 1) * ((ymax : Int) - 0 + 1) = _
    push_cast; ring
  have hwh : (PosTy.pos xmax ymax).WIDTH * (PosTy.pos xmax ymax).HEIGHT = (((xmax + 1) * (ymax + 1) : Nat) : Int) := by
    push_cast; rfl
  rw [hc]
  simp only [Gridbool.staticOk, hwh, Bool.and_eq_true, decide_eq_true_eq, IntTy.usize_has]
  have hpos : 0 < (xmax + 1) * (ymax + 1) := Nat.mul_pos (by omega) (by omega)
  generalize (xmax + 1) * (ymax + 1) = N at *
  omega

example : Gridbool.staticOk (PosTy.pos 7 3) 1 = true ∧ Gridbool.staticOk (PosTy.pos 7 3) 2 = true ∧
    Gridbool.staticOk (PosTy.pos 7 3) 3 = false ∧ Gridbool.staticOk (PosTy.pos 6 4) 1 = false ∧
    Gridbool.staticOk (PosTy.pos 6 4) 2 = true ∧ Gridbool.staticOk (PosTy.pos 6 4) 3 = false := by decide

example : @Gridbool.staticOk debug64 (PosTy.pos 65535 65535) 134217728 = true ∧ @Gridbool.staticOk debug32 (PosTy.pos 65535 65535) 134217728 = false ∧
    @Gridbool.staticOk debug32 (PosTy.pos 65535 65534) 134215680 = true := by decide

/-! ## C44 -/

/-- What C44 claims: the WIDTH and HEIGHT constants of every `PosT` implementation are what `width()` and `height()` return. -/
def C44_claim [Target] : Prop :=
  (∀ xmax ymax : Int, 0 ≤ xmax ∧ xmax ≤ 65535 → 0 ≤ ymax ∧ ymax ≤ 65535 →
    (PosTy.pos xmax ymax).width = .ok (PosTy.pos xmax ymax).WIDTH ∧ (PosTy.pos xmax ymax).height = .ok (PosTy.pos xmax ymax).HEIGHT) ∧
  ∀ t ∈ PosTy.tupleTypes, (PosTy.tuple t).width = .ok (PosTy.tuple t).WIDTH ∧ (PosTy.tuple t).height = .ok (PosTy.tuple t).HEIGHT

/-- C44 does not hold: `<(u8, u8)>::WIDTH` is 255 and `<(u8, u8)>::width()` is 256. -/
theorem C44_refuted [Target] : ¬ C44_claim := fun h => absurd (h.2 .u8 (by decide_target)).1 (by decide_target)

/-- C44. The disagreement is there for every integer tuple of the crate. -/
theorem C44_refuted_every_tuple [Target] (t : IntTy) (ht : t ∈ PosTy.tupleTypes) :
    (PosTy.tuple t).width ≠ .ok (PosTy.tuple t).WIDTH ∧ (PosTy.tuple t).height ≠ .ok (PosTy.tuple t).HEIGHT := by
  simp only [PosTy.tupleTypes, List.mem_cons, List.not_mem_nil, or_false] at ht
  rcases ht with rfl | rfl | rfl | rfl | rfl | rfl | rfl | rfl <;> decide_target

/-- C44. What the constants of a tuple are, with every build: one less than the number of columns and lines, cut at `usize::MAX`; those of
`(i32, i32)` do not compile for a 32-bit machine. -/
theorem C44_tuple_exact [Target] (t : IntTy) (ht : t ∈ PosTy.tupleTypes) :
    (Target.wide = false ∧ t = .i32 → PosTy.tupleWIDTH t = .panic) ∧
    (¬ (Target.wide = false ∧ t = .i32) →
      PosTy.tupleWIDTH t = .ok (min (cols (PosTy.tuple t) - 1) limit) ∧ PosTy.tupleWIDTH t = .ok (min (rows (PosTy.tuple t) - 1) limit)) := by
  simp only [PosTy.tupleTypes, List.mem_cons, List.not_mem_nil, or_false] at ht
  rcases ht with rfl | rfl | rfl | rfl | rfl | rfl | rfl | rfl <;> decide_target

/-- C44. The constants of the model's tuple types are those the compiler computes, whenever they are at most `usize::MAX`. -/
theorem C44_tuple_model [Target] (t : IntTy) (ht : t ∈ PosTy.tupleTypes) (v : Int) (h : PosTy.tupleWIDTH t = .ok v) (hv : v < limit) :
    (PosTy.tuple t).WIDTH = v ∧ (PosTy.tuple t).HEIGHT = v := by
  have h2 := (C44_tuple_exact t ht).2 (fun hc => by rw [(C44_tuple_exact t ht).1 hc] at h; cases h)
  rw [h] at h2
  obtain ⟨h2, h3⟩ := h2
  injection h2 with h2
  injection h3 with h3
  have e : (PosTy.tuple t).WIDTH = cols (PosTy.tuple t) - 1 := by
    show t.hi - t.lo = t.hi - t.lo + 1 - 1; omega
  have e' : (PosTy.tuple t).HEIGHT = rows (PosTy.tuple t) - 1 := by
    show t.hi - t.lo = t.hi - t.lo + 1 - 1; omega
  rw [e, e']
  omega

example : PosTy.tupleWIDTH .i8 = .ok 255 ∧ PosTy.tupleWIDTH .u128 = .ok 18446744073709551615 ∧
    @PosTy.tupleWIDTH release32 .i32 = .panic ∧ @PosTy.tupleWIDTH debug32 .u64 = .ok 4294967295 := by decide

/-- C44. As a consequence no `Gridbool<(u8, u8), WORDS>` works: every WORDS accepted by the check at compile time leaves the position
`(255, 255)` without a word, and reading it panics. -/
theorem C44_u8_gridbool_panics [Target] (WORDS : Nat) (h : Gridbool.staticOk (PosTy.tuple .u8) WORDS = true) (b : Bool) :
    WORDS = 2033 ∧ InGrid (PosTy.tuple .u8) (255, 255) ∧
      Gridbool.get (PosTy.tuple .u8) (Gridbool.repeat WORDS b) (255, 255) = .panic := by
  have hwh : (PosTy.tuple .u8).WIDTH * (PosTy.tuple .u8).HEIGHT = 65025 := by decide
  simp only [Gridbool.staticOk, hwh, Bool.and_eq_true, decide_eq_true_eq] at h
  obtain rfl : WORDS = 2033 := by have := h.2; omega
  refine ⟨rfl, by unfold InGrid; decide, ?_⟩
  have e : (PosTy.tuple .u8).toUsize (255, 255) = .ok 65535 := PosTy.u8_isGrid.toUsize_eq (by decide)
  rw [Gridbool.get, e, Out.ok_bind]
  have hb : Gridbool.byteBit (Int.toNat 65535) = (2047, 1#32) := by decide
  rw [hb]
  simp only
  rw [List.getElem?_eq_none (by rw [Gridbool.repeat, List.length_replicate]; decide)]

/-- C44, the part that holds: for every `Pos` type the trait constants agree with `width()`, `height()` and the number of columns and
lines, so that every WORDS accepted at compile time holds every position. Missing: the integer tuples, see the
refutations. -/
theorem C44_pos_partial [Target] (xmax ymax : Int) (hx : 0 ≤ xmax ∧ xmax ≤ 65535) (hy : 0 ≤ ymax ∧ ymax ≤ 65535) :
    (PosTy.pos xmax ymax).width = .ok (PosTy.pos xmax ymax).WIDTH ∧ (PosTy.pos xmax ymax).WIDTH = cols (PosTy.pos xmax ymax) ∧
    (PosTy.pos xmax ymax).height = .ok (PosTy.pos xmax ymax).HEIGHT ∧ (PosTy.pos xmax ymax).HEIGHT = rows (PosTy.pos xmax ymax) ∧
    ∀ WORDS, Gridbool.staticOk (PosTy.pos xmax ymax) WORDS = true → ∀ b p, InGrid (PosTy.pos xmax ymax) p →
      Gridbool.get (PosTy.pos xmax ymax) (Gridbool.repeat WORDS b) p = .ok b := by
  refine ⟨PosTy.pos_width hx, ?_, PosTy.pos_height hy, ?_, fun WORDS hok b p hp => ?_⟩
  · show xmax + 1 = xmax - 0 + 1; rw [Int.sub_zero]
  · show ymax + 1 = ymax - 0 + 1; rw [Int.sub_zero]
  · obtain ⟨gb', h1, h2⟩ := C37_from_repeat xmax ymax hx hy WORDS hok b [] (by simp)
    rw [List.foldlM_nil] at h1
    injection h1 with h1
    subst h1
    exact h2 p hp

/-- C44. The inherent constants `Pos::WIDTH` and `Pos::HEIGHT` are a `u16`: they agree except for 65536 columns or lines, where they do not
compile (overflow). -/
theorem C44_pos_inherent (xmax : Int) (hx : 0 ≤ xmax ∧ xmax ≤ 65535) :
    (xmax < 65535 → Pos.WIDTH xmax = .ok (xmax + 1) ∧ Pos.HEIGHT xmax = .ok (xmax + 1)) ∧
    (xmax = 65535 → Pos.WIDTH xmax = .panic ∧ Pos.HEIGHT xmax = .panic) := by
  constructor
  · intro h
    have : IntTy.u16.const (xmax + 1) = .ok (xmax + 1) :=
      if_pos (show IntTy.u16.Has _ from ⟨by show (0 : Int) ≤ _; omega, by show _ ≤ (65535 : Int); omega⟩)
    exact ⟨this, this⟩
  · rintro rfl; decide

example : Gridbool.staticOk (PosTy.tuple .u8) 2033 = true ∧ Gridbool.staticOk (PosTy.pos 65535 65535) 134217728 = true := by decide

end Sqrid
