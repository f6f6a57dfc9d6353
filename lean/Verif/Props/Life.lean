import Verif.Spec.Life
import Verif.Props.Around
import Verif.Props.Gridbool
/-! C155: cellular automata on a `Gridbool`. -/

namespace Sqrid
open Spec

theorem filterOut_ok (l : List P2) {f : P2 → Out Bool} {g : P2 → Bool} (h : ∀ p ∈ l, f p = .ok (g p)) : Gridbool.filterOut f l = .ok (l.filter g) := by
  induction l with
  | nil => rfl
  | cons p l ih => rw [Gridbool.filterOut, h p (by simp), Out.ok_bind, ih (fun q hq => h q (by simp [hq])), Out.ok_bind, List.filter_cons]

theorem fromPositions_length [Target] {T : PosTy} (hT : T.IsGrid) {WORDS : Nat} (hW : cols T * rows T ≤ 32 * (WORDS : Int)) {items : List P2}
    (hi : ∀ p ∈ items, InGrid T p) {gb} (h : Gridbool.fromPositions T WORDS items = .ok gb) : gb.length = WORDS := by
  have hl : (Gridbool.repeat WORDS false).length = WORDS := by simp [Gridbool.repeat]
  obtain ⟨gb', h1, h2, -⟩ := C37_history T hT (Gridbool.repeat WORDS false) (by rw [hl]; exact hW) [.setIterT items] (by
    intro op hop w hw
    simp only [List.mem_singleton] at hop
    subst hop
    simp only [GbOp.writes, List.mem_map] at hw
    obtain ⟨p, hp, rfl⟩ := hw
    exact hi p hp)
  rw [List.foldlM_cons] at h1
  rw [Gridbool.fromPositions, Gridbool.ALL_FALSE] at h
  simp only [Gridbool.run, h, Out.ok_bind, List.foldlM_nil] at h1
  cases h1
  rw [h2, hl]

theorem lifeStep_spec [Target] {T : PosTy} (hT : T.IsGrid) {WORDS : Nat} (hW : cols T * rows T ≤ 32 * (WORDS : Int)) {C : MapImpl Int} (hC : C.Is T 0) (D : Bool)
    (rule : Bool → Int → Bool) {gb : List (BitVec 32)} (hl : gb.length = WORDS) {alive : P2 → Bool} (h : ∀ p, InGrid T p → Gridbool.get T gb p = .ok (alive p)) :
    ∃ gb', lifeStep T WORDS C D rule gb = .ok gb' ∧ gb'.length = WORDS ∧
      ∀ p, InGrid T p → Gridbool.get T gb' p = .ok (rule (alive p) (aliveAround T D alive p)) := by
  obtain ⟨lt, -, h1, -, h2, -, h3, -⟩ := C38_iter_t_f T hT gb (by rw [hl]; exact hW)
  have h3' : ∀ p, p ∈ lt ↔ InGrid T p ∧ alive p = true := fun p => by
    rw [h3]
    refine and_congr_right fun hp => ?_
    rw [h p hp, Out.ok.injEq]
  obtain ⟨counts, h4, h5⟩ := C153_tally T hT C hC D lt (fun p hp => ((h3' p).1 hp).1) (h2.nodup (PosTy.allPositions_nodup true))
  have hin : ∀ p ∈ allPositions T true, InGrid T p := fun p hp => PosTy.mem_allPositions.1 hp
  have hc : ∀ p, InGrid T p → C.get counts p = .ok (aliveAround T D alive p) := fun p hp => by
    obtain ⟨l, e, hg⟩ := h5 p hp
    obtain ⟨l', e', hnd, hm, -⟩ := C153_around T hT.wf D p hp
    rw [e, Out.ok.injEq] at e'
    subst e'
    rw [hg, aliveAround, Out.ok.injEq, Nat.cast_inj]
    refine List.Perm.length_eq ((List.perm_ext_iff_of_nodup (hnd.filter _) ((PosTy.allPositions_nodup true).filter _)).2 fun q => ?_)
    rw [List.mem_filter, List.mem_filter, decide_eq_true_iff, Bool.and_eq_true, decide_eq_true_iff, hm, h3']
    constructor
    · exact fun ⟨⟨a, b⟩, _, c⟩ => ⟨PosTy.mem_allPositions.2 a, b, c⟩
    · exact fun ⟨a, b, c⟩ => ⟨⟨hin q a, b⟩, hin q a, c⟩
  have hf := filterOut_ok (allPositions T true) (f := fun p => do let b ← Gridbool.get T gb p; let n ← C.get counts p; .ok (rule b n))
    (g := fun p => rule (alive p) (aliveAround T D alive p)) (fun p hp => by rw [h p (hin p hp), Out.ok_bind, hc p (hin p hp), Out.ok_bind])
  have hin' : ∀ p ∈ (allPositions T true).filter (fun p => rule (alive p) (aliveAround T D alive p)), InGrid T p := fun p hp => hin p (List.mem_filter.1 hp).1
  obtain ⟨gb', h6, h7⟩ := C39_collect_positions T hT WORDS hW _ hin'
  refine ⟨gb', ?_, fromPositions_length hT hW hin' h6, fun p hp => ?_⟩
  · rw [lifeStep, h1, Out.ok_bind, h4, Out.ok_bind, PosTy.toList_eq hT.wf, Out.ok_bind, hf, Out.ok_bind, h6]
  · rw [h7 p hp, Out.ok.injEq, Bool.eq_iff_iff, decide_eq_true_iff, List.mem_filter]
    exact ⟨fun h => h.2, fun h => ⟨PosTy.mem_allPositions.2 hp, h⟩⟩

/-- C155. After any number of steps the `Gridbool` has what the automaton says, for every rule and with every map for the counts. -/
theorem C155_automaton [Target] (T : PosTy) (hT : T.IsGrid) (WORDS : Nat) (hW : cols T * rows T ≤ 32 * (WORDS : Int)) (C : MapImpl Int) (hC : C.Is T 0) (D : Bool)
    (rule : Bool → Int → Bool) (gb : List (BitVec 32)) (hl : gb.length = WORDS) (alive : Int × Int → Bool) (h : ∀ p, InGrid T p → Gridbool.get T gb p = .ok (alive p)) (n : Nat) :
    ∃ gb', lifeSteps T WORDS C D rule gb n = .ok gb' ∧ ∀ p, InGrid T p → Gridbool.get T gb' p = .ok (evolve T D rule alive n p) := by
  suffices ∃ gb', lifeSteps T WORDS C D rule gb n = .ok gb' ∧ gb'.length = WORDS ∧ ∀ p, InGrid T p → Gridbool.get T gb' p = .ok (evolve T D rule alive n p) by
    obtain ⟨gb', h1, -, h2⟩ := this
    exact ⟨gb', h1, h2⟩
  induction n with
  | zero => exact ⟨gb, rfl, hl, h⟩
  | succ n ih =>
    obtain ⟨gb1, h1, h2, h3⟩ := ih
    obtain ⟨gb2, h4, h5, h6⟩ := lifeStep_spec hT hW hC D rule h2 h3
    exact ⟨gb2, by rw [lifeSteps, h1, Out.ok_bind, h4], h5, h6⟩

attribute [local instance] debug64

/-- Conway's game of life in a grid of 5 by 5: three in a line turn about their middle, and after two steps they are as before. -/
example : (do let gb ← Gridbool.fromPositions (PosTy.pos 4 4) 1 [(1, 2), (2, 2), (3, 2)]; let gb ← lifeSteps (PosTy.pos 4 4) 1 (.hash 0) true conway gb 1
              Gridbool.iterT (PosTy.pos 4 4) gb) = .ok [(2, 1), (2, 2), (2, 3)] ∧
    (do let gb ← Gridbool.fromPositions (PosTy.pos 4 4) 1 [(1, 2), (2, 2), (3, 2)]; let gb ← lifeSteps (PosTy.pos 4 4) 1 (.hash 0) true conway gb 2
        Gridbool.iterT (PosTy.pos 4 4) gb) = .ok [(1, 2), (2, 2), (3, 2)] := by decide +kernel

/-- The hypotheses are met by it, with the counts in a hash map. -/
example (n : Nat) : ∃ gb gb', Gridbool.fromPositions (PosTy.pos 4 4) 1 [(1, 2), (2, 2), (3, 2)] = .ok gb ∧ lifeSteps (PosTy.pos 4 4) 1 (.hash 0) true conway gb n = .ok gb' ∧
    ∀ p, InGrid (PosTy.pos 4 4) p →
      Gridbool.get (PosTy.pos 4 4) gb' p = .ok (evolve (PosTy.pos 4 4) true conway (fun p => decide (p ∈ [((1 : Int), (2 : Int)), (2, 2), (3, 2)])) n p) := by
  have hT : (PosTy.pos 4 4).IsGrid := (PosTy.pos_searchable (by decide) (by decide) (.inl rfl)).toIsGrid
  have hi : ∀ p ∈ [((1 : Int), (2 : Int)), (2, 2), (3, 2)], InGrid (PosTy.pos 4 4) p := by unfold InGrid; decide
  obtain ⟨gb, h1, h2⟩ := C39_collect_positions (PosTy.pos 4 4) hT 1 (by decide) _ hi
  obtain ⟨gb', h3, h4⟩ := C155_automaton (PosTy.pos 4 4) hT 1 (by decide) (.hash 0) (.inr (.inl rfl)) true conway gb (fromPositions_length hT (by decide) hi h1) _ h2 n
  exact ⟨gb, gb', h1, h3, h4⟩

end Sqrid
