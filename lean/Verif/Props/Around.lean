import Verif.Proofs.Work
import Verif.Props.Dir
import Verif.Props.OpenGrid
import Verif.Spec.Around
/-!
# The positions around a position: C153

Adding each direction to a position gives the positions around it, and counting them can be done from either side.
-/

namespace Sqrid

-- Statements that do not mention a target are about a debug build for a 64-bit machine.
attribute [local instance] debug64

open Spec

/-- The positions around `p` as a list. -/
def aroundList (T : PosTy) (D : Bool) (p : P2) : List P2 := (clockwise D).filterMap (T.addDirOk p)

theorem around_eq (T : PosTy) (D : Bool) (p : P2) : around T D p = .ok (aroundList T D p) := by
  unfold around
  rw [toList_dirs]
  rfl

theorem addDirOk_iff {T : PosTy} (hT : T.WF) {p : P2} (hp : InGrid T p) (d : Dir) (q : P2) : T.addDirOk p d = some q ↔ InGrid T q ∧ q = neighbour p d := by
  unfold PosTy.addDirOk
  by_cases h : InGrid T (neighbour p d)
  · rw [(C20_add_dir_exact T hT p hp d).1 h]
    constructor
    · intro e
      injection e with e
      subst e
      exact ⟨h, rfl⟩
    · rintro ⟨-, rfl⟩
      rfl
  · rw [(C20_add_dir_exact T hT p hp d).2 h]
    constructor
    · intro e
      cases e
    · rintro ⟨h', rfl⟩
      exact absurd h' h

theorem near_iff (D : Bool) (p q : P2) : (∃ d ∈ clockwise D, q = neighbour p d) ↔ (if D then linf p q else l1 p q) = 1 := by
  obtain ⟨px, py⟩ := p
  obtain ⟨qx, qy⟩ := q
  cases D
  · simp only [clockwise, neighbour, unit, l1, Bool.false_eq_true, if_false, List.mem_cons, List.not_mem_nil, or_false, exists_eq_or_imp, exists_eq_left, Prod.mk.injEq]
    omega
  · simp only [clockwise, neighbour, unit, linf, if_true, List.mem_cons, List.not_mem_nil, or_false, exists_eq_or_imp, exists_eq_left, Prod.mk.injEq]
    omega

theorem mem_aroundList {T : PosTy} (hT : T.WF) (D : Bool) {p : P2} (hp : InGrid T p) (q : P2) :
    q ∈ aroundList T D p ↔ InGrid T q ∧ (if D then linf p q else l1 p q) = 1 := by
  unfold aroundList
  rw [List.mem_filterMap, ← near_iff]
  constructor
  · rintro ⟨d, h1, h2⟩
    obtain ⟨h3, h4⟩ := (addDirOk_iff hT hp d q).1 h2
    exact ⟨h3, d, h1, h4⟩
  · rintro ⟨h1, d, h2, h3⟩
    exact ⟨d, h2, (addDirOk_iff hT hp d q).2 ⟨h1, h3⟩⟩

theorem aroundList_nodup {T : PosTy} (hT : T.WF) (D : Bool) {p : P2} (hp : InGrid T p) : (aroundList T D p).Nodup := by
  unfold aroundList
  refine List.Nodup.filterMap (fun a b q ha hb => ?_) (by cases D <;> decide)
  have ha' := (addDirOk_iff hT hp a q).1 ha
  have hb' := (addDirOk_iff hT hp b q).1 hb
  exact neighbour_inj (ha'.2.symm.trans hb'.2)

theorem aroundList_eq {T : PosTy} (hT : T.WF) (D : Bool) {p : P2} (hp : InGrid T p) :
    aroundList T D p = ((clockwise D).filter fun d => decide (InGrid T (neighbour p d))).map (neighbour p) := by
  unfold aroundList
  induction clockwise D with
  | nil => rfl
  | cons d ds ih =>
    rw [List.filterMap_cons, List.filter_cons]
    by_cases h : InGrid T (neighbour p d)
    · rw [(addDirOk_iff hT hp d _).2 ⟨h, rfl⟩, if_pos (decide_eq_true h), List.map_cons, ih]
    · rw [if_neg (by simpa using h)]
      cases e : T.addDirOk p d with
      | none => exact ih
      | some q =>
        obtain ⟨h1, rfl⟩ := (addDirOk_iff hT hp d q).1 e
        exact absurd h1 h

theorem directionTo_neighbour {D : Bool} {d : Dir} (hd : d ∈ clockwise D) (p : P2) : PosTy.directionTo D p (neighbour p d) = some d := by
  obtain ⟨x, y⟩ := p
  have h1 : ∀ a : Int, compare a (a + 1) = .lt := fun a => Int.compare_eq_lt.2 (by omega)
  have h2 : ∀ a : Int, compare a (a + -1) = .gt := fun a => Int.compare_eq_gt.2 (by omega)
  have h3 : ∀ a : Int, compare a (a + 0) = .eq := fun a => Int.compare_eq_eq.2 (by omega)
  cases D <;> cases d <;> first
    | (exfalso; revert hd; decide)
    | simp only [PosTy.directionTo, neighbour, unit, h1, h2, h3, if_true, Bool.false_eq_true, if_false]

/-- C153. The positions around a position are those of the grid at distance one, each once: at Manhattan distance one without diagonals, and at Chebyshev distance one with
them. `direction_to` tells the direction of each, and they come in the order of the directions, clockwise from north. -/
theorem C153_around (T : PosTy) (hT : T.WF) (D : Bool) (p : Int × Int) (hp : InGrid T p) :
    ∃ l, around T D p = .ok l ∧ l.Nodup ∧ (∀ q, q ∈ l ↔ InGrid T q ∧ (if D then linf p q else l1 p q) = 1) ∧
      l.map (PosTy.directionTo D p) = ((clockwise D).filter fun d => decide (InGrid T (neighbour p d))).map some := by
  refine ⟨_, around_eq T D p, aroundList_nodup hT D hp, mem_aroundList hT D hp, ?_⟩
  rw [aroundList_eq hT D hp, List.map_map]
  exact List.map_congr_left fun d hd => directionTo_neighbour (List.mem_filter.1 hd).1 p

example : PosTy.WF (PosTy.pos 2 1) ∧ InGrid (PosTy.pos 2 1) (1, 0) ∧ around (PosTy.pos 2 1) true (1, 0) = .ok [(2, 0), (2, 1), (1, 1), (0, 1), (0, 0)] := by decide

/-- C153. In a grid with at least two columns and two lines, a corner has 2 positions around it without diagonals and 3 with them, another position of a side 3 and 5, and
every other position 4 and 8. -/
theorem C153_number (T : PosTy) (hT : T.WF) (hc : 2 ≤ cols T) (hr : 2 ≤ rows T) (D : Bool) (p : Int × Int) (hp : InGrid T p) :
    ∃ l, around T D p = .ok l ∧ l.length = if T.isCorner p then (if D then 3 else 2) else if T.isSide p then (if D then 5 else 3) else (if D then 8 else 4) := by
  refine ⟨_, around_eq T D p, ?_⟩
  rw [aroundList_eq hT D hp, List.length_map]
  obtain ⟨x, y⟩ := p
  obtain ⟨⟨h1, h2⟩, h3, h4⟩ := hp
  simp only at h1 h2 h3 h4
  unfold cols at hc
  unfold rows at hr
  have hx : (x = T.X.MIN) = True ∧ (x = T.X.MAX) = False ∨ (x = T.X.MIN) = False ∧ (x = T.X.MAX) = True ∨ (x = T.X.MIN) = False ∧ (x = T.X.MAX) = False := by
    simp only [eq_iff_iff, iff_true, iff_false]
    omega
  have hy : (y = T.Y.MIN) = True ∧ (y = T.Y.MAX) = False ∨ (y = T.Y.MIN) = False ∧ (y = T.Y.MAX) = True ∨ (y = T.Y.MIN) = False ∧ (y = T.Y.MAX) = False := by
    simp only [eq_iff_iff, iff_true, iff_false]
    omega
  have kN : decide (InGrid T (neighbour (x, y) .N)) = decide (y ≠ T.Y.MIN) := decide_eq_decide.2 (by simp only [InGrid, neighbour, unit]; omega)
  have kNE : decide (InGrid T (neighbour (x, y) .NE)) = decide (y ≠ T.Y.MIN ∧ x ≠ T.X.MAX) := decide_eq_decide.2 (by simp only [InGrid, neighbour, unit]; omega)
  have kE : decide (InGrid T (neighbour (x, y) .E)) = decide (x ≠ T.X.MAX) := decide_eq_decide.2 (by simp only [InGrid, neighbour, unit]; omega)
  have kSE : decide (InGrid T (neighbour (x, y) .SE)) = decide (y ≠ T.Y.MAX ∧ x ≠ T.X.MAX) := decide_eq_decide.2 (by simp only [InGrid, neighbour, unit]; omega)
  have kS : decide (InGrid T (neighbour (x, y) .S)) = decide (y ≠ T.Y.MAX) := decide_eq_decide.2 (by simp only [InGrid, neighbour, unit]; omega)
  have kSW : decide (InGrid T (neighbour (x, y) .SW)) = decide (y ≠ T.Y.MAX ∧ x ≠ T.X.MIN) := decide_eq_decide.2 (by simp only [InGrid, neighbour, unit]; omega)
  have kW : decide (InGrid T (neighbour (x, y) .W)) = decide (x ≠ T.X.MIN) := decide_eq_decide.2 (by simp only [InGrid, neighbour, unit]; omega)
  have kNW : decide (InGrid T (neighbour (x, y) .NW)) = decide (y ≠ T.Y.MIN ∧ x ≠ T.X.MIN) := decide_eq_decide.2 (by simp only [InGrid, neighbour, unit]; omega)
  unfold PosTy.isCorner PosTy.isSide
  cases D <;> simp only [clockwise, List.filter_cons, List.filter_nil, kN, kNE, kE, kSE, kS, kSW, kW, kNW, if_true, Bool.false_eq_true, if_false, beq_eq_decide] <;>
    rcases hx with ⟨e1, e2⟩ | ⟨e1, e2⟩ | ⟨e1, e2⟩ <;> rcases hy with ⟨e3, e4⟩ | ⟨e3, e4⟩ | ⟨e3, e4⟩ <;>
    simp only [ne_eq, e1, e2, e3, e4, not_true_eq_false, not_false_eq_true, and_self, and_true, and_false, decide_true, decide_false, Bool.or_true,
      Bool.or_false, Bool.and_true, Bool.and_false, Bool.false_eq_true, if_true, if_false, List.length_cons, List.length_nil]

example : PosTy.WF (PosTy.pos 2 1) ∧ 2 ≤ cols (PosTy.pos 2 1) ∧ 2 ≤ rows (PosTy.pos 2 1) ∧ InGrid (PosTy.pos 2 1) (2, 1) ∧
    around (PosTy.pos 2 1) true (2, 1) = .ok [(2, 0), (1, 1), (1, 0)] ∧ (PosTy.pos 2 1).isCorner (2, 1) = true := by decide

/-- C153. In any grid, with one line or one column too: where `a` is the number of columns among that of the position and those beside it, and `b` the number of lines,
there are `a + b - 2` positions around it without diagonals, and `a * b - 1` with them. -/
theorem C153_number_any (T : PosTy) (hT : T.WF) (D : Bool) (p : Int × Int) (hp : InGrid T p) (a b : Int)
    (ha : a = min T.X.MAX (p.1 + 1) - max T.X.MIN (p.1 - 1) + 1) (hb : b = min T.Y.MAX (p.2 + 1) - max T.Y.MIN (p.2 - 1) + 1) :
    ∃ l, around T D p = .ok l ∧ (l.length : Int) = if D then a * b - 1 else a + b - 2 := by
  refine ⟨_, around_eq T D p, ?_⟩
  rw [aroundList_eq hT D hp, List.length_map]
  obtain ⟨x, y⟩ := p
  obtain ⟨⟨h1, h2⟩, h3, h4⟩ := hp
  simp only at h1 h2 h3 h4 ha hb
  have hx : (x = T.X.MIN) = True ∧ (x = T.X.MAX) = True ∧ a = 1 ∨ (x = T.X.MIN) = True ∧ (x = T.X.MAX) = False ∧ a = 2 ∨
      (x = T.X.MIN) = False ∧ (x = T.X.MAX) = True ∧ a = 2 ∨ (x = T.X.MIN) = False ∧ (x = T.X.MAX) = False ∧ a = 3 := by
    simp only [eq_iff_iff, iff_true, iff_false]
    omega
  have hy : (y = T.Y.MIN) = True ∧ (y = T.Y.MAX) = True ∧ b = 1 ∨ (y = T.Y.MIN) = True ∧ (y = T.Y.MAX) = False ∧ b = 2 ∨
      (y = T.Y.MIN) = False ∧ (y = T.Y.MAX) = True ∧ b = 2 ∨ (y = T.Y.MIN) = False ∧ (y = T.Y.MAX) = False ∧ b = 3 := by
    simp only [eq_iff_iff, iff_true, iff_false]
    omega
  have kN : decide (InGrid T (neighbour (x, y) .N)) = decide (y ≠ T.Y.MIN) := decide_eq_decide.2 (by simp only [InGrid, neighbour, unit]; omega)
  have kNE : decide (InGrid T (neighbour (x, y) .NE)) = decide (y ≠ T.Y.MIN ∧ x ≠ T.X.MAX) := decide_eq_decide.2 (by simp only [InGrid, neighbour, unit]; omega)
  have kE : decide (InGrid T (neighbour (x, y) .E)) = decide (x ≠ T.X.MAX) := decide_eq_decide.2 (by simp only [InGrid, neighbour, unit]; omega)
  have kSE : decide (InGrid T (neighbour (x, y) .SE)) = decide (y ≠ T.Y.MAX ∧ x ≠ T.X.MAX) := decide_eq_decide.2 (by simp only [InGrid, neighbour, unit]; omega)
  have kS : decide (InGrid T (neighbour (x, y) .S)) = decide (y ≠ T.Y.MAX) := decide_eq_decide.2 (by simp only [InGrid, neighbour, unit]; omega)
  have kSW : decide (InGrid T (neighbour (x, y) .SW)) = decide (y ≠ T.Y.MAX ∧ x ≠ T.X.MIN) := decide_eq_decide.2 (by simp only [InGrid, neighbour, unit]; omega)
  have kW : decide (InGrid T (neighbour (x, y) .W)) = decide (x ≠ T.X.MIN) := decide_eq_decide.2 (by simp only [InGrid, neighbour, unit]; omega)
  have kNW : decide (InGrid T (neighbour (x, y) .NW)) = decide (y ≠ T.Y.MIN ∧ x ≠ T.X.MIN) := decide_eq_decide.2 (by simp only [InGrid, neighbour, unit]; omega)
  clear ha hb
  cases D <;> simp only [clockwise, List.filter_cons, List.filter_nil, kN, kNE, kE, kSE, kS, kSW, kW, kNW, if_true, Bool.false_eq_true, if_false] <;>
    rcases hx with ⟨e1, e2, rfl⟩ | ⟨e1, e2, rfl⟩ | ⟨e1, e2, rfl⟩ | ⟨e1, e2, rfl⟩ <;> rcases hy with ⟨e3, e4, rfl⟩ | ⟨e3, e4, rfl⟩ | ⟨e3, e4, rfl⟩ | ⟨e3, e4, rfl⟩ <;>
    simp only [ne_eq, e1, e2, e3, e4, not_true_eq_false, not_false_eq_true, and_self, and_true, and_false, decide_true, decide_false,
      Bool.false_eq_true, if_true, if_false, List.length_cons, List.length_nil] <;> decide

/-- In a grid of one line the end has one position around it, and the middle two. -/
example : PosTy.WF (PosTy.pos 2 0) ∧ InGrid (PosTy.pos 2 0) (0, 0) ∧ around (PosTy.pos 2 0) true (0, 0) = .ok [(1, 0)] ∧
    around (PosTy.pos 2 0) true (1, 0) = .ok [(2, 0), (0, 0)] := by decide

theorem addOne_sim {T : PosTy} {C : MapImpl Int} {R} (hR : C.Sim T 0 R) (qs : List P2) (hqs : ∀ q ∈ qs, InGrid T q) {s : C.σ} {f : P2 → Int} (h : R s f) :
    ∃ s' f', qs.foldlM (fun counts q => do let n ← C.get counts q; C.set counts q (n + 1)) s = .ok s' ∧ R s' f' ∧ ∀ q, f' q = f q + qs.count q := by
  induction qs generalizing s f with
  | nil => exact ⟨s, f, rfl, h, by simp⟩
  | cons p qs ih =>
    obtain ⟨s1, h1, h2⟩ := hR.set (f p + 1) h (hqs p (by simp))
    obtain ⟨s', f', h3, h4, h5⟩ := ih (fun x hx => hqs x (by simp [hx])) h2
    refine ⟨s', f', by rw [List.foldlM_cons, hR.get h (hqs p (by simp)), Out.ok_bind, h1]; exact h3, h4, fun q => ?_⟩
    rw [h5, List.count_cons]
    unfold upd
    by_cases e : q = p
    · subst e
      rw [if_pos rfl, if_pos (by simp)]
      push_cast
      omega
    · rw [if_neg e, if_neg (by simpa using fun h => e h.symm)]
      simp

theorem tally_sim {T : PosTy} (hT : T.WF) {C : MapImpl Int} {R} (hR : C.Sim T 0 R) (D : Bool) (ps : List P2) (hps : ∀ p ∈ ps, InGrid T p) {s : C.σ} {f : P2 → Int} (h : R s f) :
    ∃ s' f', tally T C D ps s = .ok s' ∧ R s' f' ∧ ∀ q, f' q = f q + (ps.filter fun p => decide (q ∈ aroundList T D p)).length := by
  induction ps generalizing s f with
  | nil => exact ⟨s, f, rfl, h, by simp⟩
  | cons p ps ih =>
    have hp := hps p (by simp)
    obtain ⟨s1, f1, h1, h2, h3⟩ := addOne_sim hR (aroundList T D p) (fun q hq => ((mem_aroundList hT D hp q).1 hq).1) h
    obtain ⟨s', f', h4, h5, h6⟩ := ih (fun x hx => hps x (by simp [hx])) h2
    refine ⟨s', f', by unfold tally; rw [around_eq, Out.ok_bind, h1, Out.ok_bind]; exact h4, h5, fun q => ?_⟩
    rw [h6, h3, List.filter_cons]
    by_cases e : q ∈ aroundList T D p
    · rw [if_pos (decide_eq_true e), List.count_eq_one_of_mem (aroundList_nodup hT D hp) e, List.length_cons]
      push_cast
      omega
    · rw [if_neg (by simpa using e), List.count_eq_zero_of_not_mem e]
      simp

/-- C153. Adding one to each position around each position of a list leaves, for each position of the grid, the number of positions of the list around it. -/
theorem C153_tally [Target] (T : PosTy) (hT : T.IsGrid) (C : MapImpl Int) (hC : C.Is T 0) (D : Bool) (alive : List (Int × Int)) (hin : ∀ p ∈ alive, InGrid T p)
    (hnd : alive.Nodup) :
    ∃ counts, tally T C D alive (C.new 0) = .ok counts ∧
      ∀ q, InGrid T q → ∃ l, around T D q = .ok l ∧ C.get counts q = .ok ((l.filter fun p => decide (p ∈ alive)).length : Int) := by
  obtain ⟨R, hR⟩ := MapImpl.sim_of_is hT hC
  obtain ⟨s, f, h1, h2, h3⟩ := tally_sim hT.wf hR D alive hin (hR.new 0)
  refine ⟨s, h1, fun q hq => ⟨_, around_eq T D q, ?_⟩⟩
  rw [hR.get h2 hq, h3]
  have : (alive.filter fun p => decide (q ∈ aroundList T D p)).Perm ((aroundList T D q).filter fun p => decide (p ∈ alive)) := by
    refine (List.perm_ext_iff_of_nodup (hnd.filter _) ((aroundList_nodup hT.wf D hq).filter _)).2 fun p => ?_
    rw [List.mem_filter, List.mem_filter, decide_eq_true_iff, decide_eq_true_iff]
    constructor
    · rintro ⟨a1, a2⟩
      have a3 := ((mem_aroundList hT.wf D (hin p a1) q).1 a2).2
      refine ⟨(mem_aroundList hT.wf D hq p).2 ⟨hin p a1, ?_⟩, a1⟩
      rw [← a3]
      simp only [linf, l1]
      split <;> omega
    · rintro ⟨a1, a2⟩
      have a3 := ((mem_aroundList hT.wf D hq p).1 a1).2
      refine ⟨a2, (mem_aroundList hT.wf D (hin p a2) q).2 ⟨hq, ?_⟩⟩
      rw [← a3]
      simp only [linf, l1]
      split <;> omega
  rw [this.length_eq]
  simp

-- Three in a line: one around each end, two around the middle, three above the middle, and two above each end.
example : (tally (PosTy.pos 2 2) (.hash 0) true [(0, 1), (1, 1), (2, 1)] ((MapImpl.hash 0).new 0) >>= fun counts =>
    [(0, 0), (1, 0), (0, 1), (1, 1)].mapM fun q => (MapImpl.hash 0).get counts q) = .ok [2, 3, 1, 2] := by decide +kernel

end Sqrid
