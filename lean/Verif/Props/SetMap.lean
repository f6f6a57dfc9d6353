import Verif.Proofs.CameFrom
/-!
# Properties of position sets, position maps and path reconstruction: C45 – C48
-/

namespace Sqrid

-- Statements that do not mention a target are about a debug build for a 64-bit machine.
attribute [local instance] debug64

open Spec

/-! ## C45 -/

namespace SetImpl

/-- Runs one operation that changes the set. -/
def run (I : SetImpl) (s : I.σ) : SetOp → Out I.σ
  | .insert p => I.insert s p
  | .remove p => I.remove s p
  | .set p add => I.set s p add

/-- The positions it is used with: `T` is not a parameter of the std collections. -/
def Is [Target] (T : PosTy) (I : SetImpl) : Prop :=
  (∃ WORDS : Nat, cols T * rows T ≤ 32 * (WORDS : Int) ∧ I = gridbool T WORDS) ∨ I = hash ∨ I = btree

theorem run_sim {T : PosTy} {I : SetImpl} {R} (hI : I.Sim T R) {s f} (h : R s f) (op : SetOp) (hop : InGrid T op.write.1) :
    ∃ s', I.run s op = .ok s' ∧ R s' (upd f op.write.1 op.write.2) := by
  cases op with
  | insert p => exact hI.insert h hop
  | remove p => exact hI.remove h hop
  | set p add => cases add with
    | false => exact hI.remove h hop
    | true => exact hI.insert h hop

theorem runs_sim {T : PosTy} {I : SetImpl} {R} (hI : I.Sim T R) (ops : List SetOp) (hops : ∀ op ∈ ops, InGrid T op.write.1) :
    ∃ s f, ops.foldlM I.run I.default = .ok s ∧ R s f ∧ ∀ p, f p = (lastWrite (ops.map SetOp.write) p).getD false := by
  obtain ⟨s, h1, h2⟩ := foldlM_rel R I.run (fun f op => upd f op.write.1 op.write.2) ops
    (fun s f op hop h => run_sim hI h op (hops op hop)) I.default _ hI.default
  refine ⟨s, _, h1, h2, fun p => ?_⟩
  clear h1 h2 hops
  induction ops using List.reverseRecOn with
  | nil => rfl
  | append_singleton ops op ih =>
    rw [List.foldl_append, List.foldl_cons, List.foldl_nil, List.map_append, List.map_cons, List.map_nil, Grid.lastWrite_concat]
    by_cases e : op.write.1 = p
    · subst e; simp
    · rw [upd_other _ _ (fun h => e h.symm), if_neg e, ih]

theorem sim_of_is [Target] {T : PosTy} (hT : T.IsGrid) {I : SetImpl} (hI : Is T I) : ∃ R, I.Sim T R := by
  rcases hI with ⟨W, hW, rfl⟩ | rfl | rfl
  · exact ⟨_, gridbool_sim hT ((Gridbool.words_iff hT _).1 hW)⟩
  · exact ⟨_, hash_sim T⟩
  · exact ⟨_, btree_sim T⟩

end SetImpl

/-- C45. From the empty set, after any sequence of insertions, removals and `set`s, each of the implementations contains exactly the positions last
inserted; no panic. -/
theorem C45_sets [Target] (T : PosTy) (hT : T.IsGrid) (I : SetImpl) (hI : I.Is T) (ops : List SetOp) (hops : ∀ op ∈ ops, InGrid T op.write.1) :
    ∃ s, ops.foldlM I.run I.default = .ok s ∧
      ∀ p, InGrid T p → I.contains s p = .ok ((lastWrite (ops.map SetOp.write) p).getD false) := by
  obtain ⟨R, hR⟩ := SetImpl.sim_of_is hT hI
  obtain ⟨s, f, h1, h2, h3⟩ := SetImpl.runs_sim hR ops hops
  exact ⟨s, h1, fun p hp => by rw [hR.contains h2 hp, h3 p]⟩

/-- C45. Any two implementations agree on any history. -/
theorem C45_interchangeable [Target] (T : PosTy) (hT : T.IsGrid) (I J : SetImpl) (hI : I.Is T) (hJ : J.Is T) (ops : List SetOp)
    (hops : ∀ op ∈ ops, InGrid T op.write.1) (p : Int × Int) (hp : InGrid T p) :
    (do let s ← ops.foldlM I.run I.default; I.contains s p) = (do let s ← ops.foldlM J.run J.default; J.contains s p) := by
  obtain ⟨s, h1, h2⟩ := C45_sets T hT I hI ops hops
  obtain ⟨s', h1', h2'⟩ := C45_sets T hT J hJ ops hops
  rw [h1, h1', Out.ok_bind, Out.ok_bind, h2 p hp, h2' p hp]

example : (PosTy.pos 6 9).IsGrid := PosTy.pos_isGrid (by decide) (by decide) (.inl rfl)
example : (SetImpl.gridbool (PosTy.pos 6 9) 3).Is (PosTy.pos 6 9) := .inl ⟨3, by decide, rfl⟩
example : ∀ op ∈ [SetOp.insert (1, 2), .set (6, 9) true, .remove (1, 2)], InGrid (PosTy.pos 6 9) op.write.1 := by decide
example : (do let s ← [SetOp.insert (1, 2), .set (6, 9) true, .remove (1, 2)].foldlM SetImpl.btree.run SetImpl.btree.default
              SetImpl.btree.contains s (6, 9)) = .ok true := by decide

/-! ## C46 -/

namespace MapImpl

/-- A sequence of `set`s. -/
def sets {Item : Type} (I : MapImpl Item) (s : I.σ) (ws : List ((Int × Int) × Item)) : Out I.σ := ws.foldlM (fun s w => I.set s w.1 w.2) s

/-- The implementations of maps, for positions of `T`. -/
def Is [Target] {Item : Type} (T : PosTy) (dflt : Item) (I : MapImpl Item) : Prop :=
  (∃ SIZE : Nat, cols T * rows T ≤ (SIZE : Int) ∧ I = grid T SIZE dflt) ∨ I = hash dflt ∨ I = btree dflt

theorem sim_of_is [Target] {Item : Type} {T : PosTy} (hT : T.IsGrid) {dflt : Item} {I : MapImpl Item} (hI : Is T dflt I) : ∃ R, I.Sim T dflt R := by
  rcases hI with ⟨n, hn, rfl⟩ | rfl | rfl
  · refine ⟨_, grid_sim hT ?_ dflt⟩
    have := hT.cells_eq
    omega
  · exact ⟨_, hash_sim T dflt⟩
  · exact ⟨_, btree_sim T dflt⟩

theorem sets_sim {Item : Type} {T : PosTy} {dflt : Item} {I : MapImpl Item} {R} (hI : I.Sim T dflt R) (v : Item) {s0} (h0 : R s0 fun _ => v)
    (ws : List ((Int × Int) × Item)) (hws : ∀ w ∈ ws, InGrid T w.1) :
    ∃ s f, I.sets s0 ws = .ok s ∧ R s f ∧ ∀ p, f p = (lastWrite ws p).getD v := by
  obtain ⟨s, h1, h2⟩ := foldlM_rel R (fun s (w : P2 × Item) => I.set s w.1 w.2) (fun f w => upd f w.1 w.2) ws
    (fun s f w hw h => hI.set w.2 h (hws w hw)) s0 _ h0
  refine ⟨s, _, h1, h2, fun p => ?_⟩
  clear h1 h2 hws
  induction ws using List.reverseRecOn with
  | nil => rfl
  | append_singleton ws w ih =>
    rw [List.foldl_append, List.foldl_cons, List.foldl_nil, Grid.lastWrite_concat]
    by_cases e : w.1 = p
    · subst e; simp
    · rw [upd_other _ _ (fun h => e h.symm), if_neg e, ih]

end MapImpl

/-- C46. From `new(v)`, after any sequence of `set`s, each of the implementations returns the last value set at the position, or `v`; no
panic. -/
theorem C46_maps [Target] {Item : Type} (T : PosTy) (hT : T.IsGrid) (dflt : Item) (I : MapImpl Item) (hI : I.Is T dflt) (v : Item)
    (ws : List ((Int × Int) × Item)) (hws : ∀ w ∈ ws, InGrid T w.1) :
    ∃ s, I.sets (I.new v) ws = .ok s ∧
      ∀ p, InGrid T p → I.get s p = .ok ((lastWrite ws p).getD v) := by
  obtain ⟨R, hR⟩ := MapImpl.sim_of_is hT hI
  obtain ⟨s, f, h1, h2, h3⟩ := MapImpl.sets_sim hR v (hR.new v) ws hws
  exact ⟨s, h1, fun p hp => by rw [hR.get h2 hp, h3 p]⟩

/-- C46. The same from the default map, which holds the default item. -/
theorem C46_maps_default [Target] {Item : Type} (T : PosTy) (hT : T.IsGrid) (dflt : Item) (I : MapImpl Item) (hI : I.Is T dflt)
    (ws : List ((Int × Int) × Item)) (hws : ∀ w ∈ ws, InGrid T w.1) :
    ∃ s, I.sets I.default ws = .ok s ∧
      ∀ p, InGrid T p → I.get s p = .ok ((lastWrite ws p).getD dflt) := by
  obtain ⟨R, hR⟩ := MapImpl.sim_of_is hT hI
  obtain ⟨s, f, h1, h2, h3⟩ := MapImpl.sets_sim hR dflt hR.default ws hws
  exact ⟨s, h1, fun p hp => by rw [hR.get h2 hp, h3 p]⟩

/-- C46. Any two implementations agree on any history. -/
theorem C46_interchangeable [Target] {Item : Type} (T : PosTy) (hT : T.IsGrid) (dflt : Item) (I J : MapImpl Item) (hI : I.Is T dflt) (hJ : J.Is T dflt)
    (v : Item) (ws : List ((Int × Int) × Item)) (hws : ∀ w ∈ ws, InGrid T w.1) (p : Int × Int) (hp : InGrid T p) :
    (do let s ← I.sets (I.new v) ws; I.get s p) =
      (do let s ← J.sets (J.new v) ws; J.get s p) := by
  obtain ⟨s, h1, h2⟩ := C46_maps T hT dflt I hI v ws hws
  obtain ⟨s', h1', h2'⟩ := C46_maps T hT dflt J hJ v ws hws
  rw [h1, h1', Out.ok_bind, Out.ok_bind, h2 p hp, h2' p hp]

example : (MapImpl.grid (PosTy.pos 6 9) 70 (0 : Nat)).Is (PosTy.pos 6 9) 0 := .inl ⟨70, by decide, rfl⟩
example : ∀ w ∈ [(((1, 2) : Int × Int), 3), ((6, 9), 7), ((1, 2), 4)], InGrid (PosTy.pos 6 9) w.1 := by decide
example : (do let s ← (MapImpl.btree 0).sets ((MapImpl.btree 0).new 5) [((1, 2), 3), ((6, 9), 7), ((1, 2), 4)]
              let a ← (MapImpl.btree 0).get s (1, 2)
              let b ← (MapImpl.btree 0).get s (2, 2)
              pure (a, b)) = Out.ok (4, 5) := by decide

/-! ## C47 -/

/-- Walking a path with `+`: the visited positions after the first, if all the steps stay in the grid. -/
def walkPath (T : PosTy) : Int × Int → List Dir → Option (List (Int × Int))
  | _, [] => some []
  | p, d :: ds => match T.addDir p d with
    | .error _ => none
    | .ok q => (walkPath T q ds).map fun l => q :: l

theorem walkPath_append {T : PosTy} (p : P2) (as bs : List Dir) {l : List P2} (h : walkPath T p as = some l) :
    walkPath T p (as ++ bs) = (walkPath T (l.getLast?.getD p) bs).map fun r => l ++ r := by
  induction as generalizing p l with
  | nil =>
    injection h with h
    subst h
    simp
  | cons a as ih =>
    rw [List.cons_append]
    simp only [walkPath] at h ⊢
    cases hq : T.addDir p a with
    | error e => rw [hq] at h; cases h
    | ok q =>
      rw [hq] at h
      simp only at h ⊢
      cases hl : walkPath T q as with
      | none => rw [hl] at h; cases h
      | some l' =>
        rw [hl] at h
        injection h with h
        subst h
        rw [ih q hl]
        cases l' with
        | nil => simp
        | cons b l' =>
          simp only [List.getLast?_cons_cons]
          rw [Option.map_map]
          simp only [List.getLast?_cons, Option.getD_some]
          rfl

theorem Spec.Arrives.walk {T : PosTy} (hT : T.WF) {map : P2 → Option Dir} {orig p : P2} {path : List Dir} (hp : InGrid T p)
    (h : Arrives T map orig p path) :
    ∃ l, walkPath T orig path = some l ∧ l.length = path.length ∧ l.getLast?.getD orig = p ∧
      ∀ (i : Nat) (h : i < l.length) (h' : i < path.length), map l[i] = some (opposite path[i]) := by
  induction h with
  | here => exact ⟨[], rfl, rfl, rfl, fun i h => absurd h (Nat.not_lt_zero _)⟩
  | @step p d path hne hm hin h ih =>
    obtain ⟨l, h1, h2, h3, h4⟩ := ih hin
    have hstep : T.addDir (neighbour p d) (opposite d) = .ok p := by
      rw [PosTy.addDir_eq hT _ hin, neighbour_opposite]
      exact if_pos hp
    have h5 : walkPath T (neighbour p d) [opposite d] = some [p] := by
      simp only [walkPath]
      rw [hstep]
      rfl
    refine ⟨l ++ [p], ?_, by simp [h2], by simp, fun i hi hi' => ?_⟩
    · rw [walkPath_append _ _ _ h1, h3, h5]
      rfl
    · by_cases hlt : i < l.length
      · rw [List.getElem_append_left hlt, List.getElem_append_left (by omega)]
        exact h4 i hlt _
      · rw [List.getElem_append_right (by omega), List.getElem_append_right (by omega)]
        simp [opposite_opposite, hm]

/-- C47. A path returned for a map that holds `map` leads from `orig` to `dest`: the steps stay in the grid, the last position is `dest`, and each step is
the reverse of the direction held at the position it arrives to. -/
theorem C47_real_path [Target] (T : PosTy) (hT : T.Searchable) (M : MapImpl (Option Dir)) (hM : M.Is T none) (ws : List ((Int × Int) × Option Dir))
    (hws : ∀ w ∈ ws, InGrid T w.1) (s : M.σ) (hs : M.sets M.default ws = .ok s)
    (orig dest : Int × Int) (horig : InGrid T orig) (hdest : InGrid T dest) (path : List Dir)
    (h : camefromIntoPath T M s orig dest = .ok (.ok path)) :
    ∃ l, walkPath T orig path = some l ∧ l.length = path.length ∧ l.getLast?.getD orig = dest ∧
      ∀ (i : Nat) (h : i < l.length) (h' : i < path.length), M.get s l[i] = .ok (some (opposite path[i])) := by
  obtain ⟨R, hR⟩ := MapImpl.sim_of_is hT.toIsGrid hM
  obtain ⟨s', f, h1, h2, h3⟩ := MapImpl.sets_sim hR none hR.default ws hws
  rw [hs] at h1
  injection h1 with h1
  subst h1
  rcases camefromIntoPath_spec hT M s f horig hdest (fun p hp => hR.get h2 hp) with ⟨a, b⟩ | ⟨-, ⟨path', a1, a2, a3⟩ | ⟨n, a1, a2, a3⟩ | ⟨a1, a2, a3⟩⟩
  · rw [b] at h; cases h
  · rw [a3] at h
    injection h with h
    injection h with h
    subst h
    obtain ⟨l, b1, b2, b3, b4⟩ := a1.walk hT.wf hdest
    refine ⟨l, b1, b2, b3, fun i hi hi' => ?_⟩
    have hv : ∀ (path : List Dir) (p : P2) (l : List P2), InGrid T p → walkPath T p path = some l → ∀ q ∈ l, InGrid T q := by
      intro path
      induction path with
      | nil => intro p l _ h; injection h with h; subst h; simp
      | cons d ds ih =>
        intro p l hp h
        simp only [walkPath] at h
        rw [PosTy.addDir_eq hT.wf p hp] at h
        by_cases hin : T.Valid (neighbour p d)
        · rw [if_pos hin] at h
          simp only at h
          cases hw : walkPath T (neighbour p d) ds with
          | none => rw [hw] at h; cases h
          | some l' =>
            rw [hw] at h
            injection h with h
            subst h
            intro q hq
            rcases List.mem_cons.1 hq with rfl | hq
            · exact hin
            · exact ih _ _ hin hw q hq
        · rw [if_neg hin] at h; cases h
    rw [hR.get h2 (hv _ _ _ horig b1 _ (List.getElem_mem hi)), b4 i hi hi']
  · rw [a3] at h; cases h
  · rw [a3] at h; cases h

example : (PosTy.pos 6 9).Searchable := PosTy.pos_searchable (by decide) (by decide) (.inl rfl)
example : (do let s ← (MapImpl.btree none).sets (MapImpl.btree none).default [(((2, 2) : Int × Int), some Dir.W), ((1, 2), some .NW)]
              camefromIntoPath (PosTy.pos 6 9) (MapImpl.btree none) s (0, 1) (2, 2)) = .ok (.ok [.SE, .E]) := by decide

/-! ## C48 -/

/-- C48. What is returned for any map, exactly, in terms of the way that the directions of the map lead from `dest`. The search for `orig` is given up after
`cols * cols` steps. -/
theorem C48_exact [Target] (T : PosTy) (hT : T.Searchable) (M : MapImpl (Option Dir)) (hM : M.Is T none) (ws : List ((Int × Int) × Option Dir))
    (hws : ∀ w ∈ ws, InGrid T w.1) (s : M.σ) (hs : M.sets M.default ws = .ok s)
    (orig dest : Int × Int) (horig : InGrid T orig) (hdest : InGrid T dest) :
    ∃ map : Int × Int → Option Dir, (∀ p, map p = (lastWrite ws p).getD none) ∧ ∃ r, camefromIntoPath T M s orig dest = .ok r ∧
      (r = .error .destinationUnreachable ↔ map dest = none) ∧
      (∀ path, r = .ok path ↔ map dest ≠ none ∧ Arrives T map orig dest path ∧ (path.length : Int) ≤ cols T * cols T) ∧
      (r = .error .invalidMovement ↔ map dest ≠ none ∧ ∃ n : Nat, GetsStuck T map orig dest n ∧ (n : Int) ≤ cols T * cols T) ∧
      (r = .error .loop ↔ map dest ≠ none ∧ (∀ path, Arrives T map orig dest path → cols T * cols T < (path.length : Int)) ∧
        ∀ n : Nat, GetsStuck T map orig dest n → cols T * cols T < (n : Int)) := by
  obtain ⟨R, hR⟩ := MapImpl.sim_of_is hT.toIsGrid hM
  obtain ⟨s', f, h1, h2, h3⟩ := MapImpl.sets_sim hR none hR.default ws hws
  rw [hs] at h1
  injection h1 with h1
  subst h1
  refine ⟨f, h3, ?_⟩
  have hcc : cols T * cols T = ((T.nx * T.nx : Nat) : Int) := by
    have := hT.nx_eq
    have h0 := hT.x0
    simp only [cols]
    push_cast
    rw [this, h0]
    ring
  rw [hcc]
  norm_cast
  rcases camefromIntoPath_spec hT M s f horig hdest (fun p hp => hR.get h2 hp) with ⟨a, b⟩ | ⟨a, ⟨path', a1, a2, a3⟩ | ⟨n, a1, a2, a3⟩ | ⟨a1, a2, a3⟩⟩
  · exact ⟨_, b, by simp [a], by simp [a], by simp [a], by simp [a]⟩
  · refine ⟨_, a3, by simp [a], fun path => ⟨fun h => ?_, fun h => ?_⟩, ?_, ?_⟩
    · injection h with h
      subst h
      exact ⟨a, a1, a2⟩
    · rw [a1.unique h.2.1]
    · simp only [reduceCtorEq, false_iff]
      rintro ⟨-, n, hn, -⟩
      exact a1.not_stuck _ hn
    · simp only [reduceCtorEq, false_iff]
      rintro ⟨-, h, -⟩
      have := h _ a1
      omega
  · refine ⟨_, a3, by simp [a], fun path => ?_, ?_, ?_⟩
    · simp only [reduceCtorEq, false_iff]
      rintro ⟨-, h, -⟩
      exact h.not_stuck _ a1
    · exact ⟨fun _ => ⟨a, n, a1, a2⟩, fun _ => rfl⟩
    · simp only [reduceCtorEq, Except.error.injEq, false_iff]
      rintro ⟨-, -, h⟩
      have := h _ a1
      omega
  · refine ⟨_, a3, by simp [a], fun path => ?_, ?_, ?_⟩
    · simp only [reduceCtorEq, false_iff]
      rintro ⟨-, h, h'⟩
      have := a1 _ h
      omega
    · simp only [reduceCtorEq, Except.error.injEq, false_iff]
      rintro ⟨-, n, h, h'⟩
      have := a2 _ h
      omega
    · exact ⟨fun _ => ⟨a, a1, a2⟩, fun _ => rfl⟩

/-- C48, the full claim for a grid type. -/
def C48_claim [Target] (T : PosTy) : Prop :=
  ∀ (M : MapImpl (Option Dir)) (_ : M.Is T none) (ws : List ((Int × Int) × Option Dir)) (_ : ∀ w ∈ ws, InGrid T w.1) (s : M.σ)
    (_ : M.sets M.default ws = .ok s) (orig dest : Int × Int) (_ : InGrid T orig) (_ : InGrid T dest),
    ∃ map : Int × Int → Option Dir, (∀ p, map p = (lastWrite ws p).getD none) ∧ ∃ r, camefromIntoPath T M s orig dest = .ok r ∧
      (r = .error .destinationUnreachable ↔ map dest = none) ∧
      (∀ path, r = .ok path ↔ map dest ≠ none ∧ Arrives T map orig dest path) ∧
      (r = .error .invalidMovement ↔ map dest ≠ none ∧ ∃ n, GetsStuck T map orig dest n) ∧
      (r = .error .loop ↔ map dest ≠ none ∧ (∀ path, ¬ Arrives T map orig dest path) ∧ ∀ n, ¬ GetsStuck T map orig dest n)

/-- C48, for grids that are not taller than wide. What is missing: taller grids, for which it is false (`C48_refuted`); `C48_exact` covers them. -/
theorem C48_wide_partial [Target] (T : PosTy) (hT : T.Searchable) (hwide : rows T ≤ cols T) : C48_claim T := by
  intro M hM ws hws s hs orig dest horig hdest
  obtain ⟨map, h1, r, h2, h3, h4, h5, h6⟩ := C48_exact T hT M hM ws hws s hs orig dest horig hdest
  have hle : ((T.nx * T.ny : Nat) : Int) ≤ cols T * cols T := by
    rw [hT.cells_eq]
    have := hT.xmax0
    have h0 := hT.x0
    exact Int.mul_le_mul_of_nonneg_left hwide (by simp only [cols]; omega)
  have hA : ∀ path, Arrives T map orig dest path → (path.length : Int) ≤ cols T * cols T := by
    intro path h
    have := h.length_lt hdest
    omega
  have hS : ∀ n : Nat, GetsStuck T map orig dest n → (n : Int) ≤ cols T * cols T := by
    intro n h
    have := h.lt hdest
    omega
  refine ⟨map, h1, r, h2, h3, fun path => ?_, ?_, ?_⟩
  · rw [h4 path]
    exact ⟨fun h => ⟨h.1, h.2.1⟩, fun h => ⟨h.1, h.2, hA _ h.2⟩⟩
  · rw [h5]
    exact ⟨fun ⟨a, n, b, _⟩ => ⟨a, n, b⟩, fun ⟨a, n, b⟩ => ⟨a, n, b, hS n b⟩⟩
  · rw [h6]
    refine ⟨fun ⟨a, b, c⟩ => ⟨a, fun path h => ?_, fun n h => ?_⟩,
      fun ⟨a, b, c⟩ => ⟨a, fun path h => absurd h (b path), fun n h => absurd h (c n)⟩⟩
    · have := b path h; have := hA path h; omega
    · have := c n h; have := hS n h; omega

/-- C48 is false for a column of eleven positions: following the map from (0, 2) leads to (0, 0) in two steps, but `Loop` is returned. -/
theorem C48_refuted [Target] : ¬ C48_claim (PosTy.pos 0 10) := by
  intro h
  have hs : (MapImpl.btree none).sets (MapImpl.btree none).default [(((0, 2) : Int × Int), some Dir.N), ((0, 1), some .N)] =
      Out.ok (([((0, 1), some .N), ((0, 2), some .N)], none) : (MapImpl.btree (none : Option Dir)).σ) := rfl
  obtain ⟨map, h1, r, h2, -, h4, -⟩ := h (MapImpl.btree none) (.inr (.inr rfl)) _ (by decide_target) _ hs (0, 0) (0, 2) (by decide_target) (by decide_target)
  have hA : Arrives (PosTy.pos 0 10) map (0, 0) (0, 2) [.S, .S] := by
    refine Arrives.step (d := .N) (path := [.S]) (by decide_target) (by rw [h1]; rfl) (by decide_target) ?_
    refine Arrives.step (d := .N) (path := []) (by decide_target) (by rw [h1]; rfl) (by decide_target) ?_
    exact Arrives.here
  have hr := (h4 [.S, .S]).2 ⟨by rw [h1]; decide, hA⟩
  rw [hr] at h2
  revert h2
  decide_target

example : rows (PosTy.pos 9 6) ≤ cols (PosTy.pos 9 6) := by decide
example : (do let s ← (MapImpl.hash none).sets (MapImpl.hash none).default [(((2, 2) : Int × Int), some Dir.W), ((1, 2), some .E)]
              camefromIntoPath (PosTy.pos 6 6) (MapImpl.hash none) s (0, 1) (2, 2)) = .ok (.error .loop) := by decide
example : (do let s ← (MapImpl.hash none).sets (MapImpl.hash none).default [(((2, 0) : Int × Int), some Dir.N)]
              camefromIntoPath (PosTy.pos 6 6) (MapImpl.hash none) s (0, 1) (2, 0)) = .ok (.error .invalidMovement) := by decide

end Sqrid
