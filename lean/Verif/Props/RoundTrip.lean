import Verif.Props.Gridbool
/-!
# C126: round trips between the containers
-/

namespace Sqrid

open Spec

attribute [local instance] debug64

namespace Gridbool

/-- A gridbool built by collecting has no bit set that belongs to no position. -/
theorem fromBools_rep [Target] {T : PosTy} (hT : T.IsGrid) {W : Nat} (hW : T.nx * T.ny ≤ 32 * W) (f : P2 → Bool) :
    ∃ gb f', fromBools T W ((allPositions T true).map f) = .ok gb ∧ Rep T W gb f' (fun _ => false) ∧
      ∀ p, T.Valid p → f' p = f p := by
  have hv : ∀ p ∈ allPositions T true, T.Valid p := fun p hp => PosTy.mem_allPositions.1 hp
  obtain ⟨gb, f', k1, k2, -, k4⟩ := fromBoolsLoop_rep hT hW (allPositions T true) ((allPositions T true).map f) _ _ _ hv
    (rep_repeat hT hW false) (by rw [List.length_map])
  refine ⟨gb, f', ?_, k2, fun p hp => ?_⟩
  · rw [fromBools, PosTy.toList_eq hT.wf, Out.ok_bind, ALL_FALSE, k1, Out.ok_bind]
    simp
  · have h := k4 (PosTy.allPositions_nodup true)
    rw [List.take_of_length_le (by rw [List.length_map])] at h
    exact List.map_inj_left.1 h p (PosTy.mem_allPositions.2 hp)

theorem lastWrite_const (ps : List P2) (b : Bool) (p : P2) :
    lastWrite (ps.map fun q => (q, b)) p = if p ∈ ps then some b else none := by
  induction ps using List.reverseRecOn with
  | nil => rfl
  | append_singleton ps q ih =>
    rw [List.map_append, List.map_singleton, Grid.lastWrite_concat, ih]
    by_cases e : q = p
    · subst e; simp
    · rw [if_neg e]
      simp [show ¬ p = q from fun h => e h.symm]

theorem setIter_rep [Target] {T : PosTy} (hT : T.IsGrid) {W : Nat} (hW : T.nx * T.ny ≤ 32 * W) {gb f pad} (h : Rep T W gb f pad)
    (ps : List P2) (hps : ∀ p ∈ ps, T.Valid p) :
    (∃ gb', setIterT T gb ps = .ok gb' ∧ Rep T W gb' (fun p => if p ∈ ps then true else f p) pad) ∧
    (∃ gb', setIterF T gb ps = .ok gb' ∧ Rep T W gb' (fun p => if p ∈ ps then false else f p) pad) := by
  have key : ∀ b, ∃ gb', (ps.map fun q => (q, b)).foldlM (fun gb w => set T gb w.1 w.2) gb = .ok gb' ∧
      Rep T W gb' (fun p => if p ∈ ps then b else f p) pad := by
    intro b
    obtain ⟨gb', h1, h2⟩ := writes_rep hT hW (ps.map fun q => (q, b)) (by
      intro w hw
      obtain ⟨q, hq, rfl⟩ := List.mem_map.1 hw
      exact hps q hq) h
    refine ⟨gb', h1, h2.1, fun p hp => ?_, h2.2.2⟩
    rw [h2.2.1 p hp]
    simp only [lastWrite_const]
    split <;> rfl
  exact ⟨(by obtain ⟨g, h1, h2⟩ := key true; exact ⟨g, (run_eq T gb (.setIterT ps)).trans h1, h2⟩),
    (by obtain ⟨g, h1, h2⟩ := key false; exact ⟨g, (run_eq T gb (.setIterF ps)).trans h1, h2⟩)⟩

end Gridbool

/-- C126. Whatever was done with a gridbool, collecting its `iter` into a gridbool and collecting its `iter_t` into one give equal gridbools, which
read as the first one at every position; so does clearing, in an all-true gridbool, the positions of its `iter_f`. -/
theorem C126_gridbool [Target] (T : PosTy) (hT : T.IsGrid) (gb : List (BitVec 32)) (hW : cols T * rows T ≤ 32 * (gb.length : Int)) :
    ∃ n m, (Gridbool.iter T gb >>= fun l => Gridbool.fromBools T gb.length l) = .ok n ∧
      (Gridbool.iterT T gb >>= fun l => Gridbool.fromPositions T gb.length l) = .ok n ∧
      (Gridbool.iterF T gb >>= fun l => Gridbool.setIterF T (Gridbool.repeat gb.length true) l) = .ok m ∧
      n.length = gb.length ∧ m.length = gb.length ∧
      ∀ p, InGrid T p → Gridbool.get T n p = Gridbool.get T gb p ∧ Gridbool.get T m p = Gridbool.get T gb p := by
  have hW' := (Gridbool.words_iff hT _).1 hW
  have h := Gridbool.exists_rep T gb
  have hv : ∀ p ∈ allPositions T true, T.Valid p := fun p hp => PosTy.mem_allPositions.1 hp
  obtain ⟨m1, -, m3, m4⟩ := Gridbool.mapM_get hT hW' h (allPositions T true) hv
  obtain ⟨n, f', e1, e2, e3⟩ := Gridbool.fromBools_rep hT hW' (fun p => Gridbool.bit gb (T.idx p))
  obtain ⟨lt, lf, hlt, hlf, st, sf, ht, hf⟩ := C38_iter_t_f T hT gb hW
  obtain ⟨⟨n', k1, k2⟩, -⟩ := Gridbool.setIter_rep hT hW' (Gridbool.rep_repeat hT hW' false) lt (fun p hp => ((ht p).1 hp).1)
  obtain ⟨-, ⟨m, k3, k4⟩⟩ := Gridbool.setIter_rep hT hW' (Gridbool.rep_repeat hT hW' true) lf (fun p hp => ((hf p).1 hp).1)
  have hmt : ∀ p, T.Valid p → (if p ∈ lt then true else false) = Gridbool.bit gb (T.idx p) := by
    intro p hp
    have := ht p
    rw [h.get hT hW' hp] at this
    cases hb : Gridbool.bit gb (T.idx p)
    · rw [if_neg]; intro hm; have := (this.1 hm).2; rw [hb] at this; cases this
    · rw [if_pos]; exact this.2 ⟨hp, by rw [hb]⟩
  have hmf : ∀ p, T.Valid p → (if p ∈ lf then false else true) = Gridbool.bit gb (T.idx p) := by
    intro p hp
    have := hf p
    rw [h.get hT hW' hp] at this
    cases hb : Gridbool.bit gb (T.idx p)
    · rw [if_pos]; exact this.2 ⟨hp, by rw [hb]⟩
    · rw [if_neg]; intro hm; have := (this.1 hm).2; rw [hb] at this; cases this
  have hnn : n' = n := k2.ext hT e2 (fun p hp => by rw [e3 p hp]; exact hmt p hp) (fun _ _ _ => rfl)
  subst hnn
  refine ⟨n', m, ?_, ?_, ?_, k2.1, k4.1, fun p hp => ⟨?_, ?_⟩⟩
  · rw [Gridbool.iter, PosTy.toList_eq hT.wf, Out.ok_bind, m1]; exact e1
  · rw [hlt, Out.ok_bind]; exact k1
  · rw [hlf, Out.ok_bind]; exact k3
  · rw [e2.get hT hW' hp, h.get hT hW' hp, e3 p hp]
  · rw [k4.get hT hW' hp, h.get hT hW' hp]; exact congrArg Out.ok (hmf p hp)

/-- C126. Collecting the `iter` of a gridbool decides whether two of them agree at every position, which `==` does not (C42). -/
theorem C126_normal_form [Target] (T : PosTy) (hT : T.IsGrid) (WORDS : Nat) (hW : cols T * rows T ≤ 32 * (WORDS : Int)) (a b : List (BitVec 32))
    (ha : a.length = WORDS) (hb : b.length = WORDS) :
    ∃ na nb, (Gridbool.iter T a >>= fun l => Gridbool.fromBools T WORDS l) = .ok na ∧
      (Gridbool.iter T b >>= fun l => Gridbool.fromBools T WORDS l) = .ok nb ∧
      (Gridbool.beq na nb = true ↔ ∀ p, InGrid T p → Gridbool.get T a p = Gridbool.get T b p) := by
  obtain ⟨na, _, h1, -, -, -, -, h2⟩ := C126_gridbool T hT a (by rw [ha]; exact hW)
  obtain ⟨nb, _, k1, -, -, -, -, k2⟩ := C126_gridbool T hT b (by rw [hb]; exact hW)
  rw [ha] at h1
  rw [hb] at k1
  refine ⟨na, nb, h1, k1, ?_⟩
  rw [Gridbool.beq, decide_eq_true_eq]
  constructor
  · rintro rfl p hp; rw [← (h2 p hp).1, ← (k2 p hp).1]
  · intro hab
    obtain ⟨la, a1, a2, -⟩ := C38_iter T hT a (by rw [ha]; exact hW)
    obtain ⟨lb, b1, b2, -⟩ := C38_iter T hT b (by rw [hb]; exact hW)
    have : la = lb := by
      have : la.map Out.ok = lb.map Out.ok := by
        rw [a2, b2]
        exact List.map_congr_left (fun p hp => hab p (PosTy.mem_allPositions.1 hp))
      exact List.map_injective_iff.2 (fun x y h => by injection h) this
    subst this
    rw [a1] at h1
    rw [b1] at k1
    rw [h1] at k1
    injection k1

/-- C126. A `Grid<bool>` collected into a gridbool reads the same at every position, and collecting the gridbool gives the grid back. -/
theorem C126_grid_to_gridbool [Target] (T : PosTy) (hT : T.IsGrid) (WORDS : Nat) (hW : cols T * rows T ≤ 32 * (WORDS : Int)) (g : List Bool)
    (hg : (g.length : Int) = cols T * rows T) :
    ∃ gb, Gridbool.fromBools T WORDS (Grid.iter g) = .ok gb ∧ gb.length = WORDS ∧
      (∀ p, InGrid T p → Gridbool.get T gb p = Grid.get T g p) ∧
      (Gridbool.iter T gb >>= fun l => Grid.fromIter g.length l) = .ok g := by
  obtain ⟨gb, h1, h2, h3⟩ := (C39_collect_bools T hT WORDS hW (Grid.iter g)).1 hg
  refine ⟨gb, h1, h2, fun p hp => ?_, ?_⟩
  · obtain ⟨l, k1, k2, -⟩ := C38_iter T hT gb (by rw [h2]; exact hW)
    rw [h3] at k1
    injection k1 with k1
    subst k1
    obtain ⟨l', j1, j2, j3, j4⟩ := C29_iter_pos T hT g hg
    have hm : l'.map (fun pv => Gridbool.get T gb pv.1) = l'.map fun pv => Out.ok pv.2 := by
      have e1 : l'.map (fun pv => Gridbool.get T gb pv.1) = (l'.map Prod.fst).map (Gridbool.get T gb) := by rw [List.map_map]; rfl
      have e2 : (l'.map fun pv => Out.ok pv.2) = (l'.map Prod.snd).map Out.ok := by rw [List.map_map]; rfl
      rw [e1, e2, j2, j3, k2]
    have hp' : p ∈ l'.map Prod.fst := by rw [j2]; exact PosTy.mem_allPositions.2 hp
    obtain ⟨pv, hpv, rfl⟩ := List.mem_map.1 hp'
    rw [j4 pv hpv]
    exact List.map_inj_left.1 hm pv hpv
  · rw [h3, Out.ok_bind]
    exact (C29_collect g.length []).2.2 g

/-- C126. A gridbool collected into a `Grid<bool>` reads the same at every position. -/
theorem C126_gridbool_to_grid [Target] (T : PosTy) (hT : T.IsGrid) (gb : List (BitVec 32)) (hW : cols T * rows T ≤ 32 * (gb.length : Int))
    (SIZE : Nat) (hS : (SIZE : Int) = cols T * rows T) :
    ∃ g, (Gridbool.iter T gb >>= fun l => Grid.fromIter SIZE l) = .ok g ∧ g.length = SIZE ∧
      ∀ p, InGrid T p → Grid.get T g p = Gridbool.get T gb p := by
  obtain ⟨l, h1, h2, -⟩ := C38_iter T hT gb hW
  have hl : l.length = SIZE := by
    have := congrArg List.length h2
    rw [List.length_map, List.length_map, PosTy.allPositions_length] at this
    have := hT.cells_eq
    omega
  refine ⟨l, by rw [h1, Out.ok_bind]; exact (C29_collect SIZE l).1 hl, hl, fun p hp => ?_⟩
  obtain ⟨n, k1, -, k3, -⟩ := C126_grid_to_gridbool T hT gb.length hW l (by rw [hl]; exact hS)
  obtain ⟨n', _, e1, -, -, -, -, e2⟩ := C126_gridbool T hT gb hW
  rw [h1, Out.ok_bind] at e1
  rw [show Grid.iter l = l from rfl, e1] at k1
  injection k1 with k1
  subst k1
  rw [← k3 p hp, (e2 p hp).1]

-- `repeat(true)` on 2x2 positions has 28 bits of no position; its round trip has not, and equals the collected all-true grid.
example : Gridbool.repeat 1 true = [0xFFFFFFFF#32] ∧
    (Gridbool.iter (PosTy.pos 1 1) [0xFFFFFFFF#32] >>= fun l => Gridbool.fromBools (PosTy.pos 1 1) 1 l) = .ok [0xF0000000#32] ∧
    (Gridbool.iterT (PosTy.pos 1 1) [0xFFFFFFFF#32] >>= fun l => Gridbool.fromPositions (PosTy.pos 1 1) 1 l) = .ok [0xF0000000#32] ∧
    Gridbool.fromBools (PosTy.pos 1 1) 1 (Grid.iter [true, true, true, true]) = .ok [0xF0000000#32] ∧
    (Gridbool.iterF (PosTy.pos 1 1) [0xA0000001#32] >>= fun l => Gridbool.setIterF (PosTy.pos 1 1) (Gridbool.repeat 1 true) l) =
      .ok [0xAFFFFFFF#32] ∧
    (Gridbool.iter (PosTy.pos 1 1) [0xA0000001#32] >>= fun l => Grid.fromIter 4 l) = .ok [true, false, true, false] := by decide

end Sqrid
