import Verif.Props.Exhausted
import Verif.Props.Forward
/-!
# How much a search holds in memory: C135

An iterator of a best-first search hands out what is in its frontier before it ends, so the bounds for the number of items bound the frontier as well.
-/

namespace Sqrid

-- Statements that do not mention a target are about a debug build for a 64-bit machine.
attribute [local instance] debug64

open Spec

/-- An iterator that hands out what it holds, one item at a time, yields at least that many items. -/
theorem yields_held {σ α : Type} {next : σ → Out (Option α × σ)} {held : σ → Nat} (hsome : ∀ s a s', next s = .ok (some a, s') → held s ≤ held s' + 1)
    (hnone : ∀ s s', next s = .ok (none, s') → s' = s ∧ held s = 0) (n : Nat) : ∀ {s t : σ} {l : List α}, yields next n s = .ok (l, t) → n ≤ held s →
    n ≤ l.length := by
  induction n with
  | zero => intros; omega
  | succ n ih =>
    intro s t l h hn
    simp only [yields] at h
    obtain ⟨⟨v, s'⟩, h1, h2⟩ := Out.bind_eq_ok.1 h
    cases v with
    | none => have := (hnone _ _ h1).2; omega
    | some a =>
      obtain ⟨⟨r, t'⟩, h3, h4⟩ := Out.bind_eq_ok.1 h2
      injection h4 with h4
      injection h4 with h4 _
      subst h4
      have h5 := hsome _ _ _ h1
      have := ih h3 (show n ≤ held s' by omega)
      simp only [List.length_cons]
      omega

/-- More calls yield more items. -/
theorem yields_more {σ α : Type} {next : σ → Out (Option α × σ)} {held : σ → Nat} (hsome : ∀ s a s', next s = .ok (some a, s') → held s ≤ held s' + 1)
    (hnone : ∀ s s', next s = .ok (none, s') → s' = s ∧ held s = 0) (n : Nat) : ∀ {s t t' : σ} {l l' : List α}, yields next n s = .ok (l, t) →
    yields next (n + held t) s = .ok (l', t') → l.length + held t ≤ l'.length := by
  induction n with
  | zero =>
    intro s t t' l l' h h'
    simp only [yields] at h
    injection h with h
    injection h with h1 h2
    subst h1
    subst h2
    have := yields_held hsome hnone _ h' (by omega)
    simpa using this
  | succ n ih =>
    intro s t t' l l' h h'
    rw [Nat.succ_add] at h'
    simp only [yields] at h h'
    obtain ⟨⟨v, s'⟩, h1, h2⟩ := Out.bind_eq_ok.1 h
    rw [h1, Out.ok_bind] at h'
    cases v with
    | none =>
      obtain ⟨rfl, h3⟩ := hnone _ _ h1
      injection h2 with h2
      injection h2 with h2 h4
      subst h2
      subst h4
      simp [h3]
    | some a =>
      obtain ⟨⟨r, u⟩, h3, h4⟩ := Out.bind_eq_ok.1 h2
      obtain ⟨⟨r', u'⟩, h3', h4'⟩ := Out.bind_eq_ok.1 h'
      injection h4 with h4
      injection h4 with h4 h5
      injection h4' with h4'
      injection h4' with h4' _
      subst h4
      subst h5
      subst h4'
      have := ih h3 h3'
      simp only [List.length_cons]
      omega

theorem foldlM_grows {σ α : Type} {f : σ → α → Out σ} {held : σ → Nat} (hf : ∀ s a s', f s a = .ok s' → held s ≤ held s') (l : List α) :
    ∀ {s s' : σ}, l.foldlM f s = .ok s' → held s ≤ held s' := by
  induction l with
  | nil =>
    intro s s' h
    injection h with h
    subst h
    exact Nat.le_refl _
  | cons a l ih =>
    intro s s' h
    rw [List.foldlM_cons] at h
    obtain ⟨u, h1, h2⟩ := Out.bind_eq_ok.1 h
    exact Nat.le_trans (hf _ _ _ h1) (ih h2)

theorem Heap.pop_length {h rest : List Entry} {e : Entry} (hp : Heap.pop h = some (e, rest)) : h.length = rest.length + 1 := by
  cases h with
  | nil => cases hp
  | cons a l =>
    simp only [Heap.pop] at hp
    injection hp with hp
    injection hp with h1 h2
    subst h2
    rw [List.length_erase_of_mem (Heap.maxOf_mem a l)]
    simp

theorem AstarIter.relax_grows [Target] {T : PosTy} {C : MapImpl Int} {go : GoFn} {dest pos : P2} (s : AstarIter C) (d : Dir) (s' : AstarIter C)
    (h : AstarIter.relax T C go dest pos s d = .ok s') : s.frontier.length ≤ s'.frontier.length := by
  unfold AstarIter.relax at h
  obtain ⟨c, -, h⟩ := Out.bind_eq_ok.1 h
  obtain ⟨nc, -, h⟩ := Out.bind_eq_ok.1 h
  split at h
  · injection h with h; subst h; exact Nat.le_refl _
  · obtain ⟨old, -, h⟩ := Out.bind_eq_ok.1 h
    split at h
    · obtain ⟨c', -, h⟩ := Out.bind_eq_ok.1 h
      obtain ⟨m, -, h⟩ := Out.bind_eq_ok.1 h
      obtain ⟨p, -, h⟩ := Out.bind_eq_ok.1 h
      obtain ⟨ng, -, h⟩ := Out.bind_eq_ok.1 h
      injection h with h; subst h
      simp [Heap.push]
    · injection h with h; subst h; exact Nat.le_refl _

theorem UcsIter.relax_grows [Target] {C : MapImpl Int} {go : WGo} {pos : P2} (s : UcsIter C) (d : Dir) (s' : UcsIter C)
    (h : UcsIter.relax C go pos s d = .ok s') : s.frontier.length ≤ s'.frontier.length := by
  unfold UcsIter.relax at h
  split at h
  · injection h with h; subst h; exact Nat.le_refl _
  · obtain ⟨c, -, h⟩ := Out.bind_eq_ok.1 h
    obtain ⟨nc, -, h⟩ := Out.bind_eq_ok.1 h
    obtain ⟨old, -, h⟩ := Out.bind_eq_ok.1 h
    split at h
    · obtain ⟨c', -, h⟩ := Out.bind_eq_ok.1 h
      obtain ⟨ng, -, h⟩ := Out.bind_eq_ok.1 h
      injection h with h; subst h
      simp [Heap.push]
    · injection h with h; subst h; exact Nat.le_refl _

theorem AstarIter.next_held [Target] {T : PosTy} {C : MapImpl Int} {D : Bool} {go : GoFn} {dest : P2} (s : AstarIter C) (a : P2 × Dir) (s' : AstarIter C)
    (h : AstarIter.next T C D go dest s = .ok (some a, s')) : s.frontier.length ≤ s'.frontier.length + 1 := by
  unfold AstarIter.next at h
  split at h
  · rename_i hp
    obtain ⟨ds, -, h⟩ := Out.bind_eq_ok.1 h
    obtain ⟨u, h1, h⟩ := Out.bind_eq_ok.1 h
    injection h with h
    injection h with _ h
    subst h
    have h2 := foldlM_grows (held := fun s => s.frontier.length) AstarIter.relax_grows ds h1
    have := Heap.pop_length hp
    simp only at h2
    omega
  · cases h

theorem UcsIter.next_held [Target] {C : MapImpl Int} {D : Bool} {go : WGo} (s : UcsIter C) (a : P2 × Dir) (s' : UcsIter C)
    (h : UcsIter.next C D go s = .ok (some a, s')) : s.frontier.length ≤ s'.frontier.length + 1 := by
  unfold UcsIter.next at h
  split at h
  · rename_i hp
    obtain ⟨ds, -, h⟩ := Out.bind_eq_ok.1 h
    obtain ⟨u, h1, h⟩ := Out.bind_eq_ok.1 h
    injection h with h
    injection h with _ h
    subst h
    have h2 := foldlM_grows (held := fun s => s.frontier.length) UcsIter.relax_grows ds h1
    have := Heap.pop_length hp
    simp only at h2
    omega
  · cases h

theorem AstarIter.next_end [Target] {T : PosTy} {C : MapImpl Int} {D : Bool} {go : GoFn} {dest : P2} (s s' : AstarIter C)
    (h : AstarIter.next T C D go dest s = .ok (none, s')) : s' = s ∧ s.frontier.length = 0 := by
  unfold AstarIter.next at h
  split at h
  · obtain ⟨ds, -, h⟩ := Out.bind_eq_ok.1 h
    obtain ⟨u, -, h⟩ := Out.bind_eq_ok.1 h
    cases h
  · rename_i hp
    injection h with h
    injection h with _ h
    refine ⟨h.symm, ?_⟩
    cases hf : s.frontier with
    | nil => rfl
    | cons a l => rw [hf] at hp; cases hp

theorem UcsIter.next_end [Target] {C : MapImpl Int} {D : Bool} {go : WGo} (s s' : UcsIter C)
    (h : UcsIter.next C D go s = .ok (none, s')) : s' = s ∧ s.frontier.length = 0 := by
  unfold UcsIter.next at h
  split at h
  · obtain ⟨ds, -, h⟩ := Out.bind_eq_ok.1 h
    obtain ⟨u, -, h⟩ := Out.bind_eq_ok.1 h
    cases h
  · rename_i hp
    injection h with h
    injection h with _ h
    refine ⟨h.symm, ?_⟩
    cases hf : s.frontier with
    | nil => rfl
    | cons a l => rw [hf] at hp; cases hp

/-- C135, A* without diagonals. After any number of calls to `next`, the items yielded and the entries waiting in the frontier are together at most `2 N - 1`,
`N` the number of cells. -/
theorem C135_astar_straight [Target] (T : PosTy) (hT : T.Searchable) (C : MapImpl Int) (hC : C.Is T 0) (go : Int × Int → Dir → Option (Int × Int))
    (hgo : Adjacent T go) (orig dest : Int × Int) (ho : InGrid T orig) (hd : InGrid T dest) (calls : Nat) :
    ∃ items st, (do let it ← AstarIter.new C orig; yields (AstarIter.next T C false go dest) calls it) = .ok (items, st) ∧
      ((items.length + st.frontier.length : Nat) : Int) ≤ 2 * (cols T * rows T) - 1 := by
  obtain ⟨items, st, h1, -⟩ := C120_astar_twice T hT C hC go hgo orig dest ho hd calls
  obtain ⟨items', st', h1', -, -, -, h2⟩ := C120_astar_twice T hT C hC go hgo orig dest ho hd (calls + st.frontier.length)
  refine ⟨items, st, h1, Int.le_trans (Int.ofNat_le.2 ?_) h2⟩
  obtain ⟨it, h3, h4⟩ := Out.bind_eq_ok.1 h1
  obtain ⟨it', h3', h4'⟩ := Out.bind_eq_ok.1 h1'
  rw [h3] at h3'
  injection h3' with h3'
  subst h3'
  exact yields_more (held := fun s => s.frontier.length) AstarIter.next_held AstarIter.next_end _ h4 h4'

/-- C135, A* in both modes and for every movement function that stays in the grid: at most `2 N² + 1`. -/
theorem C135_astar [Target] (T : PosTy) (hT : T.Searchable) (C : MapImpl Int) (hC : C.Is T 0) (D : Bool) (go : Int × Int → Dir → Option (Int × Int))
    (hgo : StaysIn T go) (orig dest : Int × Int) (ho : InGrid T orig) (hd : InGrid T dest) (calls : Nat) :
    ∃ items st, (do let it ← AstarIter.new C orig; yields (AstarIter.next T C D go dest) calls it) = .ok (items, st) ∧
      ((items.length + st.frontier.length : Nat) : Int) ≤ 2 * (cols T * rows T) * (cols T * rows T) + 1 := by
  obtain ⟨items, st, h1, -⟩ := C129_astar T hT C hC D go hgo orig dest ho hd calls
  obtain ⟨items', st', h1', -, h2, -⟩ := C129_astar T hT C hC D go hgo orig dest ho hd (calls + st.frontier.length)
  refine ⟨items, st, h1, Int.le_trans (Int.ofNat_le.2 ?_) h2⟩
  obtain ⟨it, h3, h4⟩ := Out.bind_eq_ok.1 h1
  obtain ⟨it', h3', h4'⟩ := Out.bind_eq_ok.1 h1'
  rw [h3] at h3'
  injection h3' with h3'
  subst h3'
  exact yields_more (held := fun s => s.frontier.length) AstarIter.next_held AstarIter.next_end _ h4 h4'

/-- C135, uniform-cost search: at most `4 (N - 1) + 1` without diagonals, `8 (N - 1) + 1` with them. -/
theorem C135_ucs [Target] (T : PosTy) (hT : T.Searchable) (C : MapImpl Int) (hC : C.Is T 0) (D : Bool)
    (go : Int × Int → Dir → Option ((Int × Int) × Int)) (hgo : Adjacent T (dropCost go)) (hc : UsizeCosts go) (orig : Int × Int) (ho : InGrid T orig)
    (hno : NoOverflow go D orig) (calls : Nat) :
    ∃ items st, (do let it ← UcsIter.new C orig; yields (UcsIter.next C D go) calls it) = .ok (items, st) ∧
      ((items.length + st.frontier.length : Nat) : Int) ≤ fan D * (cols T * rows T - 1) + 1 := by
  obtain ⟨items, st, h1, -⟩ := C120_ucs_once T hT C hC D go hgo hc orig ho hno calls
  obtain ⟨items', st', h1', -, -, -, h2⟩ := C120_ucs_once T hT C hC D go hgo hc orig ho hno (calls + st.frontier.length)
  refine ⟨items, st, h1, Int.le_trans (Int.ofNat_le.2 ?_) h2⟩
  obtain ⟨it, h3, h4⟩ := Out.bind_eq_ok.1 h1
  obtain ⟨it', h3', h4'⟩ := Out.bind_eq_ok.1 h1'
  rw [h3] at h3'
  injection h3' with h3'
  subst h3'
  exact yields_more (held := fun s => s.frontier.length) UcsIter.next_held UcsIter.next_end _ h4 h4'

theorem BfIter.next_end {S : SetImpl} {D : Bool} {go : GoFn} {s : BfIter S} (h : s.nextfront = []) :
    BfIter.next S D go s = .ok (none, s) := by
  obtain ⟨v, f⟩ := s
  simp only at h
  subst h
  rfl

theorem BfIter.next_some {S : SetImpl} {D : Bool} {go : GoFn} {s s' : BfIter S} {l : List (P2 × Dir)} (h : BfIter.next S D go s = .ok (some l, s')) :
    l = s.nextfront := by
  unfold BfIter.next at h
  simp only at h
  split at h
  · cases h
  · obtain ⟨u, -, h⟩ := Out.bind_eq_ok.1 h
    injection h with h
    injection h with h _
    injection h with h
    exact h.symm

theorem BfIter.next_none {S : SetImpl} {D : Bool} {go : GoFn} {s s' : BfIter S} (h : BfIter.next S D go s = .ok (none, s')) : s.nextfront = [] := by
  unfold BfIter.next at h
  simp only at h
  split at h
  · rename_i he
    exact List.isEmpty_iff.1 he
  · obtain ⟨u, -, h⟩ := Out.bind_eq_ok.1 h
    cases h

/-- What an iterator holds while it hands out the layers `ls`. -/
theorem BfIter.yields_front {S : SetImpl} {D : Bool} {go : GoFn} (n : Nat) : ∀ {fuel : Nat} {s : BfIter S} {ls : List (List (P2 × Dir))},
    collectWith (BfIter.next S D go) fuel s = .ok ls →
    ∃ st, yields (BfIter.next S D go) n s = .ok (ls.take n, st) ∧ st.nextfront = (ls[n]?).getD [] := by
  induction n with
  | zero =>
    intro fuel s ls h
    refine ⟨s, by simp [yields], ?_⟩
    cases fuel with
    | zero => cases h
    | succ fuel =>
      simp only [collectWith] at h
      obtain ⟨⟨v, s'⟩, h1, h2⟩ := Out.bind_eq_ok.1 h
      cases v with
      | none =>
        injection h2 with h2
        subst h2
        simpa using BfIter.next_none h1
      | some l =>
        obtain ⟨r, h3, h4⟩ := Out.bind_eq_ok.1 h2
        injection h4 with h4
        subst h4
        simpa using (BfIter.next_some h1).symm
  | succ n ih =>
    intro fuel s ls h
    cases fuel with
    | zero => cases h
    | succ fuel =>
      simp only [collectWith] at h
      obtain ⟨⟨v, s'⟩, h1, h2⟩ := Out.bind_eq_ok.1 h
      cases v with
      | none =>
        injection h2 with h2
        subst h2
        have h3 := BfIter.next_none h1
        rw [BfIter.next_end h3] at h1
        injection h1 with h1
        injection h1 with _ h1
        subst h1
        exact ⟨s, by simp [yields, BfIter.next_end h3], by simpa using h3⟩
      | some l =>
        obtain ⟨r, h3, h4⟩ := Out.bind_eq_ok.1 h2
        injection h4 with h4
        subst h4
        obtain ⟨st, h5, h6⟩ := ih h3
        exact ⟨st, by simp [yields, h1, h5], by simpa using h6⟩

/-- C135, breadth-first traversal. After any number of calls to `next`, the iterator holds exactly the layer that the next call returns, or nothing if there is none;
the positions yielded and those held are all different, and thus at most `N`. -/
theorem C135_bf [Target] (T : PosTy) (hT : T.IsGrid) (S : SetImpl) (hS : Bf.IsIter T (Bf.iterAll S)) (D : Bool) (go : Int × Int → Dir → Option (Int × Int))
    (hgo : StaysIn T go) (orig : Int × Int) (ho : InGrid T orig) (fuel : Nat) (hfuel : cols T * rows T < (fuel : Int)) (calls : Nat) :
    ∃ all st, Bf.iterAll S D go orig fuel = .ok all ∧ (do let it ← BfIter.new S D go orig; yields (BfIter.next S D go) calls it) = .ok (all.take calls, st) ∧
      st.nextfront = (all[calls]?).getD [] ∧ (((all.take calls).flatten ++ st.nextfront).map Prod.fst).Nodup ∧
      (((all.take calls).flatten.length + st.nextfront.length : Nat) : Int) ≤ cols T * rows T := by
  obtain ⟨ls, h1, h2, h3⟩ := C50_visits_exact T hT _ hS D go hgo orig ho fuel hfuel
  obtain ⟨it, h4, h5⟩ := Out.bind_eq_ok.1 h1
  obtain ⟨st, h6, h7⟩ := BfIter.yields_front calls h5
  have hsub : List.Sublist ((ls.take calls).flatten ++ st.nextfront) ls.flatten := by
    have : (ls.take calls).flatten ++ st.nextfront = (ls.take (calls + 1)).flatten := by
      rw [h7, List.take_add_one, List.flatten_append]
      cases ls[calls]? <;> simp
    rw [this]
    conv => rhs; rw [← List.take_append_drop (calls + 1) ls, List.flatten_append]
    exact List.sublist_append_left _ _
  have hnd := h3.sublist (hsub.map Prod.fst)
  refine ⟨ls, st, h1, by rw [h4]; exact h6, h7, hnd, ?_⟩
  have hin : ∀ q ∈ ls.flatten.map Prod.fst, q ∈ allPositions T true := by
    intro q hq
    obtain ⟨⟨q', d⟩, hm, rfl⟩ := List.mem_map.1 hq
    rcases (h2 q').1 ⟨d, hm⟩ with ⟨⟨ds, h⟩, -⟩ | ⟨h, -⟩
    · exact PosTy.mem_allPositions.2 (isPath_inGrid hgo ho h)
    · exact PosTy.mem_allPositions.2 (h ▸ ho)
  have hle : (((ls.take calls).flatten ++ st.nextfront).map Prod.fst).length ≤ (allPositions T true).length :=
    (hnd.subperm fun q hq => hin q ((hsub.map Prod.fst).subset hq)).length_le
  rw [PosTy.allPositions_length] at hle
  rw [← hT.cells_eq]
  simp only [List.length_map, List.length_append] at hle
  exact_mod_cast hle

/-- Entries that were overtaken by cheaper ones stay in the frontier: uniform-cost search can hold the same position once for every direction, and nothing else. -/
theorem C135_ucs_stale_occurs [Target] (D : Bool) :
    (UcsIter.new (MapImpl.hash 0) (0, 0) >>= fun it =>
      yields (UcsIter.next (.hash 0) D (stepCosts (PosTy.pos 2 2) [] middleCost)) 8 it >>= fun r =>
        .ok (r.2.frontier.length, times (1, 1) (r.2.frontier.map Prod.snd))) = .ok (fan D, fan D) := by
  cases D <;> decide_target

-- the frontier of A* is not empty half way
example : (AstarIter.new (MapImpl.hash 0) (0, 0) >>= fun it =>
    yields (AstarIter.next (PosTy.pos 2 2) (.hash 0) false (aroundWalls (PosTy.pos 2 2) []) (1, 2)) 5 it >>= fun r => .ok (r.1.length, r.2.frontier.length)) =
    .ok (5, 5) := by decide +kernel
-- the second and the third layer of a traversal
example : (BfIter.new .hash false (aroundWalls (PosTy.pos 2 2) []) (0, 0) >>= fun it =>
    yields (BfIter.next .hash false (aroundWalls (PosTy.pos 2 2) [])) 2 it >>= fun r => .ok (r.1.map List.length, r.2.nextfront)) =
    .ok ([2, 3], [((2, 1), .N), ((1, 2), .N)]) := by decide +kernel
example : (PosTy.pos 2 2).IsGrid := (PosTy.pos_searchable (by decide) (by decide) (.inl rfl)).toIsGrid
example : Bf.IsIter (PosTy.pos 2 2) (Bf.iterAll .hash) := .inr (.inl rfl)
example : StaysIn (PosTy.pos 2 2) (aroundWalls (PosTy.pos 2 2) []) := (aroundWalls_adjacent _ _).staysIn
example : (PosTy.pos 2 2).Searchable := PosTy.pos_searchable (by decide) (by decide) (.inl rfl)
example : Adjacent (PosTy.pos 2 2) (dropCost (stepCosts (PosTy.pos 2 2) [] middleCost)) := stepCosts_adjacent _ _ _
example : NoOverflow (stepCosts (PosTy.pos 2 2) [] middleCost) true (0, 0) :=
  (stepCosts_below (PosTy.pos_searchable (by decide) (by decide) (.inl rfl)) _ _ (by decide) (B := 40) (by decide)
    (fun p d => (middleCost_bounds p d).2) (by decide)).noOverflow

end Sqrid
