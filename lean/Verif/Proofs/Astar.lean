import Verif.Spec.Target
import Verif.Proofs.BestFirstSearch
import Verif.Model.Astar
/-! A*: every implementation runs like the ideal one, and that one like the best-first machine. -/

namespace Sqrid

open Spec

theorem usizeMax_eq [Target] : usizeMax = limit := IntTy.usize_hi

theorem usizeMax_pos [Target] : 0 < usizeMax := by rw [usizeMax_eq]; have := limit_pos; omega

/-- The first `n` items of an iterator, or fewer if it ends, and its state after them. -/
def yields {σ α : Type} (next : σ → Out (Option α × σ)) : Nat → σ → Out (List α × σ)
  | 0, s => .ok ([], s)
  | n + 1, s => do
    let (o, s) ← next s
    match o with
    | none => .ok ([], s)
    | some a => do
      let (l, s) ← yields next n s
      .ok (a :: l, s)

theorem yields_rel {σ τ α : Type} {Q : σ → τ → Prop} {f : σ → Out (Option α × σ)} {g : τ → Out (Option α × τ)}
    (h : ∀ s t, Q s t → Out.Rel (fun a b => a.1 = b.1 ∧ Q a.2 b.2) (f s) (g t)) (n : Nat) : ∀ s t, Q s t →
    Out.Rel (fun a b => a.1 = b.1 ∧ Q a.2 b.2) (yields f n s) (yields g n t) := by
  induction n with
  | zero => intro s t hQ; exact ⟨rfl, hQ⟩
  | succ n ih =>
    intro s t hQ
    unfold yields
    refine (h s t hQ).bind fun a b hab => ?_
    obtain ⟨v, s'⟩ := a
    obtain ⟨v', t'⟩ := b
    obtain ⟨h1, h2⟩ := hab
    simp only at h1 h2
    subst h1
    cases v with
    | none => exact ⟨rfl, h2⟩
    | some a =>
      refine (ih s' t' h2).bind fun x y hxy => ?_
      obtain ⟨l, s''⟩ := x
      obtain ⟨l', t''⟩ := y
      obtain ⟨h3, h4⟩ := hxy
      simp only at h3 h4
      subst h3
      exact ⟨rfl, h4⟩

/-- Related results of `search_mapmov`. -/
def RelMap {M : MapImpl (Option Dir)} (RM : M.σ → (P2 → Option Dir) → Prop) (a : Res M.σ) (b : Res (P2 → Option Dir)) : Prop :=
  match a, b with
  | .error e, .error e' => e = e'
  | .ok s, .ok f => RM s f
  | _, _ => False

section
variable {T : PosTy} {C : MapImpl Int} {R : C.σ → (P2 → Int) → Prop} {go : GoFn}

/-- Related states of the iterator. -/
def AstarIter.Rel (T : PosTy) (R : C.σ → (P2 → Int) → Prop) (s : AstarIter C) (t : AstarIter (MapImpl.ideal 0)) : Prop :=
  R s.cost t.cost ∧ s.frontier = t.frontier ∧ ∀ e ∈ t.frontier, InGrid T e.2.1

theorem AstarIter.rel_relax [Target] (hC : C.Sim T 0 R) (hgo : StaysIn T go) {dest p : P2} (hp : InGrid T p) (d : Dir) {s t} (h : AstarIter.Rel T R s t) :
    Out.Rel (AstarIter.Rel T R) (relax T C go dest p s d) (relax T (MapImpl.ideal 0) go dest p t d) := by
  unfold relax
  rw [hC.rel_get h.1 hp]
  refine Out.Rel.bind_same _ fun c => ?_
  refine Out.Rel.bind_same _ fun nc => ?_
  cases hg : go p d with
  | none => exact h
  | some q =>
    have hq := hgo p d q hp hg
    simp only
    rw [hC.rel_get h.1 hq]
    refine Out.Rel.bind_same _ fun old => ?_
    by_cases hlt : nc < old
    · rw [if_pos hlt, if_pos hlt]
      refine (hC.rel_set h.1 hq nc).bind fun a b hab => ?_
      refine Out.Rel.bind_same _ fun hh => ?_
      refine Out.Rel.bind_same _ fun pr => ?_
      refine Out.Rel.bind_same _ fun neg => ?_
      refine ⟨hab, by simp only [Heap.push]; rw [h.2.1], fun m hm => ?_⟩
      rcases List.mem_cons.1 hm with rfl | hm
      · exact hq
      · exact h.2.2 m hm
    · rw [if_neg hlt, if_neg hlt]
      exact h

theorem AstarIter.rel_next [Target] (hC : C.Sim T 0 R) (hgo : StaysIn T go) (D : Bool) (dest : P2) {s t} (h : AstarIter.Rel T R s t) :
    Out.Rel (fun a b => (a.1 = b.1 ∧ ∀ m, b.1 = some m → InGrid T m.1) ∧ AstarIter.Rel T R a.2 b.2)
      (next T C D go dest s) (next T (MapImpl.ideal 0) D go dest t) := by
  unfold next
  rw [h.2.1]
  cases hp : Heap.pop t.frontier with
  | none => exact ⟨⟨rfl, fun m hm => by cases hm⟩, h⟩
  | some er =>
    obtain ⟨⟨pr, mov⟩, rest⟩ := er
    obtain ⟨h1, -, h2⟩ := Heap.pop_some hp
    have hm := h.2.2 _ h1
    simp only
    refine Out.Rel.bind_same _ fun dirs => ?_
    refine (Out.Rel.foldlM dirs (fun s t d _ h => AstarIter.rel_relax hC hgo hm d h) _ _ ?_).bind fun s' t' h' => ?_
    · exact ⟨h.1, rfl, fun e he => h.2.2 e (h2.mem_iff.2 (List.mem_cons_of_mem _ he))⟩
    · refine ⟨⟨rfl, fun m hm' => ?_⟩, h'⟩
      injection hm' with hm'
      exact hm' ▸ hm

theorem AstarIter.rel_new [Target] (hC : C.Sim T 0 R) {orig : P2} (ho : InGrid T orig) :
    Out.Rel (AstarIter.Rel T R) (AstarIter.new C orig) (AstarIter.new (MapImpl.ideal 0) orig) := by
  unfold AstarIter.new
  refine (hC.rel_set (hC.new usizeMax) ho 0).bind fun a b hab => ?_
  exact ⟨hab, rfl, fun e he => by rw [List.mem_singleton.1 he]; exact ho⟩

variable {M : MapImpl (Option Dir)} {RM : M.σ → (P2 → Option Dir) → Prop}

theorem Astar.rel_searchLoop [Target] (hC : C.Sim T 0 R) (hM : M.Sim T none RM) (hgo : StaysIn T go) (D : Bool) (dest : P2) (fuel : Nat) :
    ∀ {s t a b}, AstarIter.Rel T R s t → RM a b →
    Out.Rel (RelMap RM) (Astar.searchLoop T M C D go dest fuel s a) (Astar.searchLoop T (MapImpl.ideal none) (MapImpl.ideal 0) D go dest fuel t b) := by
  induction fuel with
  | zero => intro s t a b _ _; trivial
  | succ n ih =>
    intro s t a b h hab
    unfold Astar.searchLoop
    refine (AstarIter.rel_next hC hgo D dest h).bind fun x y hxy => ?_
    obtain ⟨v, s'⟩ := x
    obtain ⟨v', t'⟩ := y
    obtain ⟨⟨h1, h2⟩, h3⟩ := hxy
    simp only at h1 h2 h3
    subst h1
    cases v with
    | none => rfl
    | some m =>
      obtain ⟨p, d⟩ := m
      simp only
      refine (hM.rel_set hab (h2 _ rfl) (some d)).bind fun x y hxy => ?_
      by_cases hd : p = dest
      · rw [if_pos hd, if_pos hd]; exact hxy
      · rw [if_neg hd, if_neg hd]; exact ih h3 hxy

theorem Astar.searchPath_ideal [Target] (hT : T.WF) (hC : C.Sim T 0 R) (hM : M.Sim T none RM) (hgo : StaysIn T go) (D : Bool) {orig dest : P2}
    (ho : InGrid T orig) (hd : InGrid T dest) (fuel : Nat) :
    Astar.searchPath T M C D go orig dest fuel = Astar.searchPath T (MapImpl.ideal none) (MapImpl.ideal 0) D go orig dest fuel := by
  apply Out.Rel.eq
  unfold Astar.searchPath Astar.searchMapmov
  refine Out.Rel.bind ((AstarIter.rel_new hC ho).bind fun a b h => Astar.rel_searchLoop hC hM hgo D dest fuel h hM.default) ?_
  intro a b h
  cases a with
  | error e =>
    cases b with
    | error e' => exact congrArg _ h
    | ok f => exact h.elim
  | ok s =>
    cases b with
    | error e' => exact h.elim
    | ok f =>
      simp only
      rw [camefrom_ideal hM h hT hd]
      exact Out.Rel.refl (fun _ => rfl) _

end

/-! ### The ideal implementation is the best-first machine -/

/-- The state of the iterator. -/
def BSt.astar (s : BSt) : AstarIter (MapImpl.ideal 0) := { cost := s.c, frontier := s.heap }

/-- There is room for the steps from `p`. -/
def AstarRoom [Target] (T : PosTy) (go : GoFn) (D : Bool) (dest : P2) (s : BSt) (p : P2) : Prop :=
  0 ≤ s.c p ∧ s.c p + 1 ≤ usizeMax ∧
    ∀ d q, Allowed D d → go p d = some q → T.manhattan q dest = .ok (l1 q dest) ∧ s.c p + 1 + l1 q dest ≤ usizeMax

theorem AstarIter.relax_unfold [Target] (T : PosTy) (go : GoFn) (dest : P2) (s : BSt) (p : P2) (d : Dir) :
    AstarIter.relax T (MapImpl.ideal 0) go dest p s.astar d = (IntTy.usize.add (s.c p) 1 >>= fun newcost => match go p d with
    | none => .ok s.astar
    | some q => if newcost < s.c q then (T.manhattan q dest >>= fun h => IntTy.usize.add newcost h >>= fun priority => d.flip >>= fun neg =>
        .ok { cost := upd s.c q newcost, frontier := Heap.push s.heap (priority, q, neg) }) else .ok s.astar) := rfl

theorem AstarIter.relax_eq [Target] {T : PosTy} {go : GoFn} {D : Bool} {dest : P2} {s : BSt} {p : P2}
    (hr : AstarRoom T go D dest s p) {d : Dir} (hal : Allowed D d) :
    AstarIter.relax T (MapImpl.ideal 0) go dest p s.astar d = .ok (BSt.relax (unitCost go) (fun q => l1 q dest) p s d).astar := by
  obtain ⟨h0, h1, h2⟩ := hr
  rw [usizeMax_eq] at h1 h2
  have e1 : IntTy.usize.add (s.c p) 1 = .ok (s.c p + 1) := IntTy.usize_add ⟨by omega, by omega⟩
  rw [AstarIter.relax_unfold, e1, Out.ok_bind]
  unfold BSt.relax
  cases hg : go p d with
  | none => simp only [unitCost, hg, Option.map_none]
  | some q =>
    obtain ⟨h3, h4⟩ := h2 d q hal hg
    have hl : 0 ≤ l1 q dest := by simp only [l1]; omega
    have e2 : IntTy.usize.add (s.c p + 1) (l1 q dest) = .ok (s.c p + 1 + l1 q dest) := IntTy.usize_add ⟨by omega, by omega⟩
    simp only [unitCost, hg, Option.map_some]
    by_cases hlt : s.c p + 1 < s.c q
    · rw [if_pos hlt, if_pos hlt, h3, Out.ok_bind, e2, Out.ok_bind, Dir.flip_eq, Out.ok_bind]
      rfl
    · rw [if_neg hlt, if_neg hlt]

/-- With overflow checks: the step, or a panic. -/
theorem AstarIter.relax_cases [Target] (hc : Target.checks = true) {T : PosTy} (hT : T.WF) {go : GoFn} (hgo : StaysIn T go) {dest : P2}
    (hd : InGrid T dest) {s : BSt} {p : P2} (hp : InGrid T p) (d : Dir) :
    AstarIter.relax T (MapImpl.ideal 0) go dest p s.astar d = .panic ∨
    AstarIter.relax T (MapImpl.ideal 0) go dest p s.astar d = .ok (BSt.relax (unitCost go) (fun q => l1 q dest) p s d).astar := by
  have hadd : ∀ a b : Int, IntTy.usize.add a b = .panic ∨ IntTy.usize.add a b = .ok (a + b) := by
    intro a b
    rw [IntTy.add, IntTy.arith_checks hc]
    split
    · exact .inr rfl
    · exact .inl rfl
  rw [AstarIter.relax_unfold]
  rcases hadd (s.c p) 1 with e1 | e1
  · rw [e1]; exact .inl rfl
  rw [e1, Out.ok_bind]
  unfold BSt.relax
  cases hg : go p d with
  | none => simp only [unitCost, hg, Option.map_none, or_true]
  | some q =>
    simp only [unitCost, hg, Option.map_some]
    by_cases hlt : s.c p + 1 < s.c q
    · rw [if_pos hlt, if_pos hlt, C15_manhattan_exact hc T hT q dest (hgo p d q hp hg) hd]
      split
      · rw [Out.ok_bind]
        rcases hadd (s.c p + 1) (l1 q dest) with e2 | e2
        · rw [e2]; exact .inl rfl
        · rw [e2, Out.ok_bind, Dir.flip_eq, Out.ok_bind]; exact .inr rfl
      · exact .inl rfl
    · rw [if_neg hlt, if_neg hlt]; exact .inr rfl

theorem BSt.relax_self {go : WGo} {h : P2 → Int} {p : P2} {s : BSt} (hw : NonNeg go) (d : Dir) : (BSt.relax go h p s d).c p = s.c p :=
  ((ExpandedBy.nil go h p s).step hw d).self

theorem AstarIter.next_unfold [Target] (T : PosTy) (go : GoFn) (dest : P2) (D : Bool) {s : BSt} {e : Entry} {rest : List Entry}
    (hp : Heap.pop s.heap = some (e, rest)) :
    AstarIter.next T (MapImpl.ideal 0) D go dest s.astar =
      ((clockwise D).foldlM (AstarIter.relax T (MapImpl.ideal 0) go dest e.2.1) ({ c := s.c, heap := rest } : BSt).astar >>= fun it =>
        .ok (some e.2, it)) := by
  unfold AstarIter.next
  simp only [BSt.astar]
  rw [hp]
  simp only
  rw [toList_dirs, Out.ok_bind]

theorem AstarIter.next_eq [Target] {T : PosTy} {go : GoFn} {dest : P2} (D : Bool) {s : BSt}
    {e : Entry} {rest : List Entry} (hp : Heap.pop s.heap = some (e, rest)) (hr : AstarRoom T go D dest s e.2.1) :
    AstarIter.next T (MapImpl.ideal 0) D go dest s.astar =
      .ok (some e.2, (BSt.after (unitCost go) (fun q => l1 q dest) D s.c e rest).astar) := by
  have key : ∀ (ds : List Dir), (∀ d ∈ ds, Allowed D d) → ∀ (s : BSt), AstarRoom T go D dest s e.2.1 →
      ds.foldlM (AstarIter.relax T (MapImpl.ideal 0) go dest e.2.1) s.astar =
      .ok (ds.foldl (BSt.relax (unitCost go) (fun q => l1 q dest) e.2.1) s).astar := by
    intro ds
    induction ds with
    | nil => intro _ s _; rfl
    | cons d ds ih =>
      intro hds s hs
      rw [List.foldlM_cons, AstarIter.relax_eq hs (hds d (by simp)), Out.ok_bind, List.foldl_cons]
      refine ih (fun d hd => hds d (by simp [hd])) _ ?_
      unfold AstarRoom
      rw [BSt.relax_self (unitCost_nonneg go)]
      exact hs
  rw [AstarIter.next_unfold T go dest D hp, key (clockwise D) (fun d hd => mem_clockwise.1 hd) { c := s.c, heap := rest } hr]
  rfl

theorem AstarIter.next_cases [Target] (hc : Target.checks = true) {T : PosTy} (hT : T.WF) {go : GoFn} (hgo : StaysIn T go) {dest : P2}
    (hd : InGrid T dest) (D : Bool) {s : BSt} {e : Entry} {rest : List Entry} (hp : Heap.pop s.heap = some (e, rest)) (hr : InGrid T e.2.1) :
    AstarIter.next T (MapImpl.ideal 0) D go dest s.astar = .panic ∨
    AstarIter.next T (MapImpl.ideal 0) D go dest s.astar =
      .ok (some e.2, (BSt.after (unitCost go) (fun q => l1 q dest) D s.c e rest).astar) := by
  have key : ∀ (ds : List Dir) (s : BSt), ds.foldlM (AstarIter.relax T (MapImpl.ideal 0) go dest e.2.1) s.astar = .panic ∨
      ds.foldlM (AstarIter.relax T (MapImpl.ideal 0) go dest e.2.1) s.astar =
        .ok (ds.foldl (BSt.relax (unitCost go) (fun q => l1 q dest) e.2.1) s).astar := by
    intro ds
    induction ds with
    | nil => intro s; exact .inr rfl
    | cons d ds ih =>
      intro s
      rw [List.foldlM_cons, List.foldl_cons]
      rcases AstarIter.relax_cases hc hT hgo hd (s := s) hr d with h | h
      · rw [h]; exact .inl rfl
      · rw [h, Out.ok_bind]; exact ih _
  rw [AstarIter.next_unfold T go dest D hp]
  rcases key (clockwise D) { c := s.c, heap := rest } with h | h
  · rw [h]; exact .inl rfl
  · rw [h]; exact .inr rfl

theorem AstarIter.next_none [Target] {T : PosTy} {go : GoFn} {dest : P2} {D : Bool} {s : BSt} (hp : Heap.pop s.heap = none) :
    AstarIter.next T (MapImpl.ideal 0) D go dest s.astar = .ok (none, s.astar) := by
  unfold AstarIter.next
  simp only [BSt.astar]
  rw [hp]

theorem AstarIter.new_eq [Target] (orig : P2) : AstarIter.new (MapImpl.ideal 0) orig = .ok (BSt.init usizeMax orig).astar := rfl

/-- The distances that A* works with fit: at each position that can be reached, with the number of these positions on top. -/
def AstarFits [Target] (T : PosTy) (go : GoFn) (D : Bool) (orig dest : P2) (n : Nat) : Prop :=
  ∀ q, Reachable go D orig q → T.manhattan q dest = .ok (l1 q dest) ∧ n + l1 q dest ≤ usizeMax

/-- As long as there is room, the loops agree. -/
theorem Astar.loop_eq [Target] {T : PosTy} {go : GoFn} {orig dest : P2} (D : Bool) {L : List P2} (hL : ∀ q, Reachable go D orig q → q ∈ L)
    (hfit : AstarFits T go D orig dest L.length) (fuel : Nat) : ∀ {s : BSt} {f : P2 → Option Dir}, UInv go D orig L usizeMax s →
    Astar.searchLoop T (MapImpl.ideal none) (MapImpl.ideal 0) D go dest fuel s.astar f =
      BSt.search (unitCost go) (fun q => l1 q dest) D dest fuel s f := by
  induction fuel with
  | zero => intro s f _; rfl
  | succ n ih =>
    intro s f U
    cases hp : Heap.pop s.heap with
    | none =>
      rw [BSt.search_none hp]
      unfold Astar.searchLoop
      rw [AstarIter.next_none hp]
      rfl
    | some er =>
      obtain ⟨e, rest⟩ := er
      obtain ⟨h1, U', -⟩ := U.after (h := fun q => l1 q dest) hL hp
      have hroom : AstarRoom T go D dest s e.2.1 := by
        have h2 := U.bound _ h1
        have h3 := known_le L usizeMax s.c
        have hr := U.reach _ h1
        refine ⟨U.nonneg _, ?_, fun d q hd hg => ?_⟩
        · have h4 := (hfit _ hr).2
          have hl : 0 ≤ l1 e.2.1 dest := by simp only [l1]; omega
          omega
        · obtain ⟨ds, hds⟩ := hr
          have h4 := hfit q ⟨_, isPath_append hds (isPath_single hd hg)⟩
          exact ⟨h4.1, by omega⟩
      rw [BSt.search_some hp]
      unfold Astar.searchLoop
      rw [AstarIter.next_eq D hp hroom, Out.ok_bind, ← ih U']
      rfl

/-- With overflow checks the loops agree, or it panics. -/
theorem Astar.loop_cases [Target] (hc : Target.checks = true) {T : PosTy} (hT : T.WF) {go : GoFn} (hgo : StaysIn T go) {orig dest : P2}
    (ho : InGrid T orig) (hd : InGrid T dest) (D : Bool) {L : List P2} (hL : ∀ q, Reachable go D orig q → q ∈ L) (fuel : Nat) :
    ∀ {s : BSt} {f : P2 → Option Dir}, UInv go D orig L usizeMax s →
    Astar.searchLoop T (MapImpl.ideal none) (MapImpl.ideal 0) D go dest fuel s.astar f = .panic ∨
    Astar.searchLoop T (MapImpl.ideal none) (MapImpl.ideal 0) D go dest fuel s.astar f =
      BSt.search (unitCost go) (fun q => l1 q dest) D dest fuel s f := by
  induction fuel with
  | zero => intro s f _; exact .inr rfl
  | succ n ih =>
    intro s f U
    cases hp : Heap.pop s.heap with
    | none =>
      right
      rw [BSt.search_none hp]
      unfold Astar.searchLoop
      rw [AstarIter.next_none hp]
      rfl
    | some er =>
      obtain ⟨e, rest⟩ := er
      obtain ⟨h1, U', -⟩ := U.after (h := fun q => l1 q dest) hL hp
      obtain ⟨ds, hds⟩ := U.reach _ h1
      rw [BSt.search_some hp]
      unfold Astar.searchLoop
      rcases AstarIter.next_cases hc hT hgo hd D hp (isPath_inGrid hgo ho hds) with h | h
      · rw [h]; exact .inl rfl
      · rw [h, Out.ok_bind]
        obtain ⟨p, q, dd⟩ := e
        simp only [MapImpl.ideal, Out.ok_bind]
        by_cases hq : q = dest
        · rw [if_pos hq, if_pos hq]; exact .inr rfl
        · rw [if_neg hq, if_neg hq]; exact ih U'

theorem Astar.searchMapmov_fits [Target] {T : PosTy} {go : GoFn} {orig dest : P2} (D : Bool) {L : List P2} (hL : ∀ q, Reachable go D orig q → q ∈ L)
    (hfit : AstarFits T go D orig dest L.length) (fuel : Nat) :
    Astar.searchMapmov T (MapImpl.ideal none) (MapImpl.ideal 0) D go orig dest fuel =
      BSt.search (unitCost go) (fun q => l1 q dest) D dest fuel (BSt.init usizeMax orig) (fun _ => none) := by
  unfold Astar.searchMapmov
  rw [AstarIter.new_eq, Out.ok_bind]
  exact Astar.loop_eq D hL hfit fuel (UInv.init usizeMax_pos (hL _ ⟨[], isPath_nil⟩))

theorem Astar.searchMapmov_cases [Target] (hc : Target.checks = true) {T : PosTy} (hT : T.WF) {go : GoFn} (hgo : StaysIn T go) {orig dest : P2}
    (ho : InGrid T orig) (hd : InGrid T dest) (D : Bool) (fuel : Nat) :
    Astar.searchMapmov T (MapImpl.ideal none) (MapImpl.ideal 0) D go orig dest fuel = .panic ∨
    Astar.searchMapmov T (MapImpl.ideal none) (MapImpl.ideal 0) D go orig dest fuel =
      BSt.search (unitCost go) (fun q => l1 q dest) D dest fuel (BSt.init usizeMax orig) (fun _ => none) := by
  have hL : ∀ q, Reachable go D orig q → q ∈ allPositions T true := fun q ⟨ds, hds⟩ => PosTy.mem_allPositions.2 (isPath_inGrid hgo ho hds)
  unfold Astar.searchMapmov
  rw [AstarIter.new_eq, Out.ok_bind]
  exact Astar.loop_cases hc hT hgo ho hd D hL fuel (UInv.init usizeMax_pos (hL _ ⟨[], isPath_nil⟩))

theorem PosTy.Searchable.astarFits [Target] {T : PosTy} (hT : T.Searchable) {go : GoFn} {D : Bool} (hgo : StaysIn T go) {orig dest : P2} (ho : InGrid T orig)
    (hd : InGrid T dest) : AstarFits T go D orig dest (allPositions T true).length := by
  rintro q ⟨ds, hds⟩
  have hq := isPath_inGrid hgo ho hds
  refine ⟨C15_manhattan_partial T hT.toIsGrid q dest hq hd, ?_⟩
  have hl := l1_le hT.toIsGrid hq hd
  have h4 := hT.room
  have h5 : ((T.nx * T.ny : Nat) : Int) = (T.X.MAX + 1) * (T.Y.MAX + 1) := by push_cast; rw [hT.nx_eq, hT.ny_eq]
  have hx := hT.xmax0
  have hy := hT.ymax0
  rw [usizeMax_eq, PosTy.allPositions_length]
  omega

theorem Astar.searchMapmov_eq [Target] {T : PosTy} (hT : T.Searchable) {go : GoFn} (hgo : StaysIn T go) {orig dest : P2} (ho : InGrid T orig)
    (hd : InGrid T dest) (D : Bool) (fuel : Nat) :
    Astar.searchMapmov T (MapImpl.ideal none) (MapImpl.ideal 0) D go orig dest fuel =
      BSt.search (unitCost go) (fun q => l1 q dest) D dest fuel (BSt.init usizeMax orig) (fun _ => none) :=
  Astar.searchMapmov_fits D (L := allPositions T true) (fun q ⟨ds, hds⟩ => PosTy.mem_allPositions.2 (isPath_inGrid hgo ho hds))
    (hT.astarFits hgo ho hd) fuel

theorem Astar.searchPath_of_mapmov [Target] {T : PosTy} {go : GoFn} {D : Bool} {orig dest : P2} {fuel : Nat} {r : Res (P2 → Option Dir)}
    (hmm : Astar.searchMapmov T (MapImpl.ideal none) (MapImpl.ideal 0) D go orig dest fuel = .ok r) :
    Astar.searchPath T (MapImpl.ideal none) (MapImpl.ideal 0) D go orig dest fuel = (match (generalizing := false) r with
      | .error e => .ok (.error e)
      | .ok mapmov => camefromIntoPath T (MapImpl.ideal none) mapmov orig dest) := by
  unfold Astar.searchPath
  rw [hmm, Out.ok_bind]
  cases r <;> rfl

end Sqrid
