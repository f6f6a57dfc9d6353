import Verif.Props.Ucs
/-! Locality of the searches, and positions along the returned paths. -/

namespace Sqrid

open Spec

/-! ### Congruence -/

theorem Out.bind_eq_ok {α β : Type} {x : Out α} {f : α → Out β} {b : β} : (x >>= f) = .ok b ↔ ∃ a, x = .ok a ∧ f a = .ok b := by
  cases x with
  | ok a => exact ⟨fun h => ⟨a, rfl, h⟩, fun ⟨a', h1, h2⟩ => by injection h1 with h1; subst h1; exact h2⟩
  | panic => exact ⟨fun h => (by cases h), fun ⟨_, h, _⟩ => (by cases h)⟩
  | ub => exact ⟨fun h => (by cases h), fun ⟨_, h, _⟩ => (by cases h)⟩
  | timeout => exact ⟨fun h => (by cases h), fun ⟨_, h, _⟩ => (by cases h)⟩

theorem Out.bind_congr_ok {α β : Type} {x : Out α} {f g : α → Out β} (h : ∀ a, x = .ok a → f a = g a) : (x >>= f) = (x >>= g) := by
  cases x with
  | ok a => exact h a rfl
  | panic => rfl
  | ub => rfl
  | timeout => rfl

theorem foldlM_congr_ok {σ α : Type} {f g : σ → α → Out σ} (l : List α) (h : ∀ a ∈ l, ∀ s, f s a = g s a) (s : σ) : l.foldlM f s = l.foldlM g s := by
  induction l generalizing s with
  | nil => rfl
  | cons a l ih =>
    rw [List.foldlM_cons, List.foldlM_cons, h a (by simp)]
    exact Out.bind_congr_ok fun s' _ => ih (fun a ha => h a (by simp [ha])) s'

theorem foldlM_ok_inv {σ α : Type} {f : σ → α → Out σ} {P : σ → Prop} (l : List α) (h : ∀ a ∈ l, ∀ s s', P s → f s a = .ok s' → P s') :
    ∀ s s', P s → l.foldlM f s = .ok s' → P s' := by
  induction l with
  | nil => intro s s' hs h; injection h with h; exact h ▸ hs
  | cons a l ih =>
    intro s s' hs hl
    rw [List.foldlM_cons] at hl
    obtain ⟨s1, h1, h2⟩ := Out.bind_eq_ok.1 hl
    exact ih (fun a ha => h a (by simp [ha])) s1 s' (h a (by simp) s s1 hs h1) h2

/-- The movement functions agree where the first one can get to. -/
def AgreeFrom (go go' : GoFn) (D : Bool) (orig : P2) : Prop := ∀ p d, Reachable go D orig p → Allowed D d → go' p d = go p d

section bf
variable {S : SetImpl} {go go' : GoFn} {D : Bool} {orig : P2}

theorem BfIter.visitPos_congr (h : AgreeFrom go go' D orig) {m : P2 × Dir} (hm : Reachable go D orig m.1) (st : BfIter S) :
    BfIter.visitPos S D go' st m = BfIter.visitPos S D go st m := by
  unfold BfIter.visitPos
  rw [toList_dirs, Out.ok_bind, Out.ok_bind]
  rw [foldlM_congr_ok (f := BfIter.visitDir S go' m.1) (g := BfIter.visitDir S go m.1) (clockwise D) fun d hd s => by
    unfold BfIter.visitDir
    rw [h m.1 d hm (mem_clockwise.1 hd)]]

/-- The positions of the front can be reached. -/
def BfIter.FrontOk (go : GoFn) (D : Bool) (orig : P2) (st : BfIter S) : Prop := ∀ m ∈ st.nextfront, Reachable go D orig m.1

theorem BfIter.visitPos_front {m : P2 × Dir} (hm : Reachable go D orig m.1) (st st' : BfIter S) (hst : st.FrontOk go D orig)
    (h : BfIter.visitPos S D go st m = .ok st') : st'.FrontOk go D orig := by
  unfold BfIter.visitPos at h
  rw [toList_dirs, Out.ok_bind] at h
  obtain ⟨s1, h1, h2⟩ := Out.bind_eq_ok.1 h
  obtain ⟨v, -, h3⟩ := Out.bind_eq_ok.1 h2
  injection h3 with h3
  subst h3
  refine foldlM_ok_inv (P := BfIter.FrontOk go D orig) (clockwise D) ?_ st s1 hst h1
  intro d hd s s' hs hv
  unfold BfIter.visitDir at hv
  cases hg : go m.1 d with
  | none => rw [hg] at hv; injection hv with hv; exact hv ▸ hs
  | some q =>
    rw [hg] at hv
    simp only at hv
    obtain ⟨seen, -, hv⟩ := Out.bind_eq_ok.1 hv
    split at hv
    · injection hv with hv; exact hv ▸ hs
    · obtain ⟨neg, -, hv⟩ := Out.bind_eq_ok.1 hv
      obtain ⟨v, -, hv⟩ := Out.bind_eq_ok.1 hv
      injection hv with hv
      subst hv
      intro x hx
      rcases List.mem_append.1 hx with hx | hx
      · exact hs x hx
      · rw [List.mem_singleton] at hx
        subst hx
        exact hm.edge ⟨d, mem_clockwise.1 hd, hg⟩

theorem BfIter.next_congr (h : AgreeFrom go go' D orig) {st : BfIter S} (hst : st.FrontOk go D orig) :
    BfIter.next S D go' st = BfIter.next S D go st := by
  unfold BfIter.next
  simp only
  split
  · rfl
  · rw [foldlM_congr_ok (f := BfIter.visitPos S D go') (g := BfIter.visitPos S D go) st.nextfront fun m hm s => BfIter.visitPos_congr h (hst m hm) s]

theorem BfIter.next_front {st st' : BfIter S} {v} (hst : st.FrontOk go D orig) (h : BfIter.next S D go st = .ok (v, st')) :
    st'.FrontOk go D orig ∧ ∀ l, v = some l → ∀ m ∈ l, Reachable go D orig m.1 := by
  unfold BfIter.next at h
  simp only at h
  split at h
  · injection h with h
    injection h with h1 h2
    subst h1 h2
    exact ⟨fun m hm => (by cases hm), fun l hl => (by cases hl)⟩
  · obtain ⟨s1, h1, h2⟩ := Out.bind_eq_ok.1 h
    injection h2 with h2
    injection h2 with h2 h3
    subst h2 h3
    refine ⟨foldlM_ok_inv (P := BfIter.FrontOk go D orig) st.nextfront (fun m hm s s' hs hv => BfIter.visitPos_front (hst m hm) s s' hs hv) _ _
      (fun m hm => by cases hm) h1, fun l hl => ?_⟩
    injection hl with hl
    exact hl ▸ hst

theorem BfIter.new_congr (h : AgreeFrom go go' D orig) : BfIter.new S D go' orig = BfIter.new S D go orig := by
  unfold BfIter.new
  rw [BfIter.next_congr h]
  intro m hm
  rw [List.mem_singleton] at hm
  subst hm
  exact Reachable.refl

theorem BfIter.new_front {st : BfIter S} (h : BfIter.new S D go orig = .ok st) : st.FrontOk go D orig := by
  unfold BfIter.new at h
  obtain ⟨⟨v, s⟩, h1, h2⟩ := Out.bind_eq_ok.1 h
  injection h2 with h2
  subst h2
  refine (BfIter.next_front ?_ h1).1
  intro m hm
  rw [List.mem_singleton] at hm
  subst hm
  exact Reachable.refl

theorem Bf.collect_congr (h : AgreeFrom go go' D orig) (fuel : Nat) : ∀ {st : BfIter S}, st.FrontOk go D orig →
    collectWith (BfIter.next S D go') fuel st = collectWith (BfIter.next S D go) fuel st := by
  induction fuel with
  | zero => intro st _; rfl
  | succ n ih =>
    intro st hst
    unfold collectWith
    rw [BfIter.next_congr h hst]
    refine Out.bind_congr_ok fun a ha => ?_
    obtain ⟨v, s⟩ := a
    cases v with
    | none => rfl
    | some l =>
      simp only
      rw [ih (BfIter.next_front hst ha).1]

theorem Bf.iterAll_congr (h : AgreeFrom go go' D orig) (fuel : Nat) : Bf.iterAll S D go' orig fuel = Bf.iterAll S D go orig fuel := by
  unfold Bf.iterAll
  rw [BfIter.new_congr h]
  exact Out.bind_congr_ok fun st hst => Bf.collect_congr h fuel (BfIter.new_front hst)

theorem Bf.scanLayer_congr {M : MapImpl (Option Dir)} {found found' : P2 → Bool} (l : List (P2 × Dir)) (h : ∀ m ∈ l, found' m.1 = found m.1) :
    ∀ s, Bf.scanLayer M found' l s = Bf.scanLayer M found l s := by
  induction l with
  | nil => intro s; rfl
  | cons m l ih =>
    obtain ⟨p, d⟩ := m
    intro s
    unfold Bf.scanLayer
    refine Out.bind_congr_ok fun c _ => ?_
    rw [h (p, d) (by simp), ih (fun m hm => h m (by simp [hm]))]

theorem Bf.searchLoop_congr (h : AgreeFrom go go' D orig) {M : MapImpl (Option Dir)} {found found' : P2 → Bool}
    (hf : ∀ p, Reachable go D orig p → found' p = found p) (fuel : Nat) : ∀ {st : BfIter S} (c : M.σ), st.FrontOk go D orig →
    Bf.searchLoop S M D go' found' fuel st c = Bf.searchLoop S M D go found fuel st c := by
  induction fuel with
  | zero => intro st c _; rfl
  | succ n ih =>
    intro st c hst
    unfold Bf.searchLoop
    rw [BfIter.next_congr h hst]
    refine Out.bind_congr_ok fun a ha => ?_
    obtain ⟨v, s⟩ := a
    obtain ⟨h1, h2⟩ := BfIter.next_front hst ha
    cases v with
    | none => rfl
    | some l =>
      simp only
      rw [Bf.scanLayer_congr l fun m hm => hf _ (h2 l rfl m hm)]
      refine Out.bind_congr_ok fun b _ => ?_
      obtain ⟨c', hit⟩ := b
      cases hit with
      | none => exact ih c' h1
      | some p => rfl

theorem Bf.searchPath_congr [Target] {T : PosTy} (h : AgreeFrom go go' D orig) {M : MapImpl (Option Dir)} {found found' : P2 → Bool}
    (hf : ∀ p, Reachable go D orig p → found' p = found p) (fuel : Nat) :
    Bf.searchPath T S M D go' orig found' fuel = Bf.searchPath T S M D go orig found fuel := by
  have e : Bf.searchMapmov S M D go' orig found' fuel = Bf.searchMapmov S M D go orig found fuel := by
    unfold Bf.searchMapmov
    rw [BfIter.new_congr h]
    exact Out.bind_congr_ok fun st hst => Bf.searchLoop_congr h hf fuel _ (BfIter.new_front hst)
  unfold Bf.searchPath
  rw [e]

end bf

section astar
variable {T : PosTy} {C : MapImpl Int} {go go' : GoFn} {D : Bool} {orig dest : P2}

theorem Heap.mem_pop {hp : List Entry} {e : Entry} {rest : List Entry} (h : Heap.pop hp = some (e, rest)) : e ∈ hp ∧ ∀ x ∈ rest, x ∈ hp := by
  obtain ⟨h1, -, h2⟩ := Heap.pop_some h
  exact ⟨h1, fun x hx => h2.mem_iff.2 (List.mem_cons_of_mem _ hx)⟩

def AstarIter.FrontOk (go : GoFn) (D : Bool) (orig : P2) (st : AstarIter C) : Prop := ∀ e ∈ st.frontier, Reachable go D orig e.2.1

theorem AstarIter.relax_front [Target] {p : P2} (hp : Reachable go D orig p) {d : Dir} (hd : Allowed D d) {st st' : AstarIter C} (hst : st.FrontOk go D orig)
    (h : AstarIter.relax T C go dest p st d = .ok st') : st'.FrontOk go D orig := by
  unfold AstarIter.relax at h
  obtain ⟨c, -, h⟩ := Out.bind_eq_ok.1 h
  obtain ⟨nc, -, h⟩ := Out.bind_eq_ok.1 h
  cases hg : go p d with
  | none => rw [hg] at h; injection h with h; exact h ▸ hst
  | some q =>
    rw [hg] at h
    simp only at h
    obtain ⟨old, -, h⟩ := Out.bind_eq_ok.1 h
    split at h
    · obtain ⟨c', -, h⟩ := Out.bind_eq_ok.1 h
      obtain ⟨hh, -, h⟩ := Out.bind_eq_ok.1 h
      obtain ⟨pr, -, h⟩ := Out.bind_eq_ok.1 h
      obtain ⟨ng, -, h⟩ := Out.bind_eq_ok.1 h
      injection h with h
      subst h
      intro e he
      rcases List.mem_cons.1 he with rfl | he
      · exact hp.edge ⟨d, hd, hg⟩
      · exact hst e he
    · injection h with h; exact h ▸ hst

theorem AstarIter.next_front [Target] {st st' : AstarIter C} {v} (hst : st.FrontOk go D orig) (h : AstarIter.next T C D go dest st = .ok (v, st')) :
    st'.FrontOk go D orig := by
  unfold AstarIter.next at h
  cases hp : Heap.pop st.frontier with
  | none => rw [hp] at h; injection h with h; injection h with _ h; exact h ▸ hst
  | some er =>
    obtain ⟨⟨pr, m⟩, rest⟩ := er
    obtain ⟨h1, h2⟩ := Heap.mem_pop hp
    rw [hp] at h
    simp only at h
    rw [toList_dirs, Out.ok_bind] at h
    obtain ⟨s1, h3, h4⟩ := Out.bind_eq_ok.1 h
    injection h4 with h4
    injection h4 with _ h4
    subst h4
    exact foldlM_ok_inv (P := AstarIter.FrontOk go D orig) (clockwise D)
      (fun d hd s s' hs hv => AstarIter.relax_front (hst _ h1) (mem_clockwise.1 hd) hs hv) _ _ (fun e he => hst e (h2 e he)) h3

theorem AstarIter.next_congr [Target] (h : AgreeFrom go go' D orig) {st : AstarIter C} (hst : st.FrontOk go D orig) :
    AstarIter.next T C D go' dest st = AstarIter.next T C D go dest st := by
  unfold AstarIter.next
  cases hp : Heap.pop st.frontier with
  | none => rfl
  | some er =>
    obtain ⟨⟨pr, m⟩, rest⟩ := er
    obtain ⟨h1, h2⟩ := Heap.mem_pop hp
    simp only
    rw [toList_dirs, Out.ok_bind, Out.ok_bind]
    rw [foldlM_congr_ok (f := AstarIter.relax T C go' dest m.1) (g := AstarIter.relax T C go dest m.1) (clockwise D) fun d hd s => by
      unfold AstarIter.relax
      rw [h m.1 d (hst _ h1) (mem_clockwise.1 hd)]]

theorem AstarIter.new_front [Target] {st : AstarIter C} (h : AstarIter.new C orig = .ok st) : st.FrontOk go D orig := by
  unfold AstarIter.new at h
  obtain ⟨c, -, h⟩ := Out.bind_eq_ok.1 h
  injection h with h
  subst h
  intro e he
  rcases List.mem_cons.1 he with rfl | he
  · exact Reachable.refl
  · cases he

theorem Astar.searchLoop_congr [Target] (h : AgreeFrom go go' D orig) {M : MapImpl (Option Dir)} (fuel : Nat) : ∀ {st : AstarIter C} (c : M.σ),
    st.FrontOk go D orig → Astar.searchLoop T M C D go' dest fuel st c = Astar.searchLoop T M C D go dest fuel st c := by
  induction fuel with
  | zero => intro st c _; rfl
  | succ n ih =>
    intro st c hst
    unfold Astar.searchLoop
    rw [AstarIter.next_congr h hst]
    refine Out.bind_congr_ok fun a ha => ?_
    obtain ⟨v, s⟩ := a
    have h1 := AstarIter.next_front hst ha
    cases v with
    | none => rfl
    | some m =>
      obtain ⟨p, d⟩ := m
      simp only
      refine Out.bind_congr_ok fun c' _ => ?_
      rw [ih c' h1]

theorem Astar.searchPath_congr [Target] (h : AgreeFrom go go' D orig) {M : MapImpl (Option Dir)} (fuel : Nat) :
    Astar.searchPath T M C D go' orig dest fuel = Astar.searchPath T M C D go orig dest fuel := by
  have e : Astar.searchMapmov T M C D go' orig dest fuel = Astar.searchMapmov T M C D go orig dest fuel := by
    unfold Astar.searchMapmov
    exact Out.bind_congr_ok fun st hst => Astar.searchLoop_congr h fuel _ (AstarIter.new_front hst)
  unfold Astar.searchPath
  rw [e]

end astar

section ucs
variable {T : PosTy} {C : MapImpl Int} {go go' : WGo} {D : Bool} {orig dest : P2}

def WAgreeFrom (go go' : WGo) (D : Bool) (orig : P2) : Prop := ∀ p d, Reachable (dropCost go) D orig p → Allowed D d → go' p d = go p d

def UcsIter.FrontOk (go : WGo) (D : Bool) (orig : P2) (st : UcsIter C) : Prop := ∀ e ∈ st.frontier, Reachable (dropCost go) D orig e.2.1

theorem UcsIter.relax_front [Target] {p : P2} (hp : Reachable (dropCost go) D orig p) {d : Dir} (hd : Allowed D d) {st st' : UcsIter C} (hst : st.FrontOk go D orig)
    (h : UcsIter.relax C go p st d = .ok st') : st'.FrontOk go D orig := by
  unfold UcsIter.relax at h
  cases hg : go p d with
  | none => rw [hg] at h; injection h with h; exact h ▸ hst
  | some qw =>
    obtain ⟨q, w⟩ := qw
    rw [hg] at h
    simp only at h
    obtain ⟨c, -, h⟩ := Out.bind_eq_ok.1 h
    obtain ⟨nc, -, h⟩ := Out.bind_eq_ok.1 h
    obtain ⟨old, -, h⟩ := Out.bind_eq_ok.1 h
    split at h
    · obtain ⟨c', -, h⟩ := Out.bind_eq_ok.1 h
      obtain ⟨ng, -, h⟩ := Out.bind_eq_ok.1 h
      injection h with h
      subst h
      intro e he
      rcases List.mem_cons.1 he with rfl | he
      · exact hp.edge ⟨d, hd, by simp [dropCost, hg]⟩
      · exact hst e he
    · injection h with h; exact h ▸ hst

theorem UcsIter.next_front [Target] {st st' : UcsIter C} {v} (hst : st.FrontOk go D orig) (h : UcsIter.next C D go st = .ok (v, st')) :
    st'.FrontOk go D orig := by
  unfold UcsIter.next at h
  cases hp : Heap.pop st.frontier with
  | none => rw [hp] at h; injection h with h; injection h with _ h; exact h ▸ hst
  | some er =>
    obtain ⟨⟨pr, m⟩, rest⟩ := er
    obtain ⟨h1, h2⟩ := Heap.mem_pop hp
    rw [hp] at h
    simp only at h
    rw [toList_dirs, Out.ok_bind] at h
    obtain ⟨s1, h3, h4⟩ := Out.bind_eq_ok.1 h
    injection h4 with h4
    injection h4 with _ h4
    subst h4
    exact foldlM_ok_inv (P := UcsIter.FrontOk go D orig) (clockwise D)
      (fun d hd s s' hs hv => UcsIter.relax_front (hst _ h1) (mem_clockwise.1 hd) hs hv) _ _ (fun e he => hst e (h2 e he)) h3

theorem UcsIter.next_congr [Target] (h : WAgreeFrom go go' D orig) {st : UcsIter C} (hst : st.FrontOk go D orig) :
    UcsIter.next C D go' st = UcsIter.next C D go st := by
  unfold UcsIter.next
  cases hp : Heap.pop st.frontier with
  | none => rfl
  | some er =>
    obtain ⟨⟨pr, m⟩, rest⟩ := er
    obtain ⟨h1, h2⟩ := Heap.mem_pop hp
    simp only
    rw [toList_dirs, Out.ok_bind, Out.ok_bind]
    rw [foldlM_congr_ok (f := UcsIter.relax C go' m.1) (g := UcsIter.relax C go m.1) (clockwise D) fun d hd s => by
      unfold UcsIter.relax
      rw [h m.1 d (hst _ h1) (mem_clockwise.1 hd)]]

theorem UcsIter.new_front [Target] {st : UcsIter C} (h : UcsIter.new C orig = .ok st) : st.FrontOk go D orig := by
  unfold UcsIter.new at h
  obtain ⟨c, -, h⟩ := Out.bind_eq_ok.1 h
  injection h with h
  subst h
  intro e he
  rcases List.mem_cons.1 he with rfl | he
  · exact Reachable.refl
  · cases he

theorem Ucs.searchLoop_congr [Target] (h : WAgreeFrom go go' D orig) {M : MapImpl (Option Dir)} (fuel : Nat) : ∀ {st : UcsIter C} (c : M.σ),
    st.FrontOk go D orig → Ucs.searchLoop M C D go' dest fuel st c = Ucs.searchLoop M C D go dest fuel st c := by
  induction fuel with
  | zero => intro st c _; rfl
  | succ n ih =>
    intro st c hst
    unfold Ucs.searchLoop
    rw [UcsIter.next_congr h hst]
    refine Out.bind_congr_ok fun a ha => ?_
    obtain ⟨v, s⟩ := a
    have h1 := UcsIter.next_front hst ha
    cases v with
    | none => rfl
    | some m =>
      obtain ⟨p, d⟩ := m
      simp only
      refine Out.bind_congr_ok fun c' _ => ?_
      rw [ih c' h1]

theorem Ucs.searchPath_congr [Target] (h : WAgreeFrom go go' D orig) {M : MapImpl (Option Dir)} (fuel : Nat) :
    Ucs.searchPath T M C D go' orig dest fuel = Ucs.searchPath T M C D go orig dest fuel := by
  have e : Ucs.searchMapmov M C D go' orig dest fuel = Ucs.searchMapmov M C D go orig dest fuel := by
    unfold Ucs.searchMapmov
    exact Out.bind_congr_ok fun st hst => Ucs.searchLoop_congr h fuel _ (UcsIter.new_front hst)
  unfold Ucs.searchPath
  rw [e]

end ucs

/-! ### Positions along a path -/

/-- A prefix of the way back from `q` is the way back from some position; `K` holds along the way. -/
theorem Spec.Arrives.pre {T : PosTy} {f : P2 → Option Dir} {orig : P2} {K : P2 → Prop}
    (hK : ∀ q d, K q → q ≠ orig → f q = some d → K (neighbour q d)) {q : P2} {path : List Dir} (h : Arrives T f orig q path) (hq : K q) :
    ∀ as bs, path = as ++ bs → ∃ u, K u ∧ Arrives T f orig u as := by
  induction h with
  | here =>
    intro as bs e
    obtain ⟨rfl, rfl⟩ := List.append_eq_nil_iff.1 e.symm
    exact ⟨orig, hq, .here⟩
  | @step p d path hne hf hin h ih =>
    intro as bs e
    rcases List.eq_nil_or_concat bs with rfl | ⟨bs', b, rfl⟩
    · rw [List.append_nil] at e
      subst e
      exact ⟨p, hq, .step hne hf hin h⟩
    · rw [List.concat_eq_append, ← List.append_assoc] at e
      have := List.append_inj' e rfl
      exact ih (hK p d hq hne hf) as bs' this.1

/-- Positions reached by different prefixes are different. -/
theorem Spec.Arrives.simple {T : PosTy} {f : P2 → Option Dir} {orig : P2} {K : P2 → Prop} {go : GoFn}
    (hK : ∀ q d, K q → q ≠ orig → f q = some d → K (neighbour q d)) (hpath : ∀ q path, Arrives T f orig q path → K q → follow go orig path = some q)
    {q : P2} {path : List Dir} (h : Arrives T f orig q path) (hq : K q) (as bs as' bs' : List Dir) (e : path = as ++ bs) (e' : path = as' ++ bs')
    (heq : follow go orig as = follow go orig as') : as = as' := by
  obtain ⟨u, h1, h2⟩ := h.pre hK hq as bs e
  obtain ⟨u', h3, h4⟩ := h.pre hK hq as' bs' e'
  rw [hpath u as h2 h1, hpath u' as' h4 h3] at heq
  injection heq with heq
  subst heq
  exact h2.unique h4

end Sqrid
