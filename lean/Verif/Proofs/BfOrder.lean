import Verif.Proofs.BfSearch
import Verif.Props.SetMap
/-! The order of the breadth-first traversal, and the goal it finds first. -/

namespace Sqrid

namespace Spec

/-- The steps out of the positions of a list, in order: position by position, and clockwise from north at each; with the direction that leads back. -/
def stepsOut (go : Int × Int → Dir → Option (Int × Int)) (D : Bool) (ps : List (Int × Int)) : List ((Int × Int) × Dir) :=
  ps.flatMap fun p => (clockwise D).filterMap fun d => (go p d).map fun q => (q, opposite d)

/-- The entries whose position is new: it is not in `seen` and no earlier entry has it. -/
def firstOf (seen : List (Int × Int)) : List ((Int × Int) × Dir) → List ((Int × Int) × Dir)
  | [] => []
  | m :: l => if m.1 ∈ seen then firstOf seen l else m :: firstOf (m.1 :: seen) l

end Spec

open Spec

theorem firstOf_congr {s s' : List P2} (h : ∀ q, q ∈ s ↔ q ∈ s') (l : List (P2 × Dir)) : firstOf s l = firstOf s' l := by
  induction l generalizing s s' with
  | nil => rfl
  | cons m l ih =>
    simp only [firstOf]
    by_cases hm : m.1 ∈ s
    · rw [if_pos hm, if_pos ((h _).1 hm), ih h]
    · rw [if_neg hm, if_neg (fun h' => hm ((h _).2 h'))]
      rw [ih (s := m.1 :: s) (s' := m.1 :: s') fun q => by simp [h q]]

theorem firstOf_append (s : List P2) (l l' : List (P2 × Dir)) :
    firstOf s (l ++ l') = firstOf s l ++ firstOf (s ++ (firstOf s l).map Prod.fst) l' := by
  induction l generalizing s with
  | nil => simp [firstOf]
  | cons m l ih =>
    simp only [List.cons_append, firstOf]
    by_cases hm : m.1 ∈ s
    · rw [if_pos hm, if_pos hm, ih]
    · rw [if_neg hm, if_neg hm, ih, List.cons_append]
      congr 2
      apply firstOf_congr
      intro q
      simp only [List.mem_append, List.mem_cons, List.map_cons]
      tauto

/-- The steps out of one position. -/
def stepsFrom (go : GoFn) (p : P2) (ds : List Dir) : List (P2 × Dir) := ds.filterMap fun d => (go p d).map fun q => (q, opposite d)

theorem visitDirs_order (go : GoFn) (p : P2) (ds : List Dir) : ∀ (st : BfIter SetImpl.ideal) (seen : List P2),
    (∀ q, st.visited q = true ↔ q ∈ seen) →
    ∃ st', ds.foldlM (BfIter.visitDir SetImpl.ideal go p) st = .ok st' ∧ st'.nextfront = st.nextfront ++ firstOf seen (stepsFrom go p ds) ∧
      ∀ q, st'.visited q = true ↔ q ∈ seen ++ (firstOf seen (stepsFrom go p ds)).map Prod.fst := by
  induction ds with
  | nil => intro st seen h; exact ⟨st, rfl, by simp [stepsFrom, firstOf], by simpa [stepsFrom, firstOf] using h⟩
  | cons d ds ih =>
    intro st seen h
    rw [List.foldlM_cons, BfIter.visitDir_ideal, Out.ok_bind]
    cases hg : go p d with
    | none =>
      have e : stepsFrom go p (d :: ds) = stepsFrom go p ds := by simp [stepsFrom, hg]
      rw [e]
      exact ih st seen h
    | some q =>
      have e : stepsFrom go p (d :: ds) = (q, opposite d) :: stepsFrom go p ds := by simp [stepsFrom, hg]
      rw [e]
      simp only [firstOf]
      by_cases hq : q ∈ seen
      · rw [if_pos ((h q).2 hq), if_pos hq]
        exact ih st seen h
      · rw [if_neg (fun h' => hq ((h q).1 h')), if_neg hq]
        obtain ⟨st', h1, h2, h3⟩ := ih { visited := upd st.visited q true, nextfront := st.nextfront ++ [(q, opposite d)] } (q :: seen) (by
          intro r
          show upd st.visited q true r = true ↔ _
          by_cases e : r = q
          · subst e; simp [upd_same]
          · rw [upd_other _ _ e, h r]; simp [e])
        refine ⟨st', h1, by rw [h2]; simp, fun r => ?_⟩
        rw [h3 r]
        simp only [List.mem_append, List.mem_cons, List.map_cons]
        tauto

theorem visitPos_order (go : GoFn) (D : Bool) (m : P2 × Dir) (st : BfIter SetImpl.ideal) (seen : List P2)
    (h : ∀ q, st.visited q = true ↔ q ∈ seen) :
    ∃ st', BfIter.visitPos SetImpl.ideal D go st m = .ok st' ∧ st'.nextfront = st.nextfront ++ firstOf seen (stepsOut go D [m.1]) ∧
      ∀ q, st'.visited q = true ↔ q ∈ m.1 :: (seen ++ (firstOf seen (stepsOut go D [m.1])).map Prod.fst) := by
  obtain ⟨st', h1, h2, h3⟩ := visitDirs_order go m.1 (clockwise D) st seen h
  have e : stepsOut go D [m.1] = stepsFrom go m.1 (clockwise D) := by simp [stepsOut, stepsFrom]
  unfold BfIter.visitPos
  rw [toList_dirs, Out.ok_bind, h1, Out.ok_bind, e]
  refine ⟨_, rfl, h2, fun q => ?_⟩
  show upd st'.visited m.1 true q = true ↔ _
  by_cases e : q = m.1
  · subst e; simp [upd_same]
  · rw [upd_other _ _ e, h3 q, List.mem_cons]; simp only [e, false_or]

theorem visitAll_order (go : GoFn) (D : Bool) (front : List (P2 × Dir)) : ∀ (st : BfIter SetImpl.ideal) (seen : List P2),
    (∀ q, st.visited q = true ↔ q ∈ seen) → (∀ m ∈ front, m.1 ∈ seen) →
    ∃ st', front.foldlM (BfIter.visitPos SetImpl.ideal D go) st = .ok st' ∧
      st'.nextfront = st.nextfront ++ firstOf seen (stepsOut go D (front.map Prod.fst)) ∧
      ∀ q, st'.visited q = true ↔ q ∈ seen ++ (firstOf seen (stepsOut go D (front.map Prod.fst))).map Prod.fst := by
  induction front with
  | nil => intro st seen h _; exact ⟨st, rfl, by simp [stepsOut, firstOf], by simpa [stepsOut, firstOf] using h⟩
  | cons m l ih =>
    intro st seen h hf
    obtain ⟨st1, h1, h2, h3⟩ := visitPos_order go D m st seen h
    obtain ⟨st', h4, h5, h6⟩ := ih st1 (seen ++ (firstOf seen (stepsOut go D [m.1])).map Prod.fst) (fun q => by
      rw [h3 q, List.mem_cons]
      constructor
      · rintro (rfl | h)
        · exact List.mem_append_left _ (hf m (by simp))
        · exact h
      · exact .inr) (fun m' hm' => List.mem_append_left _ (hf m' (by simp [hm'])))
    have e : stepsOut go D ((m :: l).map Prod.fst) = stepsOut go D [m.1] ++ stepsOut go D (l.map Prod.fst) := by simp [stepsOut]
    rw [List.foldlM_cons, h1, Out.ok_bind, e, firstOf_append]
    refine ⟨st', h4, by rw [h5, h2, List.append_assoc], fun q => ?_⟩
    rw [h6 q, List.map_append, List.append_assoc]

/-- What is known of the state before a layer is returned. -/
structure OrderSt (seen : List P2) (st : BfIter SetImpl.ideal) : Prop where
  vis : ∀ q, st.visited q = true ↔ q ∈ seen
  front : ∀ m ∈ st.nextfront, m.1 ∈ seen

theorem BfIter.new_order (go : GoFn) (D : Bool) (orig : P2) :
    ∃ st, BfIter.new SetImpl.ideal D go orig = .ok st ∧ st.nextfront = firstOf [] (stepsOut go D [orig]) ∧
      OrderSt (orig :: st.nextfront.map Prod.fst) st := by
  obtain ⟨st, h1, h2, h3⟩ := visitPos_order go D (orig, Dir.N) { visited := fun _ => false, nextfront := [] } [] (by simp)
  refine ⟨st, ?_, by simpa using h2, ⟨fun q => ?_, fun m hm => by simpa using .inr ⟨m.2, hm⟩⟩⟩
  · unfold BfIter.new
    show (BfIter.next SetImpl.ideal D go { visited := fun _ => false, nextfront := [(orig, Dir.N)] } >>= _) = _
    unfold BfIter.next
    simp only [List.isEmpty_cons, List.foldlM_cons, List.foldlM_nil]
    rw [if_neg (by simp), h1]
    rfl
  · rw [h3 q, h2]
    simp

theorem BfIter.next_order (go : GoFn) (D : Bool) {seen : List P2} {st : BfIter SetImpl.ideal} (h : OrderSt seen st) (hne : st.nextfront ≠ []) :
    ∃ st', BfIter.next SetImpl.ideal D go st = .ok (some st.nextfront, st') ∧
      st'.nextfront = firstOf seen (stepsOut go D (st.nextfront.map Prod.fst)) ∧ OrderSt (seen ++ st'.nextfront.map Prod.fst) st' := by
  obtain ⟨st', h1, h2, h3⟩ := visitAll_order go D st.nextfront { st with nextfront := [] } seen h.vis h.front
  rw [List.nil_append] at h2
  refine ⟨st', ?_, h2, ⟨fun q => by rw [h3 q, h2], fun m hm => List.mem_append_right _ (List.mem_map_of_mem hm)⟩⟩
  unfold BfIter.next
  have : st.nextfront.isEmpty = false := by
    cases h : st.nextfront with
    | nil => exact absurd h hne
    | cons a l => rfl
  simp only [this]
  rw [if_neg (by simp), h1]
  rfl

theorem Bf.collect_order (go : GoFn) (D : Bool) (fuel : Nat) : ∀ {seen : List P2} {st : BfIter SetImpl.ideal} {ls : List (List (P2 × Dir))},
    OrderSt seen st → collectWith (BfIter.next SetImpl.ideal D go) fuel st = .ok ls →
    (ls[0]?).getD [] = st.nextfront ∧ ∀ (k : Nat) prev, ls[k]? = some prev →
      (ls[k + 1]?).getD [] = firstOf (seen ++ ((ls.take (k + 1)).tail.flatten.map Prod.fst)) (stepsOut go D (prev.map Prod.fst)) := by
  induction fuel with
  | zero => intro seen st ls _ h; cases h
  | succ n ih =>
    intro seen st ls hst h
    unfold collectWith at h
    by_cases he : st.nextfront = []
    · obtain ⟨st', h1⟩ := BfIter.next_nil (go := go) (D := D) he
      rw [h1, Out.ok_bind] at h
      injection h with h
      subst h
      exact ⟨by simp [he], fun k prev hk => by simp at hk⟩
    · obtain ⟨st', h1, h2, h3⟩ := BfIter.next_order go D hst he
      rw [h1, Out.ok_bind] at h
      simp only at h
      cases hc : collectWith (BfIter.next SetImpl.ideal D go) n st' with
      | ok rest =>
        rw [hc, Out.ok_bind] at h
        injection h with h
        subst h
        obtain ⟨i1, i2⟩ := ih h3 hc
        refine ⟨by simp, fun k prev hk => ?_⟩
        cases k with
        | zero =>
          simp only [List.getElem?_cons_zero] at hk
          injection hk with hk
          subst hk
          rw [List.getElem?_cons_succ, i1, h2]
          simp
        | succ k =>
          rw [List.getElem?_cons_succ] at hk ⊢
          rw [i2 k prev hk, List.append_assoc]
          congr 2
          cases rest with
          | nil => simp at hk
          | cons r rs =>
            simp only [List.getElem?_cons_zero, Option.getD_some] at i1
            simp [i1]
      | panic => rw [hc] at h; cases h
      | ub => rw [hc] at h; cases h
      | timeout => rw [hc] at h; cases h

/-! ### The first goal -/

theorem writeAll_append (l l' : List (P2 × Dir)) (f : P2 → Option Dir) : writeAll (l ++ l') f = writeAll l' (writeAll l f) := by
  simp [writeAll]

theorem writeAll_some {l : List (P2 × Dir)} {f : P2 → Option Dir} {q : P2} {d : Dir} (h : writeAll l f q = some d) : (q, d) ∈ l ∨ f q = some d := by
  induction l generalizing f with
  | nil => exact .inr h
  | cons m l ih =>
    rcases ih (f := upd f m.1 (some m.2)) h with h | h
    · exact .inl (by simp [h])
    · by_cases e : q = m.1
      · subst e
        rw [upd_same] at h
        injection h with h
        subst h
        exact .inl (by simp)
      · rw [upd_other _ _ e] at h
        exact .inr h

/-- The search over the traversal stops at the first goal of the traversal. -/
theorem Bf.searchLoop_flatten (go : GoFn) (D : Bool) (found : P2 → Bool) (fuel : Nat) : ∀ {st : BfIter SetImpl.ideal}
    {ls : List (List (P2 × Dir))} (f : P2 → Option Dir), collectWith (BfIter.next SetImpl.ideal D go) fuel st = .ok ls →
    ((∀ m ∈ ls.flatten, found m.1 = false) ∧
      Bf.searchLoop SetImpl.ideal (MapImpl.ideal none) D go found fuel st f = .ok (.error .destinationUnreachable)) ∨
    (∃ pre m post, ls.flatten = pre ++ m :: post ∧ found m.1 = true ∧ (∀ m ∈ pre, found m.1 = false) ∧
      Bf.searchLoop SetImpl.ideal (MapImpl.ideal none) D go found fuel st f = .ok (.ok (m.1, writeAll (pre ++ [m]) f))) := by
  induction fuel with
  | zero => intro st ls f h; cases h
  | succ n ih =>
    intro st ls f h
    unfold collectWith at h
    unfold Bf.searchLoop
    cases hn : BfIter.next SetImpl.ideal D go st with
    | panic => rw [hn] at h; cases h
    | ub => rw [hn] at h; cases h
    | timeout => rw [hn] at h; cases h
    | ok r =>
      obtain ⟨v, st'⟩ := r
      rw [hn, Out.ok_bind] at h
      rw [Out.ok_bind]
      cases v with
      | none =>
        injection h with h
        subst h
        exact .inl ⟨by simp, rfl⟩
      | some layer =>
        simp only at h ⊢
        cases hc : collectWith (BfIter.next SetImpl.ideal D go) n st' with
        | panic => rw [hc] at h; cases h
        | ub => rw [hc] at h; cases h
        | timeout => rw [hc] at h; cases h
        | ok rest =>
          rw [hc, Out.ok_bind] at h
          injection h with h
          subst h
          rw [List.flatten_cons]
          rcases Bf.scanLayer_spec found layer f with ⟨a1, a2⟩ | ⟨pre, m, post, a1, a2, a3, a4⟩
          · rw [a2, Out.ok_bind]
            rcases ih (writeAll layer f) hc with ⟨b1, b2⟩ | ⟨pre, m, post, b1, b2, b3, b4⟩
            · refine .inl ⟨fun m hm => ?_, b2⟩
              rcases List.mem_append.1 hm with hm | hm
              · exact a1 m hm
              · exact b1 m hm
            · refine .inr ⟨layer ++ pre, m, post, by rw [b1, List.append_assoc], b2, fun m hm => ?_, ?_⟩
              · rcases List.mem_append.1 hm with hm | hm
                · exact a1 m hm
                · exact b3 m hm
              · simp only
                rw [b4, List.append_assoc, writeAll_append layer]
          · rw [a4, Out.ok_bind]
            exact .inr ⟨pre, m, post ++ rest.flatten, by rw [a1, List.append_assoc, List.cons_append], a2, a3, rfl⟩

end Sqrid
