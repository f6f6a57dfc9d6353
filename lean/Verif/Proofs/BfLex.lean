import Verif.Proofs.BfOrder
import Verif.Spec.Dictionary
/-! The paths of the breadth-first search are the first ones in the order of a dictionary. -/

namespace Sqrid

open Spec

theorem follow_foldl {T : PosTy} {go : GoFn} (hgo : Adjacent T go) (ds : List Dir) : ∀ {p q : P2}, InGrid T p → follow go p ds = some q → q = ds.foldl neighbour p := by
  induction ds with
  | nil => intro p q _ h; simpa [follow] using h.symm
  | cons d ds ih =>
    intro p q hp h
    simp only [follow] at h
    cases h1 : go p d with
    | none => rw [h1] at h; cases h
    | some r =>
      rw [h1] at h
      obtain ⟨h2, rfl⟩ := hgo _ _ _ hp h1
      exact ih h2 h

/-- An entry of `firstOf`: neither its position nor those of the following entries occur before it. -/
theorem firstOf_split {l : List (P2 × Dir)} : ∀ {s : List P2} {pre post : List (P2 × Dir)} {m : P2 × Dir}, firstOf s l = pre ++ m :: post →
    ∃ a b, l = a ++ m :: b ∧ m.1 ∉ s ∧ m.1 ∉ a.map Prod.fst ∧ ∀ m' ∈ post, m'.1 ∉ a.map Prod.fst := by
  induction l with
  | nil => intro s pre post m h; simp [firstOf] at h
  | cons x l ih =>
    intro s pre post m h
    simp only [firstOf] at h
    have hnew : ∀ {s l m}, m ∈ firstOf s l → m.1 ∉ s := by
      intro s l
      induction l generalizing s with
      | nil => intro m hm; simp [firstOf] at hm
      | cons y l ih =>
        intro m hm
        simp only [firstOf] at hm
        split at hm
        · exact ih hm
        · rcases List.mem_cons.1 hm with rfl | hm
          · assumption
          · exact fun h' => ih hm (List.mem_cons_of_mem _ h')
    split at h
    · rename_i hx
      obtain ⟨a, b, h1, h2, h3, h4⟩ := ih h
      refine ⟨x :: a, b, by rw [h1]; rfl, h2, ?_, fun m' hm' => ?_⟩
      · rw [List.map_cons, List.mem_cons]
        rintro (h5 | h5)
        · exact h2 (h5 ▸ hx)
        · exact h3 h5
      · rw [List.map_cons, List.mem_cons]
        rintro (h5 | h5)
        · exact hnew (s := s) (l := l) (m := m') (by rw [h]; simp [hm']) (h5 ▸ hx)
        · exact h4 m' hm' h5
    · rename_i hx
      cases pre with
      | nil =>
        simp only [List.nil_append, List.cons.injEq] at h
        obtain ⟨rfl, h⟩ := h
        exact ⟨[], l, rfl, hx, by simp, by simp⟩
      | cons y pre =>
        simp only [List.cons_append, List.cons.injEq] at h
        obtain ⟨rfl, h⟩ := h
        obtain ⟨a, b, h1, h2, h3, h4⟩ := ih h
        refine ⟨x :: a, b, by rw [h1]; rfl, fun h5 => h2 (List.mem_cons_of_mem _ h5), ?_, fun m' hm' => ?_⟩
        · rw [List.map_cons, List.mem_cons]
          rintro (h5 | h5)
          · exact h2 (by rw [h5]; exact List.mem_cons_self)
          · exact h3 h5
        · rw [List.map_cons, List.mem_cons]
          rintro (h5 | h5)
          · exact hnew (s := x.1 :: s) (l := l) (m := m') (by rw [h]; simp [hm']) (by rw [h5]; exact List.mem_cons_self)
          · exact h4 m' hm' h5

theorem stepsFrom_split {go : GoFn} {p : P2} {m : P2 × Dir} {ds : List Dir} : ∀ {a b : List (P2 × Dir)}, stepsFrom go p ds = a ++ m :: b →
    ∃ ds1 x ds2, ds = ds1 ++ x :: ds2 ∧ go p x = some m.1 ∧ m.2 = opposite x ∧ a = stepsFrom go p ds1 := by
  induction ds with
  | nil => intro a b h; simp [stepsFrom] at h
  | cons d ds ih =>
    intro a b h
    cases h1 : go p d with
    | none =>
      have e : stepsFrom go p (d :: ds) = stepsFrom go p ds := by simp [stepsFrom, h1]
      rw [e] at h
      obtain ⟨ds1, x, ds2, a1, a2, a3, a4⟩ := ih h
      exact ⟨d :: ds1, x, ds2, by rw [a1]; rfl, a2, a3, by rw [a4]; simp [stepsFrom, h1]⟩
    | some q =>
      have e : stepsFrom go p (d :: ds) = (q, opposite d) :: stepsFrom go p ds := by simp [stepsFrom, h1]
      rw [e] at h
      cases a with
      | nil =>
        simp only [List.nil_append, List.cons.injEq] at h
        obtain ⟨rfl, -⟩ := h
        exact ⟨[], d, ds, rfl, h1, rfl, rfl⟩
      | cons y a =>
        simp only [List.cons_append, List.cons.injEq] at h
        obtain ⟨rfl, h⟩ := h
        obtain ⟨ds1, x, ds2, a1, a2, a3, a4⟩ := ih h
        exact ⟨d :: ds1, x, ds2, by rw [a1]; rfl, a2, a3, by rw [a4]; simp [stepsFrom, h1]⟩

theorem stepsOut_cons (go : GoFn) (D : Bool) (p : P2) (ps : List P2) : stepsOut go D (p :: ps) = stepsFrom go p (clockwise D) ++ stepsOut go D ps := rfl

/-- An entry of `stepsOut`: it comes from a position of the list, in a direction, and the entries before it come from earlier positions and directions. -/
theorem stepsOut_split {go : GoFn} {D : Bool} {m : P2 × Dir} {ps : List P2} : ∀ {a b : List (P2 × Dir)}, stepsOut go D ps = a ++ m :: b →
    ∃ ps1 u ps2 ds1 x ds2, ps = ps1 ++ u :: ps2 ∧ clockwise D = ds1 ++ x :: ds2 ∧ go u x = some m.1 ∧ m.2 = opposite x ∧
      a = stepsOut go D ps1 ++ stepsFrom go u ds1 := by
  induction ps with
  | nil => intro a b h; simp [stepsOut] at h
  | cons p ps ih =>
    intro a b h
    rw [stepsOut_cons] at h
    rcases List.append_eq_append_iff.1 h with ⟨c, h1, h2⟩ | ⟨c, h1, h2⟩
    · obtain ⟨ps1, u, ps2, ds1, x, ds2, a1, a2, a3, a4, a5⟩ := ih h2
      exact ⟨p :: ps1, u, ps2, ds1, x, ds2, by rw [a1]; rfl, a2, a3, a4, by rw [h1, a5, stepsOut_cons, List.append_assoc]⟩
    · cases c with
      | nil =>
        simp only [List.nil_append, List.append_nil] at h1 h2
        obtain ⟨ps1, u, ps2, ds1, x, ds2, a1, a2, a3, a4, a5⟩ := ih (a := []) (b := b) (by simpa using h2.symm)
        refine ⟨p :: ps1, u, ps2, ds1, x, ds2, by rw [a1]; rfl, a2, a3, a4, ?_⟩
        rw [stepsOut_cons, h1, List.append_assoc, ← a5, List.append_nil]
      | cons y c =>
        simp only [List.cons_append, List.cons.injEq] at h2
        obtain ⟨rfl, h2⟩ := h2
        obtain ⟨ds1, x, ds2, a1, a2, a3, a4⟩ := stepsFrom_split h1
        exact ⟨[], p, ps, ds1, x, ds2, rfl, a1, a2, a3, by rw [a4]; rfl⟩

theorem mem_stepsFrom {go : GoFn} {p q : P2} {ds : List Dir} {d : Dir} (hd : d ∈ ds) (h : go p d = some q) : q ∈ (stepsFrom go p ds).map Prod.fst := by
  refine List.mem_map.2 ⟨(q, opposite d), List.mem_filterMap.2 ⟨d, hd, by rw [h]; rfl⟩, rfl⟩

theorem mem_stepsOut {go : GoFn} {D : Bool} {p q : P2} {ps : List P2} {d : Dir} (hp : p ∈ ps) (hd : Allowed D d) (h : go p d = some q) :
    q ∈ (stepsOut go D ps).map Prod.fst := by
  obtain ⟨x, hx, e⟩ := List.mem_map.1 (mem_stepsFrom (mem_clockwise.2 hd) h)
  exact List.mem_map.2 ⟨x, List.mem_flatMap.2 ⟨p, hp, hx⟩, e⟩

theorem ComesBefore.append {as bs : List Dir} (h : ComesBefore as bs) (x y : List Dir) : ComesBefore (as ++ x) (bs ++ y) := by
  obtain ⟨pre, a, as', b, bs', rfl, rfl, h⟩ := h
  exact ⟨pre, a, as' ++ x, b, bs' ++ y, by simp, by simp, h⟩

theorem clockwise_idx {D : Bool} {ds1 ds2 : List Dir} {x y : Dir} (h : clockwise D = ds1 ++ x :: ds2) (hy : y ∈ ds2) :
    (clockwise true).idxOf x < (clockwise true).idxOf y := by
  have hs : (clockwise D).Pairwise fun a b => (clockwise true).idxOf a < (clockwise true).idxOf b := by cases D <;> decide
  rw [h, List.pairwise_append, List.pairwise_cons] at hs
  exact hs.2.1.1 y hy

/-- The steps of a path are recorded in the traversal. -/
def Recorded (ls : List (List (P2 × Dir))) (orig : P2) (w : List Dir) : Prop :=
  ∀ w' x bs, w = w' ++ x :: bs → ((w' ++ [x]).foldl neighbour orig, opposite x) ∈ ls.flatten

/-- The recorded path to a position comes first of the paths of the same length to it and the following positions. -/
def Lexed (go : GoFn) (D : Bool) (orig : P2) (ls : List (List (P2 × Dir))) (n : Nat) (ps : List P2) : Prop :=
  ∀ ps1 u ps2 w ds q, ps = ps1 ++ u :: ps2 → IsPath go D orig w u → Recorded ls orig w → w.length = n → IsPath go D orig ds q → ds.length = n → q ∈ u :: ps2 →
    w = ds ∨ ComesBefore w ds

theorem Lexed.step {T : PosTy} {go : GoFn} {D : Bool} {orig : P2} {ls : List (List (P2 × Dir))} {n : Nat} {ps : List P2} {layer : List (P2 × Dir)} {s : List P2}
    (hgo : Adjacent T go) (ho : InGrid T orig) (H : Lexed go D orig ls n ps) (hin : ∀ p ∈ ps, InGrid T p) (hlayer : layer = firstOf s (stepsOut go D ps))
    (hps : ∀ ds q d r, IsPath go D orig ds q → ds.length = n → Allowed D d → go q d = some r → r ∈ layer.map Prod.fst → q ∈ ps)
    (honce : ∀ q d d', (q, d) ∈ layer → (q, d') ∈ ls.flatten → d = d') : Lexed go D orig ls (n + 1) (layer.map Prod.fst) := by
  intro ps1 u ps2 w ds q hps12 hw hrec hwl hds hdl hq
  rcases List.eq_nil_or_concat w with rfl | ⟨w, x, rfl⟩
  · simp at hwl
  rcases List.eq_nil_or_concat ds with rfl | ⟨ds, y, rfl⟩
  · simp at hdl
  rw [List.concat_eq_append] at hw hwl hrec hds hdl ⊢
  rw [List.concat_eq_append]
  simp only [List.length_append, List.length_cons, List.length_nil, Nat.add_right_cancel_iff] at hwl hdl
  obtain ⟨u', hw1, hx, hxu⟩ := isPath_concat hw
  obtain ⟨q', hd1, hy, hyq⟩ := isPath_concat hds
  obtain ⟨l1, l2, e1, e2, e3⟩ := List.map_eq_append_iff.1 hps12
  obtain ⟨⟨u0, d⟩, l3, rfl, e4, e5⟩ := List.map_eq_cons_iff.1 e3
  simp only at e4
  subst e4
  have hu' := isPath_inGrid hgo.staysIn ho hw1
  have hq' := isPath_inGrid hgo.staysIn ho hd1
  have hd : d = opposite x := by
    refine honce u0 d (opposite x) (by rw [e1]; simp) ?_
    have := hrec w x [] rfl
    rwa [← follow_foldl hgo _ ho hw.2] at this
  have e1' := e1
  rw [hlayer] at e1
  obtain ⟨a, b, f1, f2, f3, f4⟩ := firstOf_split e1
  obtain ⟨ps3, v, ps4, ds1, z, ds2, g1, g2, g3, g4, g5⟩ := stepsOut_split f1
  simp only at g3 g4 f3 f2
  have hz : z = x := by
    rw [hd] at g4
    revert g4
    cases z <;> cases x <;> decide
  subst hz
  have hpsin : v ∈ ps := by rw [g1]; simp
  -- `v` and `u'` lead to the same position in the same direction
  have hqa : q ∉ a.map Prod.fst := by
    rcases List.mem_cons.1 hq with rfl | hq
    · exact f3
    · rw [← e5] at hq
      obtain ⟨m', hm', rfl⟩ := List.mem_map.1 hq
      exact f4 m' hm'
  have hq'ps : q' ∈ ps := hps ds q' y q hd1 hdl hy hyq (by
    rw [e1', List.map_append, List.map_cons, e5]
    exact List.mem_append_right _ hq)
  have huv : u' = v := by
    have h1 := (hgo _ _ _ hu' hxu).2
    have h2 := (hgo _ _ _ (hin v hpsin) g3).2
    simp only [neighbour, Prod.ext_iff] at h1 h2 ⊢
    omega
  subst huv
  have hq'2 : q' ∈ u' :: ps4 := by
    rw [g1] at hq'ps
    rcases List.mem_append.1 hq'ps with h | h
    · exact absurd (by rw [g5, List.map_append]; exact List.mem_append_left _ (mem_stepsOut h hy hyq)) hqa
    · exact h
  rcases H ps3 u' ps4 w ds q' g1 hw1 (fun w' x' bs e => hrec w' x' (bs ++ [z]) (by rw [e]; simp)) hwl hd1 hdl hq'2 with rfl | h
  · obtain rfl : u' = q' := (follow_foldl hgo _ ho hw1.2).trans (follow_foldl hgo _ ho hd1.2).symm
    have hyc := mem_clockwise.2 hy
    rw [g2] at hyc
    rcases List.mem_append.1 hyc with h | h
    · exact absurd (by rw [g5, List.map_append]; exact List.mem_append_right _ (mem_stepsFrom h hyq)) hqa
    · rcases List.mem_cons.1 h with rfl | h
      · exact .inl rfl
      · exact .inr ⟨w, z, [], y, [], rfl, rfl, clockwise_idx g2 h⟩
  · exact .inr (ComesBefore.append h _ _)

end Sqrid
