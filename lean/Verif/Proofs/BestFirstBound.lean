import Verif.Proofs.AstarSearch
/-!
# How far a best-first search looks, whatever the heuristic

`upd h orig 0` is the heuristic as the searches see it: the first entry of the heap has priority 0.
-/

namespace Sqrid

open Spec

/-- The priorities in the heap, compared with the recorded costs. -/
structure PInv (go : WGo) (h : P2 → Int) (D : Bool) (INF : Int) (orig : P2) (K : P2 → Prop) (s : BSt) : Prop where
  ge : ∀ e ∈ s.heap, s.c e.2.1 + upd h orig 0 e.2.1 ≤ e.1
  opn : ∀ q, s.c q < INF → (∃ e ∈ s.heap, e.2.1 = q ∧ e.1 ≤ s.c q + upd h orig 0 q) ∨
    (K q ∧ ∀ d r w, WEdge go D q d r w → s.c r ≤ s.c q + w)

theorem PInv.init (go : WGo) (h : P2 → Int) (D : Bool) (INF : Int) (orig : P2) : PInv go h D INF orig (fun _ => False) (BSt.init INF orig) := by
  refine ⟨fun e he => ?_, fun q hq => .inl ?_⟩
  · simp only [BSt.init, List.mem_singleton] at he
    subst he
    simp [BSt.init, upd_same]
  · by_cases h1 : q = orig
    · subst h1
      exact ⟨_, List.mem_singleton.2 rfl, rfl, by simp [BSt.init, upd_same]⟩
    · simp [BSt.init, upd_other _ _ h1] at hq

theorem PInv.step {go : WGo} {h : P2 → Int} {D : Bool} {INF : Int} {orig : P2} {K : P2 → Prop} {f : P2 → Option Dir} {s : BSt}
    (hw : NonNeg go) (H : GInv go D INF orig K f s) (A : PInv go h D INF orig K s) {e : Entry} {rest : List Entry}
    (hp : Heap.pop s.heap = some (e, rest)) :
    PInv go h D INF orig (fun q => K q ∨ q = e.2.1) (BSt.after go h D s.c e rest) := by
  obtain ⟨-, -, hperm⟩ := Heap.pop_some hp
  have hin : ∀ x, x ∈ s.heap ↔ x = e ∨ x ∈ rest := fun x => by rw [hperm.mem_iff, List.mem_cons]
  have X := expand_spec h D e.2.1 { c := s.c, heap := rest } hw
  change ExpandedBy go h e.2.1 (clockwise D) { c := s.c, heap := rest } (BSt.after go h D s.c e rest) at X
  generalize BSt.after go h D s.c e rest = s' at X ⊢
  obtain ⟨l, hl, -, hnew⟩ := X.new
  have hle := X.le
  have hself := X.self
  simp only at hl hle hself
  refine ⟨fun x hx => ?_, fun q hq => ?_⟩
  · rw [hl, List.mem_append] at hx
    rcases hx with hx | hx
    · obtain ⟨w, -, h2, h3, h4, h5⟩ := hnew x hx
      simp only at h3 h4 h5
      have hne : x.2.1 ≠ orig := by
        intro h6
        rw [h6, H.c_orig] at h5
        have := H.c_nonneg e.2.1
        have := hw _ _ _ _ h2
        omega
      rw [upd_other _ _ hne]
      omega
    · have := A.ge x ((hin x).2 (.inr hx))
      have := hle x.2.1
      omega
  · by_cases hlt : s'.c q < s.c q
    · obtain ⟨x, h1, h2, h3, w, -, h5, h6⟩ := X.dec q hlt
      simp only at h6
      have hne : q ≠ orig := by
        intro h7
        rw [h7, H.c_orig, ← h7] at hlt
        have := H.c_nonneg e.2.1
        have := hw _ _ _ _ h5
        omega
      exact .inl ⟨x, h1, h2, by rw [upd_other _ _ hne]; omega⟩
    · have heq : s'.c q = s.c q := by have := hle q; omega
      rw [heq] at hq ⊢
      have hpop : ∀ d r w, WEdge go D e.2.1 d r w → s'.c r ≤ s.c e.2.1 + w := fun d r w hd => X.edges d (mem_clockwise.2 hd.1) r w hd.2
      rcases A.opn q hq with ⟨x, h1, h2, h3⟩ | ⟨h1, h2⟩
      · rcases (hin x).1 h1 with rfl | h1
        · subst h2
          exact .inr ⟨.inr rfl, hpop⟩
        · exact .inl ⟨x, by rw [hl]; simp [h1], h2, h3⟩
      · exact .inr ⟨.inl h1, fun d r w hd => Int.le_trans (hle r) (h2 d r w hd)⟩

/-- As long as the destination has not been popped, some entry has a priority that is not above the bound. -/
theorem PInv.some_le {go : WGo} {h : P2 → Int} {D : Bool} {INF B : Int} {orig dest : P2} {K : P2 → Prop} {f : P2 → Option Dir} {s : BSt}
    (hw : NonNeg go) (H : GInv go D INF orig K f s) (A : PInv go h D INF orig K s) (hK : ¬ K dest) {path : List Dir} {n : Int}
    (hpath : IsCostPath go D orig path dest n) (hn : n < INF)
    (hB : ∀ as bs q m, path = as ++ bs → IsCostPath go D orig as q m → m + upd h orig 0 q ≤ B) : ∃ e ∈ s.heap, e.1 ≤ B := by
  by_contra hno
  have key : ∀ as bs q m, path = as ++ bs → IsCostPath go D orig as q m → m < INF → s.c q ≤ m := by
    intro as
    induction as using List.reverseRecOn with
    | nil =>
      intro bs q m _ h1 _
      have h2 := h1.1.2
      injection h2 with h2
      have h3 := h1.2
      injection h3 with h3
      rw [← h2, H.c_orig]
      omega
    | append_singleton as d ih =>
      intro bs q m he h1 hm
      obtain ⟨r, m', w, h2, h3, h4, h5⟩ := isCostPath_concat h1
      have := hw _ _ _ _ h4
      have h6 := ih ([d] ++ bs) r m' (by rw [he, List.append_assoc]) h2 (by omega)
      rcases A.opn r (by omega) with ⟨x, h7, h8, h9⟩ | ⟨-, h7⟩
      · refine absurd ⟨x, h7, ?_⟩ hno
        have := hB as ([d] ++ bs) r m' (by rw [he, List.append_assoc]) h2
        omega
      · have := h7 d q w ⟨h3, h4⟩
        omega
  have h1 := key path [] dest n (by simp) hpath hn
  rcases A.opn dest (by omega) with ⟨x, h7, h8, h9⟩ | ⟨h7, -⟩
  · refine hno ⟨x, h7, ?_⟩
    have := hB path [] dest n (by simp) hpath
    omega
  · exact hK h7

/-- A position that is popped not later than the destination. -/
theorem PInv.pop_le {go : WGo} {h : P2 → Int} {D : Bool} {INF B : Int} {orig dest : P2} {K : P2 → Prop} {f : P2 → Option Dir} {s : BSt}
    (hw : NonNeg go) (H : GInv go D INF orig K f s) (A : PInv go h D INF orig K s) (hK : ¬ K dest) {path : List Dir} {n : Int}
    (hpath : IsCostPath go D orig path dest n) (hn : n < INF)
    (hB : ∀ as bs q m, path = as ++ bs → IsCostPath go D orig as q m → m + upd h orig 0 q ≤ B) {e : Entry} {rest : List Entry}
    (hp : Heap.pop s.heap = some (e, rest)) : s.c e.2.1 + upd h orig 0 e.2.1 ≤ B := by
  obtain ⟨x, h1, h2⟩ := A.some_le hw H hK hpath hn hB
  obtain ⟨h3, h4, -⟩ := Heap.pop_some hp
  have := h4 x h1
  have := A.ge e h3
  omega

/-- The positions that the search pops. -/
theorem BSt.search_within {go : WGo} {h : P2 → Int} {D : Bool} {INF B : Int} (hw : NonNeg go) {orig dest : P2} {path : List Dir} {n : Int}
    (hpath : IsCostPath go D orig path dest n) (hn : n < INF)
    (hB : ∀ as bs q m, path = as ++ bs → IsCostPath go D orig as q m → m + upd h orig 0 q ≤ B) (fuel : Nat) :
    ∀ {K : P2 → Prop} {f : P2 → Option Dir} {s : BSt}, GInv go D INF orig K f s → PInv go h D INF orig K s → ¬ K dest →
      (∀ q, K q → s.c q + upd h orig 0 q ≤ B) → ∀ {f'}, BSt.search go h D dest fuel s f = .ok (.ok f') →
    ∃ K' s', GInv go D INF orig K' f' s' ∧ K' dest ∧ ∀ q, K' q → s'.c q + upd h orig 0 q ≤ B := by
  induction fuel with
  | zero => intro K f s _ _ _ _ f' h; cases h
  | succ fuel ih =>
    intro K f s H A hd hW f' hr
    cases hp : Heap.pop s.heap with
    | none => rw [BSt.search_none hp] at hr; cases hr
    | some er =>
      obtain ⟨e, rest⟩ := er
      have H' := H.step (h := h) hw hp
      have A' := A.step hw H hp
      have hle : ∀ q, (BSt.after go h D s.c e rest).c q ≤ s.c q := (expand_spec h D e.2.1 { c := s.c, heap := rest } hw).le
      have hW' : ∀ q, (K q ∨ q = e.2.1) → (BSt.after go h D s.c e rest).c q + upd h orig 0 q ≤ B := by
        rintro q (hq | rfl)
        · have := hW q hq
          have := hle q
          omega
        · have := A.pop_le hw H hd hpath hn hB hp
          have := hle e.2.1
          omega
      rw [BSt.search_some hp] at hr
      by_cases he : e.2.1 = dest
      · rw [if_pos he] at hr
        injection hr with hr
        injection hr with hr
        subst hr
        exact ⟨_, _, H', .inr he.symm, hW'⟩
      · rw [if_neg he] at hr
        refine ih H' A' ?_ hW' hr
        rintro (h1 | h1)
        · exact hd h1
        · exact he h1.symm

/-! ### The Manhattan distance with diagonals -/

section
variable {T : PosTy} {go : GoFn} {p q : P2}

theorem l1_step_diag (p dest : P2) (d : Dir) : l1 p dest ≤ 2 + l1 (neighbour p d) dest := by
  cases d <;> simp only [l1, neighbour, unit] <;> omega

theorem l1_le_path_diag (hgo : Adjacent T go) (hp : InGrid T p) {D : Bool} {ds : List Dir} (h : IsPath go D p ds q) : l1 p q ≤ 2 * ds.length := by
  induction ds generalizing p with
  | nil =>
    have := h.2
    injection this with this
    subst this
    simp [l1]
  | cons d ds ih =>
    obtain ⟨h1, h2⟩ := h
    simp only [follow] at h2
    cases hg : go p d with
    | none => rw [hg] at h2; cases h2
    | some r =>
      rw [hg] at h2
      obtain ⟨h3, h4⟩ := hgo p d r hp hg
      have := ih h3 ⟨fun x hx => h1 x (List.mem_cons_of_mem _ hx), h2⟩
      have h5 := l1_step_diag p q d
      rw [← h4] at h5
      simp only [List.length_cons]
      omega

end

end Sqrid
