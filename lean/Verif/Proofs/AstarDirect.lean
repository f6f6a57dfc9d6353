import Verif.Props.OpenGrid
/-! With diagonals, A* follows the direct line if nothing is in its way. -/

namespace Sqrid

open Spec

/-- The direct way to `dest`: every step goes towards it in both coordinates. -/
inductive Spec.Direct (dest : Int × Int) : Int × Int → List Dir → Prop
  | here : Direct dest dest []
  | step {p d ds} : unit d = (Int.sign (dest.1 - p.1), Int.sign (dest.2 - p.2)) → Direct dest (neighbour p d) ds → Direct dest p (d :: ds)

theorem toward_lt {p dest : P2} {d : Dir} (h : unit d = (Int.sign (dest.1 - p.1), Int.sign (dest.2 - p.2))) :
    l1 (neighbour p d) dest < l1 p dest ∧ ∀ d', d' ≠ d → l1 (neighbour p d) dest < l1 (neighbour p d') dest := by
  have h1 : (unit d).1 = Int.sign (dest.1 - p.1) := by rw [h]
  have h2 : (unit d).2 = Int.sign (dest.2 - p.2) := by rw [h]
  have hx : (dest.1 - p.1 < 0 ∧ (unit d).1 = -1) ∨ (dest.1 - p.1 = 0 ∧ (unit d).1 = 0) ∨ (0 < dest.1 - p.1 ∧ (unit d).1 = 1) := by
    rcases Int.lt_trichotomy (dest.1 - p.1) 0 with h | h | h
    · exact .inl ⟨h, by rw [h1, Int.sign_eq_neg_one_of_neg h]⟩
    · exact .inr (.inl ⟨h, by rw [h1, h]; rfl⟩)
    · exact .inr (.inr ⟨h, by rw [h1, Int.sign_eq_one_of_pos h]⟩)
  have hy : (dest.2 - p.2 < 0 ∧ (unit d).2 = -1) ∨ (dest.2 - p.2 = 0 ∧ (unit d).2 = 0) ∨ (0 < dest.2 - p.2 ∧ (unit d).2 = 1) := by
    rcases Int.lt_trichotomy (dest.2 - p.2) 0 with h | h | h
    · exact .inl ⟨h, by rw [h2, Int.sign_eq_neg_one_of_neg h]⟩
    · exact .inr (.inl ⟨h, by rw [h2, h]; rfl⟩)
    · exact .inr (.inr ⟨h, by rw [h2, Int.sign_eq_one_of_pos h]⟩)
  clear h h1 h2
  constructor
  · simp only [l1, neighbour]
    cases d <;> simp only [unit] at hx hy ⊢ <;> omega
  · intro d' hne
    simp only [l1, neighbour]
    cases d <;> simp only [unit] at hx hy ⊢ <;> cases d' <;> first | exact absurd rfl hne | (simp only; omega)

theorem expand_list {go : WGo} (h : P2 → Int) (p : P2) (s : BSt) (hw : NonNeg go) (ds : List Dir) :
    ExpandedBy go h p ds s (ds.foldl (BSt.relax go h p) s) := by
  induction ds using List.reverseRecOn with
  | nil => exact .nil go h p s
  | append_singleton ds d ih => rw [List.foldl_append]; exact ih.step hw d

theorem clockwise_split (d : Dir) : ∃ as bs, clockwise true = as ++ d :: bs ∧ d ∉ as ∧ d ∉ bs := by
  cases d
  · exact ⟨[], [.NE, .E, .SE, .S, .SW, .W, .NW], by decide⟩
  · exact ⟨[.N], [.E, .SE, .S, .SW, .W, .NW], by decide⟩
  · exact ⟨[.N, .NE], [.SE, .S, .SW, .W, .NW], by decide⟩
  · exact ⟨[.N, .NE, .E], [.S, .SW, .W, .NW], by decide⟩
  · exact ⟨[.N, .NE, .E, .SE], [.SW, .W, .NW], by decide⟩
  · exact ⟨[.N, .NE, .E, .SE, .S], [.W, .NW], by decide⟩
  · exact ⟨[.N, .NE, .E, .SE, .S, .SW], [.NW], by decide⟩
  · exact ⟨[.N, .NE, .E, .SE, .S, .SW, .W], [], by decide⟩

/-- Expanding a position of the direct line: the next one gets the least priority, alone. -/
theorem direct_expand {T : PosTy} {go : GoFn} (hgo : Adjacent T go) {dest p : P2} (hp : InGrid T p) {d : Dir}
    (hd : unit d = (Int.sign (dest.1 - p.1), Int.sign (dest.2 - p.2))) (hg : go p d = some (neighbour p d)) {INF : Int} {c : P2 → Int} {rest : List Entry}
    (hrest : ∀ x ∈ rest, c p + l1 p dest < x.1) (hc : ∀ q, c q ≤ INF ∧ (c q < INF → l1 p dest ≤ l1 q dest)) (hroom : c p + l1 p dest < INF) :
    ∃ rest', (Heap.pop (BSt.expand (unitCost go) (fun q => l1 q dest) true p { c, heap := rest }).heap =
        some ((c p + 1 + l1 (neighbour p d) dest, neighbour p d, opposite d), rest')) ∧
      (∀ x ∈ rest', c p + 1 + l1 (neighbour p d) dest < x.1) ∧
      (BSt.expand (unitCost go) (fun q => l1 q dest) true p { c, heap := rest }).c (neighbour p d) = c p + 1 ∧
      ∀ q, (BSt.expand (unitCost go) (fun q => l1 q dest) true p { c, heap := rest }).c q ≤ INF ∧
        ((BSt.expand (unitCost go) (fun q => l1 q dest) true p { c, heap := rest }).c q < INF → l1 (neighbour p d) dest ≤ l1 q dest) := by
  obtain ⟨hlt, hother⟩ := toward_lt hd
  have hw := unitCost_nonneg go
  obtain ⟨as, bs, hsplit, has, hbs⟩ := clockwise_split d
  have hfold : BSt.expand (unitCost go) (fun q => l1 q dest) true p { c, heap := rest } =
      bs.foldl (BSt.relax (unitCost go) (fun q => l1 q dest) p) (BSt.relax (unitCost go) (fun q => l1 q dest) p
        (as.foldl (BSt.relax (unitCost go) (fun q => l1 q dest) p) { c, heap := rest }) d) := by
    unfold BSt.expand
    rw [hsplit, List.foldl_append, List.foldl_cons]
  have hall := expand_spec (fun q => l1 q dest) true p { c, heap := rest } hw
  have A := expand_list (fun q => l1 q dest) p { c, heap := rest } hw as
  rw [hfold] at hall ⊢
  generalize as.foldl (BSt.relax (unitCost go) (fun q => l1 q dest) p) { c, heap := rest } = s1 at A hall ⊢
  have hq1 : ∀ e : Entry, ∀ l : List Dir, d ∉ l → ∀ w, opposite e.2.2 ∈ l → unitCost go p (opposite e.2.2) = some (e.2.1, w) →
      w = 1 ∧ l1 (neighbour p d) dest < l1 e.2.1 dest := by
    intro e l hl w he hge
    obtain ⟨h1, h2⟩ := unitCost_some.1 hge
    refine ⟨h2, ?_⟩
    rw [(hgo _ _ _ hp h1).2]
    exact hother _ fun heq => hl (heq ▸ he)
  have hcp : s1.c p = c p := A.self
  have hinf : s1.c (neighbour p d) = INF := by
    have h1 : c (neighbour p d) = INF := by
      have h2 := hc (neighbour p d)
      by_contra hne
      have := h2.2 (by omega)
      omega
    by_contra hne
    have h2 := A.le (neighbour p d)
    simp only at h2
    obtain ⟨e, -, h3, -, w, h4, h5, -⟩ := A.dec (neighbour p d) (by simp only; omega)
    have := (hq1 e as has w h4 (by rw [h3]; exact h5)).2
    rw [h3] at this
    omega
  have hs2 : BSt.relax (unitCost go) (fun q => l1 q dest) p s1 d =
      { c := upd s1.c (neighbour p d) (c p + 1), heap := (c p + 1 + l1 (neighbour p d) dest, neighbour p d, opposite d) :: s1.heap } := by
    have : 0 ≤ l1 (neighbour p d) dest := by simp only [l1]; omega
    unfold BSt.relax
    rw [show unitCost go p d = some (neighbour p d, 1) from unitCost_some.2 ⟨hg, rfl⟩]
    simp only
    rw [if_pos (by rw [hcp, hinf]; omega), hcp]
  rw [hs2] at hall ⊢
  have B := expand_list (fun q => l1 q dest) p
    { c := upd s1.c (neighbour p d) (c p + 1), heap := (c p + 1 + l1 (neighbour p d) dest, neighbour p d, opposite d) :: s1.heap } hw bs
  generalize bs.foldl (BSt.relax (unitCost go) (fun q => l1 q dest) p)
    { c := upd s1.c (neighbour p d) (c p + 1), heap := (c p + 1 + l1 (neighbour p d) dest, neighbour p d, opposite d) :: s1.heap } = s3 at B hall ⊢
  have hnp : p ≠ neighbour p d := fun h => neighbour_ne p d h.symm
  obtain ⟨la, a1, -, a2⟩ := A.new
  obtain ⟨lb, b1, -, b2⟩ := B.new
  simp only at a1 a2 b1 b2
  have hothers : ∀ x ∈ lb ++ s1.heap, c p + 1 + l1 (neighbour p d) dest < x.1 := by
    intro x hx
    rcases List.mem_append.1 hx with hx | hx
    · obtain ⟨w, h1, h2, h3, -⟩ := b2 x hx
      obtain ⟨rfl, h4⟩ := hq1 x bs hbs w h1 h2
      rw [upd_other _ _ hnp, hcp] at h3
      omega
    · rw [a1] at hx
      rcases List.mem_append.1 hx with hx | hx
      · obtain ⟨w, h1, h2, h3, -⟩ := a2 x hx
        obtain ⟨rfl, h4⟩ := hq1 x as has w h1 h2
        omega
      · have := hrest x hx
        omega
  have hperm : s3.heap.Perm ((c p + 1 + l1 (neighbour p d) dest, neighbour p d, opposite d) :: (lb ++ s1.heap)) := by
    rw [b1]
    exact List.perm_middle
  cases hpop : Heap.pop s3.heap with
  | none =>
    rw [Heap.pop_none hpop] at hperm
    exact absurd hperm.length_eq (by simp)
  | some er =>
    obtain ⟨e, rest'⟩ := er
    obtain ⟨p1, p2, p3⟩ := Heap.pop_some hpop
    have he : e = (c p + 1 + l1 (neighbour p d) dest, neighbour p d, opposite d) := by
      rcases List.mem_cons.1 (hperm.mem_iff.1 p1) with h | h
      · exact h
      · have h1 := hothers e h
        have h2 := p2 _ (hperm.mem_iff.2 (List.mem_cons_self ..))
        simp only at h2
        omega
    subst he
    have hperm' : rest'.Perm (lb ++ s1.heap) := (p3.symm.trans hperm).cons_inv
    refine ⟨rest', rfl, fun x hx => hothers x (hperm'.mem_iff.1 hx), ?_, fun q => ?_⟩
    · have h1 := B.le (neighbour p d)
      simp only [upd_same] at h1
      by_contra hne
      obtain ⟨e, -, h3, -, w, h4, h5, -⟩ := B.dec (neighbour p d) (by simp only [upd_same]; omega)
      have := (hq1 e bs hbs w h4 (by rw [h3]; exact h5)).2
      rw [h3] at this
      omega
    · have h1 := hall.le q
      have h2 := hc q
      simp only at h1
      refine ⟨by omega, fun hlt' => ?_⟩
      by_cases hold : c q < INF
      · have := h2.2 hold
        omega
      · obtain ⟨e, -, h3, -, w, h4, h5, -⟩ := hall.dec q (by simp only; omega)
        obtain ⟨h6, -⟩ := unitCost_some.1 h5
        rw [(hgo _ _ _ hp h6).2]
        by_cases hdd : opposite e.2.2 = d
        · rw [hdd]
        · exact Int.le_of_lt (hother _ hdd)

/-- The search follows the direct line. -/
theorem direct_search {T : PosTy} {go : GoFn} (hgo : Adjacent T go) {orig dest : P2} {INF : Int} : ∀ (ds : List Dir) (p : P2) (fuel : Nat) (s : BSt)
    (f : P2 → Option Dir) (e : Entry) (rest : List Entry), Direct dest p ds → follow go p ds = some dest → InGrid T p → l1 p dest ≤ l1 orig dest →
    Heap.pop s.heap = some (e, rest) → e.2.1 = p → (∀ x ∈ rest, s.c p + l1 p dest < x.1) →
    (∀ q, s.c q ≤ INF ∧ (s.c q < INF → l1 p dest ≤ l1 q dest)) → s.c p + l1 p dest < INF → ds.length < fuel →
    ∃ g, BSt.search (unitCost go) (fun q => l1 q dest) true dest fuel s f = .ok (.ok g) ∧ g p = some e.2.2 ∧
      (∀ q, l1 p dest < l1 q dest → g q = f q) ∧ ∀ path, Arrives T g orig p path → Arrives T g orig dest (path ++ ds) := by
  intro ds
  induction ds with
  | nil =>
    intro p fuel s f e rest hdir _ _ _ hpop he _ _ _ hfuel
    obtain ⟨fuel, rfl⟩ : ∃ k, fuel = k + 1 := ⟨fuel - 1, by omega⟩
    cases hdir with
    | here =>
      rw [BSt.search_some hpop, if_pos he, he]
      refine ⟨_, rfl, upd_same .., fun q hq => upd_other _ _ (by rintro rfl; omega), fun path h => by rw [List.append_nil]; exact h⟩
  | cons d ds ih =>
    intro p fuel s f e rest hdir hfol hp hlo hpop he hrest hc hroom hfuel
    obtain ⟨fuel, rfl⟩ : ∃ k, fuel = k + 1 := ⟨fuel - 1, by omega⟩
    cases hdir with
    | step hd hdir =>
      have hlt := (toward_lt hd).1
      have hg : go p d = some (neighbour p d) := by
        simp only [follow] at hfol
        cases hg : go p d with
        | none => rw [hg] at hfol; cases hfol
        | some q => rw [(hgo p d q hp hg).2]
      have hne : e.2.1 ≠ dest := by
        rw [he]
        rintro rfl
        have h1 : l1 p p = 0 := by simp [l1]
        have h2 : 0 ≤ l1 (neighbour p d) p := by simp only [l1]; omega
        omega
      simp only [follow, hg] at hfol
      rw [BSt.search_some hpop, if_neg hne]
      obtain ⟨rest', r1, r2, r3, r4⟩ := direct_expand hgo hp hd hg hrest hc hroom
      obtain ⟨g, g1, g2, g3, g4⟩ := ih (neighbour p d) fuel (BSt.after (unitCost go) (fun q => l1 q dest) true s.c e rest) (upd f e.2.1 (some e.2.2))
        (s.c p + 1 + l1 (neighbour p d) dest, neighbour p d, opposite d) rest' hdir hfol (hgo p d _ hp hg).1 (by omega) (by unfold BSt.after; rw [he]; exact r1) rfl
        (by unfold BSt.after; rw [he, r3]; exact r2) (by unfold BSt.after; rw [he]; exact r4) (by unfold BSt.after; rw [he, r3]; omega)
        (by simp only [List.length_cons] at hfuel; omega)
      refine ⟨g, g1, by rw [g3 p hlt, he, upd_same], fun q hq => ?_, fun path hpath => ?_⟩
      · rw [g3 q (by omega), upd_other _ _ (by rw [he]; rintro rfl; omega)]
      · have e1 : neighbour (neighbour p d) (opposite d) = p := by
          have := neighbour_opposite' p (opposite d)
          rw [opposite_opposite] at this
          exact this
        have := g4 (path ++ [opposite (opposite d)]) (.step (by rintro heq; rw [heq] at hlt; omega) g2 (by rw [e1]; exact hp) (by rw [e1]; exact hpath))
        rw [opposite_opposite, List.append_assoc] at this
        exact this

end Sqrid
