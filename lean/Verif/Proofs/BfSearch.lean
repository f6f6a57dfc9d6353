import Verif.Proofs.Bf
/-! Breadth-first search for a goal. -/

namespace Sqrid

open Spec

/-- Writing the directions of a list of movements. -/
def writeAll (l : List (P2 × Dir)) (f : P2 → Option Dir) : P2 → Option Dir := l.foldl (fun f m => upd f m.1 (some m.2)) f

theorem writeAll_other {l : List (P2 × Dir)} {f : P2 → Option Dir} {q : P2} (h : q ∉ l.map Prod.fst) : writeAll l f q = f q := by
  induction l generalizing f with
  | nil => rfl
  | cons m l ih =>
    simp only [List.map_cons, List.mem_cons, not_or] at h
    have := ih (f := upd f m.1 (some m.2)) h.2
    rw [upd_other _ _ h.1] at this
    exact this

theorem writeAll_mem {l : List (P2 × Dir)} (hl : (l.map Prod.fst).Nodup) {f : P2 → Option Dir} {q : P2} {d : Dir} (h : (q, d) ∈ l) :
    writeAll l f q = some d := by
  induction l generalizing f with
  | nil => cases h
  | cons m l ih =>
    rw [List.map_cons, List.nodup_cons] at hl
    rcases List.mem_cons.1 h with rfl | h
    · have := writeAll_other (f := upd f q (some d)) hl.1
      rw [upd_same] at this
      exact this
    · exact ih hl.2 h

/-- What scanning a layer does. -/
theorem Bf.scanLayer_spec (found : P2 → Bool) (l : List (P2 × Dir)) : ∀ f : P2 → Option Dir,
    ((∀ m ∈ l, found m.1 = false) ∧ Bf.scanLayer (MapImpl.ideal none) found l f = .ok (writeAll l f, none)) ∨
    (∃ pre m post, l = pre ++ m :: post ∧ found m.1 = true ∧ (∀ m ∈ pre, found m.1 = false) ∧
      Bf.scanLayer (MapImpl.ideal none) found l f = .ok (writeAll (pre ++ [m]) f, some m.1)) := by
  induction l with
  | nil => intro f; exact .inl ⟨by simp, rfl⟩
  | cons m l ih =>
    intro f
    obtain ⟨q, d⟩ := m
    have e : Bf.scanLayer (MapImpl.ideal none) found ((q, d) :: l) f =
      if found q then .ok (upd f q (some d), some q) else Bf.scanLayer (MapImpl.ideal none) found l (upd f q (some d)) := rfl
    rw [e]
    cases hf : found q with
    | true => exact .inr ⟨[], (q, d), l, rfl, hf, by simp, rfl⟩
    | false =>
      rw [if_neg (by simp)]
      rcases ih (upd f q (some d)) with ⟨h1, h2⟩ | ⟨pre, m, post, h1, h2, h3, h4⟩
      · refine .inl ⟨fun m hm => ?_, h2⟩
        rcases List.mem_cons.1 hm with rfl | hm
        · exact hf
        · exact h1 m hm
      · refine .inr ⟨(q, d) :: pre, m, post, by simp [h1], h2, fun m hm => ?_, h4⟩
        rcases List.mem_cons.1 hm with rfl | hm
        · exact hf
        · exact h3 m hm

/-- The recorded direction leads to a position one step closer. -/
def GoodStep (go : GoFn) (D : Bool) (orig : P2) (f : P2 → Option Dir) (n : Nat) (q : P2) : Prop :=
  ∃ d p, f q = some d ∧ Allowed D d ∧ IsDist go D orig p n ∧ go p (opposite d) = some q

/-- Following good steps. -/
theorem arrives_of_good {T : PosTy} {go : GoFn} {D : Bool} {orig : P2} (hgo : Adjacent T go) (ho : InGrid T orig) {f : P2 → Option Dir} {K : Nat}
    (hf : ∀ n q, n < K → IsDist go D orig q (n + 1) → GoodStep go D orig f n q) : ∀ n ≤ K, ∀ q, IsDist go D orig q n →
    ∃ path, Arrives T f orig q path ∧ IsPath go D orig path q ∧ path.length = n := by
  intro n
  induction n with
  | zero =>
    intro _ q hq
    rw [isDist_zero] at hq
    subst hq
    exact ⟨[], .here, isPath_nil, rfl⟩
  | succ n ih =>
    intro hn q hq
    obtain ⟨d, p, h1, h2, h3, h4⟩ := hf n q (by omega) hq
    have hp := isDist_inGrid hgo.staysIn ho h3
    obtain ⟨-, e⟩ := hgo p _ q hp h4
    have e' : neighbour q d = p := by rw [e, neighbour_opposite']
    obtain ⟨path, h5, h6, h7⟩ := ih (by omega) p h3
    refine ⟨path ++ [opposite d], .step ?_ h1 (e' ▸ hp) (e' ▸ h5), ?_, by simp [h7]⟩
    · rintro rfl
      have := isDist_unique hq (isDist_zero.2 rfl)
      omega
    · exact isPath_append h6 (isPath_single (allowed_opposite.2 h2) h4)

theorem edge_ne {T : PosTy} {go : GoFn} {D : Bool} {p q : P2} (hgo : Adjacent T go) (hp : InGrid T p) (h : Edge go D p q) : q ≠ p := by
  obtain ⟨d, -, hg⟩ := h
  rw [(hgo p d q hp hg).2]
  exact neighbour_ne p d

theorem inLayer_iff {T : PosTy} {go : GoFn} {D : Bool} {orig : P2} (hgo : Adjacent T go) (ho : InGrid T orig) {k : Nat} {q : P2} :
    InLayer go D orig k q ↔ IsDist go D orig q (k + 1) := by
  refine ⟨?_, .inl⟩
  rintro (h | ⟨-, -, h⟩)
  · exact h
  · exact absurd rfl (edge_ne hgo ho h)

/-- The answer of the search for the map: the first goal in breadth-first order, and directions that lead back. -/
def BfAnswer (go : GoFn) (D : Bool) (orig : P2) (found : P2 → Bool) (r : Res (P2 × (P2 → Option Dir))) : Prop :=
  match r with
  | .error e => e = .destinationUnreachable ∧ ∀ n q, IsDist go D orig q (n + 1) → found q = false
  | .ok (dest, f) => found dest = true ∧ ∃ n, IsDist go D orig dest (n + 1) ∧
      (∀ m q, m < n → IsDist go D orig q (m + 1) → found q = false ∧ GoodStep go D orig f m q) ∧ GoodStep go D orig f n dest

theorem Bf.searchLoop_spec {T : PosTy} {go : GoFn} {D : Bool} {orig : P2} {found : P2 → Bool} (hgo : Adjacent T go) (ho : InGrid T orig)
    {N : Nat} (hN : ∀ q n, IsDist go D orig q n → n < N)
    (n : Nat) : ∀ {k : Nat} {st : BfIter SetImpl.ideal} {f : P2 → Option Dir}, LayerSt go D orig k st → N ≤ k + n →
    (∀ m q, m < k → IsDist go D orig q (m + 1) → found q = false ∧ GoodStep go D orig f m q) → ∀ fuel, n < fuel →
    ∃ r, Bf.searchLoop SetImpl.ideal (MapImpl.ideal none) D go found fuel st f = .ok r ∧ BfAnswer go D orig found r := by
  have hempty : ∀ {k : Nat} {st : BfIter SetImpl.ideal} {f : P2 → Option Dir}, LayerSt go D orig k st → 
      (∀ m q, m < k → IsDist go D orig q (m + 1) → found q = false ∧ GoodStep go D orig f m q) → st.nextfront = [] → ∀ fuel, 0 < fuel →
      ∃ r, Bf.searchLoop SetImpl.ideal (MapImpl.ideal none) D go found fuel st f = .ok r ∧ BfAnswer go D orig found r := by
    intro k st f h hf he fuel hfuel
    obtain ⟨fuel, rfl⟩ : ∃ m, fuel = m + 1 := ⟨fuel - 1, by omega⟩
    obtain ⟨st', h1⟩ := BfIter.next_nil (go := go) (D := D) he
    refine ⟨.error .destinationUnreachable, ?_, rfl, fun m q hq => ?_⟩
    · unfold Bf.searchLoop
      rw [h1]
      rfl
    · rcases Nat.lt_or_ge m k with hm | hm
      · exact (hf m q hm hq).1
      · exfalso
        obtain ⟨i, rfl⟩ : ∃ i, m = k + i := ⟨m - k, by omega⟩
        clear hm
        induction i generalizing q with
        | zero =>
          obtain ⟨d, hd⟩ := (h.front q).2 (.inl hq)
          rw [he] at hd; cases hd
        | succ i ihi =>
          obtain ⟨r, hr, -⟩ := isDist_pred hq
          exact ihi r hr
  induction n with
  | zero =>
    intro k st f h hk hf fuel hfuel
    refine hempty h hf ?_ fuel hfuel
    by_contra hne
    have := h.nonempty_lt hN hne
    omega
  | succ n ih =>
    intro k st f h hk hf fuel hfuel
    by_cases he : st.nextfront = []
    · exact hempty h hf he fuel (by omega)
    · obtain ⟨fuel, rfl⟩ : ∃ m, fuel = m + 1 := ⟨fuel - 1, by omega⟩
      obtain ⟨st', h1, h2⟩ := BfIter.next_st h he
      have hmem : ∀ q, q ∈ st.nextfront.map Prod.fst → IsDist go D orig q (k + 1) := by
        intro q hq
        obtain ⟨⟨q', d⟩, hq', rfl⟩ := List.mem_map.1 hq
        exact (inLayer_iff hgo ho).1 ((h.front q').1 ⟨d, hq'⟩)
      have hgood : ∀ (l : List (P2 × Dir)), (∀ m ∈ l, m ∈ st.nextfront) → (l.map Prod.fst).Nodup →
          (∀ m ∈ l, GoodStep go D orig (writeAll l f) k m.1) ∧
          (∀ m q, m < k → IsDist go D orig q (m + 1) → found q = false ∧ GoodStep go D orig (writeAll l f) m q) := by
        intro l hl hnd
        refine ⟨fun m hm => ?_, fun m q hmk hq => ?_⟩
        · obtain ⟨ha, p, hp, hg⟩ := h.back m.1 m.2 (hl m hm)
          exact ⟨m.2, p, writeAll_mem hnd hm, ha, hp, hg⟩
        · obtain ⟨a1, d, p, a2, a3⟩ := hf m q hmk hq
          refine ⟨a1, d, p, ?_, a3⟩
          rw [writeAll_other, a2]
          intro hmem'
          obtain ⟨m', hm', rfl⟩ := List.mem_map.1 hmem'
          have := hmem m'.1 (List.mem_map.2 ⟨m', hl m' hm', rfl⟩)
          have := isDist_unique this hq
          omega
      have hloop : Bf.searchLoop SetImpl.ideal (MapImpl.ideal none) D go found (fuel + 1) st f =
          (Bf.scanLayer (MapImpl.ideal none) found st.nextfront f >>= fun x => match x.2 with
            | some pos => .ok (.ok (pos, x.1))
            | none => Bf.searchLoop SetImpl.ideal (MapImpl.ideal none) D go found fuel st' x.1) := by
        conv => lhs; unfold Bf.searchLoop
        rw [h1]
        rfl
      rw [hloop]
      rcases Bf.scanLayer_spec found st.nextfront f with ⟨a1, a2⟩ | ⟨pre, m, post, a1, a2, a3, a4⟩
      · rw [a2, Out.ok_bind]
        obtain ⟨g1, g2⟩ := hgood st.nextfront (fun _ h => h) h.nodup
        refine ih h2 (by omega) (fun m q hm hq => ?_) fuel (by omega)
        rcases Nat.lt_or_ge m k with hmk | hmk
        · exact g2 m q hmk hq
        · obtain rfl : m = k := by omega
          obtain ⟨d, hd⟩ := (h.front q).2 (.inl hq)
          exact ⟨a1 _ hd, g1 _ hd⟩
      · rw [a4, Out.ok_bind]
        have hnd : ((pre ++ [m]).map Prod.fst).Nodup := by
          have := h.nodup
          rw [a1, show pre ++ m :: post = (pre ++ [m]) ++ post by simp, List.map_append] at this
          exact (List.nodup_append.1 this).1
        obtain ⟨g1, g2⟩ := hgood (pre ++ [m]) (fun x hx => by rw [a1]; simp only [List.mem_append, List.mem_cons] at hx ⊢; tauto) hnd
        exact ⟨_, rfl, a2, k, hmem m.1 (by rw [a1]; simp), g2, g1 m (by simp)⟩

theorem Bf.searchPath_of_mapmov [Target] {T : PosTy} {go : GoFn} {D : Bool} {orig : P2} {found : P2 → Bool} {fuel : Nat} {r : Res (P2 × (P2 → Option Dir))}
    (hmm : Bf.searchMapmov SetImpl.ideal (MapImpl.ideal none) D go orig found fuel = .ok r) :
    Bf.searchPath T SetImpl.ideal (MapImpl.ideal none) D go orig found fuel = (match (generalizing := false) r with
      | .error e => .ok (.error e)
      | .ok (dest, mapmov) => (camefromIntoPath T (MapImpl.ideal none) mapmov orig dest >>= fun x => match x with
        | .error e => .ok (.error e)
        | .ok path => .ok (.ok (dest, path)))) := by
  unfold Bf.searchPath
  rw [hmm, Out.ok_bind]
  cases r <;> rfl

/-- The outcome of `search_path` in every position type, up to the arithmetic of the way back. -/
theorem Bf.searchPath_out [Target] {T : PosTy} (hT : T.WF) {go : GoFn} (D : Bool) {orig : P2} (found : P2 → Bool) (hgo : Adjacent T go)
    (ho : InGrid T orig) {N : Nat} (hN : ∀ q n, IsDist go D orig q n → n < N) (fuel : Nat) (hfuel : N < fuel) :
    ((∀ n q, IsDist go D orig q (n + 1) → found q = false) ∧
      Bf.searchPath T SetImpl.ideal (MapImpl.ideal none) D go orig found fuel = .ok (.error .destinationUnreachable)) ∨
    (∃ dest n path, found dest = true ∧ IsDist go D orig dest (n + 1) ∧ (∀ m q, m < n → IsDist go D orig q (m + 1) → found q = false) ∧
      IsPath go D orig path dest ∧ path.length = n + 1 ∧
      Bf.searchPath T SetImpl.ideal (MapImpl.ideal none) D go orig found fuel = (wayOut T orig dest (some path) >>= fun x => match x with
        | .error e => .ok (.error e)
        | .ok path => .ok (.ok (dest, path)))) := by
  obtain ⟨st, h1, h2⟩ := BfIter.new_st go D orig
  obtain ⟨r, h3, h4⟩ := Bf.searchLoop_spec (found := found) hgo ho hN N h2 (by omega) (f := fun _ => none)
    (fun m q hm => absurd hm (Nat.not_lt_zero _)) fuel hfuel
  have hmm : Bf.searchMapmov SetImpl.ideal (MapImpl.ideal none) D go orig found fuel = .ok r := by
    unfold Bf.searchMapmov
    rw [h1, Out.ok_bind]
    exact h3
  rw [Bf.searchPath_of_mapmov hmm]
  clear hmm h3
  cases r with
  | error e => obtain ⟨rfl, h5⟩ := h4; exact .inl ⟨h5, rfl⟩
  | ok r =>
    obtain ⟨dest, f⟩ := r
    obtain ⟨h5, n, h6, h7, h8⟩ := h4
    have hdest := isDist_inGrid hgo.staysIn ho h6
    obtain ⟨d, p, b1, b2, b3, b4⟩ := h8
    have hp := isDist_inGrid hgo.staysIn ho b3
    obtain ⟨-, e⟩ := hgo p _ dest hp b4
    have e' : neighbour dest d = p := by rw [e, neighbour_opposite']
    obtain ⟨path, c1, c2, c3⟩ := arrives_of_good hgo ho (K := n) (fun m q hm hq => (h7 m q hm hq).2) n (Nat.le_refl _) p b3
    have hA : Arrives T f orig dest (path ++ [opposite d]) := by
      refine .step ?_ b1 (e' ▸ hp) (e' ▸ c1)
      rintro rfl
      have := isDist_unique h6 (isDist_zero.2 rfl)
      omega
    refine .inr ⟨dest, n, path ++ [opposite d], h5, h6, fun m q hm hq => (h7 m q hm hq).1,
      isPath_append c2 (isPath_single (allowed_opposite.2 b2) b4), by simp [c3], ?_⟩
    simp only
    rw [camefrom_arrives_out hT hdest (by rw [b1]; simp) hA]

/-- The outcome of `search_path`, exactly. -/
theorem Bf.searchPath_spec [Target] {T : PosTy} (hT : T.Searchable) {go : GoFn} (D : Bool) {orig : P2} (found : P2 → Bool) (hgo : Adjacent T go)
    (ho : InGrid T orig) (fuel : Nat) (hfuel : T.nx * T.ny < fuel) :
    ((∀ n q, IsDist go D orig q (n + 1) → found q = false) ∧
      Bf.searchPath T SetImpl.ideal (MapImpl.ideal none) D go orig found fuel = .ok (.error .destinationUnreachable)) ∨
    (∃ dest n, found dest = true ∧ IsDist go D orig dest (n + 1) ∧ (∀ m q, m < n → IsDist go D orig q (m + 1) → found q = false) ∧
      ((n + 1 ≤ T.nx * T.nx ∧ ∃ path, IsPath go D orig path dest ∧ path.length = n + 1 ∧
          Bf.searchPath T SetImpl.ideal (MapImpl.ideal none) D go orig found fuel = .ok (.ok (dest, path))) ∨
       (T.nx * T.nx < n + 1 ∧ Bf.searchPath T SetImpl.ideal (MapImpl.ideal none) D go orig found fuel = .ok (.error .loop)))) := by
  rcases Bf.searchPath_out hT.wf D found hgo ho (fun _ _ h => isDist_lt hgo.staysIn ho h) fuel hfuel with
    h | ⟨dest, n, path, h1, h2, h3, h4, h5, h6⟩
  · exact .inl h
  · refine .inr ⟨dest, n, h1, h2, h3, ?_⟩
    rw [h6, wayOut_searchable hT ho (isDist_inGrid hgo.staysIn ho h2)]
    simp only
    rw [h5]
    by_cases hn : n + 1 ≤ T.nx * T.nx
    · exact .inl ⟨hn, path, h4, h5, by rw [if_pos hn]; rfl⟩
    · exact .inr ⟨by omega, by rw [if_neg hn]; rfl⟩

end Sqrid
