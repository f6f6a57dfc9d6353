import Verif.Proofs.AstarDirect
/-!
# A* with diagonals goes straight: C88
-/

namespace Sqrid

-- Statements that do not mention a target are about a debug build for a 64-bit machine.
attribute [local instance] debug64

open Spec

theorem sign_cases (a : Int) : (a < 0 ∧ a.sign = -1) ∨ (a = 0 ∧ a.sign = 0) ∨ (0 < a ∧ a.sign = 1) := by
  rcases Int.lt_trichotomy a 0 with h | h | h
  · exact .inl ⟨h, Int.sign_eq_neg_one_of_neg h⟩
  · exact .inr (.inl ⟨h, by rw [h]; rfl⟩)
  · exact .inr (.inr ⟨h, Int.sign_eq_one_of_pos h⟩)

theorem direct_step {p dest : P2} (h : p ≠ dest) : ∃ d, unit d = (Int.sign (dest.1 - p.1), Int.sign (dest.2 - p.2)) ∧
    linf (neighbour p d) dest = linf p dest - 1 ∧ ∀ T, InGrid T p → InGrid T dest → InGrid T (neighbour p d) := by
  obtain ⟨px, py⟩ := p
  obtain ⟨qx, qy⟩ := dest
  have h' : ¬ (px = qx ∧ py = qy) := fun ⟨h1, h2⟩ => h (by rw [h1, h2])
  simp only
  rcases sign_cases (qx - px) with ⟨h1, e1⟩ | ⟨h1, e1⟩ | ⟨h1, e1⟩ <;> rcases sign_cases (qy - py) with ⟨h2, e2⟩ | ⟨h2, e2⟩ | ⟨h2, e2⟩ <;> rw [e1, e2]
  · exact ⟨.NW, rfl, by simp only [linf, neighbour, unit]; omega, fun T a b => by simp only [InGrid, neighbour, unit] at a b ⊢; omega⟩
  · exact ⟨.W, rfl, by simp only [linf, neighbour, unit]; omega, fun T a b => by simp only [InGrid, neighbour, unit] at a b ⊢; omega⟩
  · exact ⟨.SW, rfl, by simp only [linf, neighbour, unit]; omega, fun T a b => by simp only [InGrid, neighbour, unit] at a b ⊢; omega⟩
  · exact ⟨.N, rfl, by simp only [linf, neighbour, unit]; omega, fun T a b => by simp only [InGrid, neighbour, unit] at a b ⊢; omega⟩
  · exact absurd ⟨by omega, by omega⟩ h'
  · exact ⟨.S, rfl, by simp only [linf, neighbour, unit]; omega, fun T a b => by simp only [InGrid, neighbour, unit] at a b ⊢; omega⟩
  · exact ⟨.NE, rfl, by simp only [linf, neighbour, unit]; omega, fun T a b => by simp only [InGrid, neighbour, unit] at a b ⊢; omega⟩
  · exact ⟨.E, rfl, by simp only [linf, neighbour, unit]; omega, fun T a b => by simp only [InGrid, neighbour, unit] at a b ⊢; omega⟩
  · exact ⟨.SE, rfl, by simp only [linf, neighbour, unit]; omega, fun T a b => by simp only [InGrid, neighbour, unit] at a b ⊢; omega⟩

theorem direct_exists [Target] (T : PosTy) (hT : T.IsGrid) {dest : P2} (hd : InGrid T dest) : ∀ (n : Nat) {p : P2}, InGrid T p → linf p dest = n →
    ∃ ds, Direct dest p ds ∧ (ds.length : Int) = n ∧ follow T.addDirOk p ds = some dest := by
  intro n
  induction n with
  | zero =>
    intro p hp h
    have : p = dest := by
      simp only [linf] at h
      exact Prod.ext (by omega) (by omega)
    subst this
    exact ⟨[], .here, rfl, rfl⟩
  | succ n ih =>
    intro p hp h
    have hne : p ≠ dest := by
      rintro rfl
      simp only [linf] at h
      omega
    obtain ⟨d, h1, h2, h3⟩ := direct_step hne
    obtain ⟨ds, h4, h5, h6⟩ := ih (h3 T hp hd) (by push_cast at h; omega)
    refine ⟨d :: ds, .step h1 h4, by simp only [List.length_cons]; push_cast; omega, ?_⟩
    simp only [follow]
    rw [PosTy.addDirOk_eq hT hp, if_pos (h3 T hp hd)]
    exact h6

theorem Spec.Direct.unique {dest p : P2} {as bs : List Dir} (h : Direct dest p as) (h' : Direct dest p bs) : as = bs := by
  induction h generalizing bs with
  | here =>
    cases h' with
    | here => rfl
    | @step _ d _ h _ =>
      simp only [Int.sub_self] at h
      exact absurd h (by cases d <;> decide)
  | @step p d ds h hdir ih =>
    cases h' with
    | here =>
      simp only [Int.sub_self] at h
      exact absurd h (by cases d <;> decide)
    | @step _ d' ds' g gdir =>
      have : d = d' := by
        have e : unit d = unit d' := by rw [h, g]
        revert e
        cases d <;> cases d' <;> decide
      subst this
      rw [ih gdir]

/-- C88. With diagonals, if the steps that go towards the destination in both coordinates are allowed all the way, A* returns exactly them; or `Loop` if they are
more than the square of the number of columns. -/
theorem C88_direct_exact [Target] (T : PosTy) (hT : T.Searchable) (astar) (hastar : Astar.IsSearch T astar)
    (go : Int × Int → Dir → Option (Int × Int)) (hgo : Adjacent T go) (orig dest : Int × Int) (ho : InGrid T orig) (hd : InGrid T dest) (fuel : Nat)
    (hfuel : Astar.steps T < (fuel : Int)) (ds : List Dir) (hdir : Direct dest orig ds) (hfree : follow go orig ds = some dest) :
    ((ds.length : Int) ≤ cols T * cols T → astar true go orig dest fuel = .ok (.ok ds)) ∧
    (cols T * cols T < (ds.length : Int) → astar true go orig dest fuel = .ok (.error .loop)) := by
  rw [hastar.eq hT hgo.staysIn ho hd, cols_sq hT.toIsGrid]
  have hcells := cells_lt hT
  have hl := l1_le hT.toIsGrid ho hd
  have hroom := hT.room
  have hx := hT.xmax0
  have hy := hT.ymax0
  have hsz : 0 ≤ (T.X.MAX + 1) * (T.Y.MAX + 1) := Int.mul_nonneg (by omega) (by omega)
  have hsz' : (T.X.MAX + 1) * (T.Y.MAX + 1) = T.X.MAX * T.Y.MAX + T.X.MAX + T.Y.MAX + 1 := by ring
  have hxy : 0 ≤ T.X.MAX * T.Y.MAX := Int.mul_nonneg (by omega) (by omega)
  have hc0 : (BSt.init usizeMax orig).c orig = 0 := by simp [BSt.init, upd_same]
  have hlen : ds.length < fuel := by
    have h1 : IsPath go true orig ds dest := ⟨fun d _ => .inl rfl, hfree⟩
    have h2 : (ds.length : Int) ≤ l1 orig dest := by
      clear h1 hfree hl hc0 ho
      induction hdir with
      | here => simp [l1]
      | @step p d ds h _ ih =>
        have := (toward_lt h).1
        simp only [List.length_cons]
        push_cast
        omega
    have h3 := (Astar.steps_nat hT.toIsGrid hfuel).2
    have h4 := hT.cells_eq
    have h5 : ((T.nx * T.ny : Nat) : Int) = (T.X.MAX + 1) * (T.Y.MAX + 1) := by push_cast; rw [hT.nx_eq, hT.ny_eq]
    omega
  obtain ⟨g, g1, g2, -, g4⟩ := direct_search (T := T) (orig := orig) (INF := usizeMax) hgo ds orig fuel (BSt.init usizeMax orig) (fun _ => none)
    (0, orig, Dir.N) [] hdir hfree ho (Int.le_refl _) (Heap.pop_single _) rfl (by intro x hx; cases hx) (by
      intro q
      simp only [BSt.init]
      by_cases hq : q = orig
      · subst hq; rw [upd_same]; exact ⟨Int.le_of_lt usizeMax_pos, fun _ => Int.le_refl _⟩
      · rw [upd_other _ _ hq]; exact ⟨Int.le_refl _, fun h => absurd h (by omega)⟩)
    (by rw [hc0, usizeMax_eq]; omega) hlen
  rw [← Astar.searchMapmov_eq hT hgo.staysIn ho hd true fuel] at g1
  rw [Astar.searchPath_of_mapmov g1]
  have ha := g4 [] .here
  rw [List.nil_append] at ha
  simp only
  rcases camefromIntoPath_spec hT (MapImpl.ideal none) g g ho hd (fun p hp => rfl) with
    ⟨a0, a⟩ | ⟨-, ⟨path', a1, a2, a⟩ | ⟨m, a1, -, a⟩ | ⟨a1, -, a⟩⟩
  · exfalso
    cases ha with
    | here => rw [g2] at a0; cases a0
    | step _ h _ _ => rw [h] at a0; cases a0
  · rw [a, Arrives.unique a1 ha]
    rw [Arrives.unique a1 ha] at a2
    exact ⟨fun _ => rfl, fun h => by omega⟩
  · exact absurd a1 (ha.not_stuck m)
  · have := a1 ds ha
    rw [a]
    exact ⟨fun h => by omega, fun _ => rfl⟩

/-- C88. There is exactly one such list of steps, with as many steps as the Chebyshev distance. -/
theorem C88_direct_unique (dest orig : Int × Int) :
    ∃ ds, Direct dest orig ds ∧ (ds.length : Int) = linf orig dest ∧ ∀ ds', Direct dest orig ds' → ds' = ds := by
  have key : ∀ (n : Nat) (p : P2), linf p dest = n → ∃ ds, Direct dest p ds ∧ (ds.length : Int) = n := by
    intro n
    induction n with
    | zero =>
      intro p h
      have : p = dest := by
        simp only [linf] at h
        exact Prod.ext (by omega) (by omega)
      subst this
      exact ⟨[], .here, rfl⟩
    | succ n ih =>
      intro p h
      have hne : p ≠ dest := by
        rintro rfl
        simp only [linf] at h
        omega
      obtain ⟨d, h1, h2, -⟩ := direct_step hne
      obtain ⟨ds, h4, h5⟩ := ih (neighbour p d) (by push_cast at h; omega)
      exact ⟨d :: ds, .step h1 h4, by simp only [List.length_cons]; push_cast; omega⟩
  obtain ⟨ds, h1, h2⟩ := key (linf orig dest).toNat orig (by simp only [linf]; omega)
  refine ⟨ds, h1, ?_, fun ds' h' => h'.unique h1⟩
  simp only [linf] at h2 ⊢
  omega

/-- C88. On an open grid, A* with diagonals returns the direct way, which is a shortest path; or `Loop` if that has more steps than the square of the number of
columns. -/
theorem C88_open_exact [Target] (T : PosTy) (hT : T.Searchable) (astar) (hastar : Astar.IsSearch T astar) (orig dest : Int × Int) (ho : InGrid T orig)
    (hd : InGrid T dest) (fuel : Nat) (hfuel : Astar.steps T < (fuel : Int)) :
    (linf orig dest ≤ cols T * cols T → ∃ ds, astar true T.addDirOk orig dest fuel = .ok (.ok ds) ∧ Direct dest orig ds ∧ (ds.length : Int) = linf orig dest) ∧
    (cols T * cols T < linf orig dest → astar true T.addDirOk orig dest fuel = .ok (.error .loop)) := by
  have h0 : 0 ≤ linf orig dest := by simp only [linf]; omega
  obtain ⟨ds, h1, h2, h3⟩ := direct_exists T hT.toIsGrid hd (linf orig dest).toNat ho (by omega)
  obtain ⟨h4, h5⟩ := C88_direct_exact T hT astar hastar T.addDirOk (addDirOk_adjacent hT.toIsGrid) orig dest ho hd fuel hfuel ds h1 h3
  exact ⟨fun h => ⟨ds, h4 (by omega), h1, by omega⟩, fun h => h5 (by omega)⟩

example : Direct (4, 1) (0, 0) [.SE, .E, .E, .E] := by
  refine .step (by decide) (.step (by decide) (.step (by decide) (.step (by decide) ?_)))
  exact .here
-- with walls beside the line
example : follow (aroundWalls (PosTy.pos 4 2) [(1, 0), (2, 0), (1, 2)]) (0, 0) [.SE, .E, .E, .E] = some (4, 1) := by decide
example : Astar.pathHash (PosTy.pos 4 2) true (aroundWalls (PosTy.pos 4 2) [(1, 0), (2, 0), (1, 2)]) (0, 0) (4, 1) 600 =
    .ok (.ok [.SE, .E, .E, .E]) := by decide +kernel

end Sqrid
