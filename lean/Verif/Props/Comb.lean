import Verif.Props.Ties
/-!
# A family of grids on which A* takes many steps too many: C137

The way from the origin goes down a chain of `k` links. From `(i, 2 * i)`, where a link begins, there are two ways to `(i + 1, 2 * i + 1)`, from where a step to the
south leads to the next link: a step to the south and one to the east, or four steps: two to the east, one to the south and one to the west. The destination is south east
of all of them, so the first three of the four steps lead nearer to it. The fourth does not, but the third already ends at a position that is greater than those on the
short way. At the end the way goes around a corner, which the heuristic does not foresee.
-/

namespace Sqrid

-- Statements that do not mention a target are about a debug build for a 64-bit machine.
attribute [local instance] debug64

open Spec

/-- The steps of the family. -/
def CombStep (k : Int) (p : Int × Int) (d : Dir) : Prop :=
  (0 ≤ p.2 ∧ p.2 < 2 * k ∧ p.2 % 2 = 0 ∧ (p.1 = p.2 / 2 ∧ (d = .S ∨ d = .E) ∨ p.1 = p.2 / 2 + 1 ∧ d = .E ∨ p.1 = p.2 / 2 + 2 ∧ d = .S)) ∨
  (0 ≤ p.2 ∧ p.2 < 2 * k ∧ p.2 % 2 = 1 ∧ (p.1 = p.2 / 2 ∧ d = .E ∨ p.1 = p.2 / 2 + 1 ∧ d = .S ∨ p.1 = p.2 / 2 + 2 ∧ d = .W)) ∨
  (p.1 = k ∧ p.2 = 2 * k ∧ d = .W) ∨ (p.1 = k - 1 ∧ p.2 = 2 * k ∧ d = .S) ∨ (p.1 = k - 1 ∧ p.2 = 2 * k + 1 ∧ d = .S) ∨
  (p.1 = k - 1 ∧ p.2 = 2 * k + 2 ∧ d = .E) ∨ (p.1 = k ∧ p.2 = 2 * k + 2 ∧ d = .E) ∨ (p.1 = k + 1 ∧ p.2 = 2 * k + 2 ∧ d = .N)

instance (k : Int) (p : Int × Int) (d : Dir) : Decidable (CombStep k p d) := by unfold CombStep; infer_instance

/-- The movement function. -/
def combGo (k : Int) (p : Int × Int) (d : Dir) : Option (Int × Int) := if CombStep k p d then some (neighbour p d) else none

theorem combGo_some {k : Int} {p q : P2} {d : Dir} : combGo k p d = some q ↔ q = neighbour p d ∧ CombStep k p d := by
  unfold combGo
  split <;> simp_all [eq_comm]

/-- The destination. -/
def combDest (k : Int) : Int × Int := (k + 1, 2 * k + 1)

/-- The path that A* returns. -/
def combPath (k : Nat) : List Dir := (List.replicate k [Dir.E, .E, .S, .W, .S]).flatten ++ [.W, .S, .S, .E, .E, .N]

/-- A shortest path. -/
def combShort (k : Nat) : List Dir := (List.replicate k [Dir.S, .E, .S]).flatten ++ [.W, .S, .S, .E, .E, .N]

/-- The distance of a position from the origin. -/
def combDist (k : Int) (p : P2) : Int :=
  if p.2 < 2 * k then (if p.2 % 2 = 0 then 3 * (p.2 / 2) + (p.1 - p.2 / 2) else 3 * (p.2 / 2) + 1 + (p.1 - p.2 / 2))
  else if p.2 = 2 * k then 3 * k + (k - p.1) else if p.2 = 2 * k + 1 then (if p.1 = k - 1 then 3 * k + 2 else 3 * k + 6) else 3 * k + 3 + (p.1 - (k - 1))

/-- The positions that can be reached. -/
def CombOn (k : Int) (p : P2) : Prop :=
  (0 ≤ p.2 ∧ p.2 < 2 * k ∧ p.2 / 2 ≤ p.1 ∧ p.1 ≤ p.2 / 2 + 2) ∨ (p.2 = 2 * k ∧ k - 1 ≤ p.1 ∧ p.1 ≤ k) ∨ (p.2 = 2 * k + 1 ∧ (p.1 = k - 1 ∨ p.1 = k + 1)) ∨
    (p.2 = 2 * k + 2 ∧ k - 1 ≤ p.1 ∧ p.1 ≤ k + 1)

theorem comb_adjacent {k : Int} (hk : 1 ≤ k) : Adjacent (PosTy.pos (2 * k + 2) (2 * k + 2)) (combGo k) := by
  intro p d q hp hg
  obtain ⟨rfl, h⟩ := combGo_some.1 hg
  have hin : ∀ q : P2, InGrid (PosTy.pos (2 * k + 2) (2 * k + 2)) q ↔ 0 ≤ q.1 ∧ q.1 ≤ 2 * k + 2 ∧ 0 ≤ q.2 ∧ q.2 ≤ 2 * k + 2 := fun q => and_assoc
  refine ⟨(hin _).2 ?_, rfl⟩
  have := (hin _).1 hp
  obtain ⟨x, y⟩ := p
  unfold CombStep at h
  cases d <;> simp only [neighbour, unit, reduceCtorEq, and_false, or_false, false_or, or_true, true_or, and_true, false_and] at h this ⊢ <;> omega

theorem combDist_le {k : Int} (hk : 1 ≤ k) {ds : List Dir} {q : P2} (h : IsPath (combGo k) false (0, 0) ds q) : CombOn k q ∧ combDist k q ≤ ds.length := by
  induction ds using List.reverseRecOn generalizing q with
  | nil =>
    have h1 := h.2
    injection h1 with h1
    subst h1
    refine ⟨.inl (by simp only; omega), ?_⟩
    unfold combDist
    simp only [List.length_nil]
    split_ifs <;> omega
  | append_singleton ds d ih =>
    obtain ⟨r, h1, h2, h3⟩ := isPath_concat h
    obtain ⟨i1, i2⟩ := ih h1
    obtain ⟨rfl, e2⟩ := combGo_some.1 h3
    obtain ⟨x, y⟩ := r
    simp only [List.length_append, List.length_singleton]
    push_cast
    unfold CombStep at e2
    unfold CombOn combDist at *
    cases d <;> simp only [neighbour, unit, reduceCtorEq, and_false, or_false, false_or, or_true, true_or, and_true, false_and] at e2 i1 i2 ⊢ <;> constructor <;>
      first | omega | (split_ifs at * <;> omega)

theorem comb_link {k : Int} {i : Nat} (hi : (i : Int) ≤ k) : IsPath (combGo k) false (0, 0) (List.replicate i [Dir.S, .E, .S]).flatten (i, 2 * i) := by
  induction i with
  | zero => exact ⟨by simp, by simp [follow]⟩
  | succ i ih =>
    rw [List.replicate_succ', List.flatten_append]
    refine isPath_append (ih (by omega)) ⟨by simp [Allowed, unit], ?_⟩
    have h1 : combGo k ((i : Int), 2 * (i : Int)) .S = some ((i : Int), 2 * (i : Int) + 1) :=
      combGo_some.2 ⟨by simp [neighbour, unit], .inl ⟨by simp only; omega, by simp only; omega, by simp only; omega, .inl ⟨by simp only; omega, .inl rfl⟩⟩⟩
    have h2 : combGo k ((i : Int), 2 * (i : Int) + 1) .E = some ((i : Int) + 1, 2 * (i : Int) + 1) :=
      combGo_some.2 ⟨by simp [neighbour, unit], .inr (.inl ⟨by simp only; omega, by simp only; omega, by simp only; omega, .inl ⟨by simp only; omega, rfl⟩⟩)⟩
    have h3 : combGo k ((i : Int) + 1, 2 * (i : Int) + 1) .S = some ((i : Int) + 1, 2 * (i : Int) + 1 + 1) :=
      combGo_some.2 ⟨by simp [neighbour, unit], .inr (.inl ⟨by simp only; omega, by simp only; omega, by simp only; omega, .inr (.inl ⟨by simp only; omega, rfl⟩)⟩)⟩
    simp only [List.flatten_cons, List.flatten_nil, List.append_nil, follow, h1, h2, h3, Option.some.injEq, Prod.mk.injEq]
    omega

theorem comb_linkDist {k : Int} {i : Nat} (hk : 1 ≤ k) (hi : (i : Int) ≤ k) : IsDist (combGo k) false (0, 0) (i, 2 * i) (3 * i) := by
  refine ⟨⟨_, comb_link hi, by simp; omega⟩, fun ds hds => ?_⟩
  have := (combDist_le hk hds).2
  unfold combDist at this
  simp only at this
  split_ifs at this <;> omega

theorem comb_shortDist {k : Int} {i : Nat} (hk : 1 ≤ k) (hi : (i : Int) < k) : IsDist (combGo k) false (0, 0) (i, 2 * i + 1) (3 * i + 1) := by
  refine ⟨⟨_, isPath_append (comb_link (i := i) (by omega)) (isPath_single (d := .S) (by simp [Allowed, unit]) ?_), by simp; omega⟩, fun ds hds => ?_⟩
  · exact combGo_some.2 ⟨by simp [neighbour, unit], .inl ⟨by simp only; omega, by simp only; omega, by simp only; omega, .inl ⟨by simp only; omega, .inl rfl⟩⟩⟩
  · have := (combDist_le hk hds).2
    unfold combDist at this
    simp only at this
    split_ifs at this <;> omega

theorem comb_tail {k : Int} : IsPath (combGo k) false (k, 2 * k) [.W, .S, .S, .E, .E, .N] (combDest k) := by
  refine ⟨by simp [Allowed, unit], ?_⟩
  have h1 : combGo k (k, 2 * k) .W = some (k - 1, 2 * k) := combGo_some.2 ⟨by simp [neighbour, unit]; omega, by unfold CombStep; simp⟩
  have h2 : combGo k (k - 1, 2 * k) .S = some (k - 1, 2 * k + 1) := combGo_some.2 ⟨by simp [neighbour, unit], by unfold CombStep; simp⟩
  have h3 : combGo k (k - 1, 2 * k + 1) .S = some (k - 1, 2 * k + 2) := combGo_some.2 ⟨by simp [neighbour, unit]; omega, by unfold CombStep; simp⟩
  have h4 : combGo k (k - 1, 2 * k + 2) .E = some (k, 2 * k + 2) := combGo_some.2 ⟨by simp [neighbour, unit], by unfold CombStep; simp⟩
  have h5 : combGo k (k, 2 * k + 2) .E = some (k + 1, 2 * k + 2) := combGo_some.2 ⟨by simp [neighbour, unit], by unfold CombStep; simp⟩
  have h6 : combGo k (k + 1, 2 * k + 2) .N = some (k + 1, 2 * k + 1) := combGo_some.2 ⟨by simp [neighbour, unit]; omega, by unfold CombStep; simp⟩
  simp only [follow, h1, h2, h3, h4, h5, h6, combDest]

theorem comb_dist {k : Nat} (hk : 1 ≤ k) : IsPath (combGo k) false (0, 0) (combShort k) (combDest k) ∧ IsDist (combGo k) false (0, 0) (combDest k) (3 * k + 6) := by
  have h1 : IsPath (combGo k) false (0, 0) (combShort k) (combDest k) := isPath_append (comb_link (Int.le_refl _)) comb_tail
  refine ⟨h1, ⟨_, h1, by simp [combShort]; omega⟩, fun ds hds => ?_⟩
  have := (combDist_le (by omega) hds).2
  unfold combDist combDest at this
  simp only at this
  split_ifs at this <;> omega

/-- The next step of a way to the destination. -/
theorem comb_next {k : Int} {p : P2} {bs : List Dir} (h : follow (combGo k) p bs = some (combDest k)) (hp : p ≠ combDest k) :
    ∃ d bs', bs = d :: bs' ∧ CombStep k p d ∧ follow (combGo k) (neighbour p d) bs' = some (combDest k) := by
  cases bs with
  | nil =>
    simp only [follow, Option.some.injEq] at h
    exact absurd h hp
  | cons d bs =>
    simp only [follow] at h
    split at h
    · cases h
    · rename_i q hq
      obtain ⟨rfl, h2⟩ := combGo_some.1 hq
      exact ⟨d, bs, rfl, h2, h⟩

/-- The next step, if there is only one. -/
theorem comb_forced {k : Int} {p : P2} {bs : List Dir} (h : follow (combGo k) p bs = some (combDest k)) (hp : p ≠ combDest k) (d : Dir)
    (hd : ∀ d', CombStep k p d' → d' = d) (q : P2) (hq : q = neighbour p d) : ∃ bs', bs = d :: bs' ∧ follow (combGo k) q bs' = some (combDest k) := by
  obtain ⟨d', bs', h1, h2, h3⟩ := comb_next h hp
  have := hd d' h2
  subst this hq
  exact ⟨bs', h1, h3⟩

/-- The short way through a link has one way in. -/
theorem comb_into {k : Int} {i : Nat} {ds : List Dir} (h : IsPath (combGo k) false (0, 0) ds ((i : Int), 2 * (i : Int) + 1)) (hi : (i : Int) < k) :
    ∃ j, follow (combGo k) (0, 0) (ds.take j) = some ((i : Int), 2 * (i : Int)) := by
  rcases List.eq_nil_or_concat ds with rfl | ⟨as, d, rfl⟩
  · have h1 := h.2
    simp only [follow, Option.some.injEq, Prod.mk.injEq] at h1
    omega
  · rw [List.concat_eq_append] at h ⊢
    obtain ⟨⟨x, y⟩, h1, h2, h3⟩ := isPath_concat h
    obtain ⟨e1, e2⟩ := combGo_some.1 h3
    refine ⟨as.length, ?_⟩
    rw [List.take_left' rfl, h1.2]
    unfold CombStep at e2
    cases d <;> simp only [neighbour, unit, reduceCtorEq, and_false, or_false, false_or, or_true, true_or, and_true, false_and, Prod.mk.injEq, Option.some.injEq] at e1 e2 ⊢ <;>
      omega

/-- C137, C58. A* can return a path with any number of steps too many: on the chain of `k` links it returns a path of `5 * k + 6` steps, where the shortest one has
`3 * k + 6` steps. -/
theorem C137_astar_far [Target] (k : Nat) (hk : 1 ≤ k) (hT : (PosTy.pos (2 * k + 2) (2 * k + 2)).Searchable) (astar)
    (hastar : Astar.IsSearch (PosTy.pos (2 * k + 2) (2 * k + 2)) astar) (fuel : Nat) (hfuel : Astar.steps (PosTy.pos (2 * k + 2) (2 * k + 2)) < (fuel : Int)) :
    Adjacent (PosTy.pos (2 * k + 2) (2 * k + 2)) (combGo k) ∧ astar false (combGo k) (0, 0) (combDest k) fuel = .ok (.ok (combPath k)) ∧
    (combPath k).length = 5 * k + 6 ∧ IsDist (combGo k) false (0, 0) (combDest k) (3 * k + 6) := by
  have hk' : (1 : Int) ≤ k := by omega
  have hgo := comb_adjacent hk'
  obtain ⟨hshort, hdist⟩ := comb_dist hk
  refine ⟨hgo, ?_, by simp [combPath]; omega, hdist⟩
  generalize hTT : PosTy.pos (2 * (k : Int) + 2) (2 * (k : Int) + 2) = T at hT hastar hfuel hgo ⊢
  have hin : ∀ q : P2, InGrid T q ↔ 0 ≤ q.1 ∧ q.1 ≤ 2 * k + 2 ∧ 0 ≤ q.2 ∧ q.2 ≤ 2 * k + 2 := fun q => by subst hTT; exact and_assoc
  have ho : InGrid T (0, 0) := (hin _).2 (by simp only; omega)
  have hd : InGrid T (combDest k) := (hin _).2 (by simp only [combDest]; omega)
  obtain ⟨path, hp⟩ := (C57_wide_straight_partial T hT (by subst hTT; exact Int.le_refl _) astar hastar (combGo k) hgo (0, 0) (combDest k) ho hd fuel hfuel).1
    ⟨_, hshort⟩
  have hpath := (C55_valid_path T hT astar hastar false (combGo k) hgo (0, 0) (combDest k) ho hd fuel path hp).2
  have key : ∀ i : Nat, i ≤ k → ∃ bs, path = (List.replicate i [Dir.E, .E, .S, .W, .S]).flatten ++ bs ∧
      follow (combGo k) (0, 0) (List.replicate i [Dir.E, .E, .S, .W, .S]).flatten = some ((i : Int), 2 * (i : Int)) ∧
      follow (combGo k) ((i : Int), 2 * (i : Int)) bs = some (combDest k) := by
    intro i
    induction i with
    | zero => exact fun _ => ⟨path, rfl, by simp [follow], by simpa using hpath⟩
    | succ i ih =>
      intro hi
      obtain ⟨bs, e, hpre, hbs⟩ := ih (by omega)
      rw [List.replicate_succ', List.flatten_append]
      generalize (List.replicate i [Dir.E, .E, .S, .W, .S]).flatten = pre at e hpre ⊢
      -- the steps through the link
      have g1 : combGo k ((i : Int), 2 * (i : Int)) .E = some ((i : Int) + 1, 2 * (i : Int)) :=
        combGo_some.2 ⟨by simp [neighbour, unit], .inl ⟨by simp only; omega, by simp only; omega, by simp only; omega, .inl ⟨by simp only; omega, .inr rfl⟩⟩⟩
      have g2 : combGo k ((i : Int) + 1, 2 * (i : Int)) .E = some ((i : Int) + 2, 2 * (i : Int)) :=
        combGo_some.2 ⟨by simp [neighbour, unit]; omega, .inl ⟨by simp only; omega, by simp only; omega, by simp only; omega, .inr (.inl ⟨by simp only; omega, rfl⟩)⟩⟩
      have g3 : combGo k ((i : Int) + 2, 2 * (i : Int)) .S = some ((i : Int) + 2, 2 * (i : Int) + 1) :=
        combGo_some.2 ⟨by simp [neighbour, unit], .inl ⟨by simp only; omega, by simp only; omega, by simp only; omega, .inr (.inr ⟨by simp only; omega, rfl⟩)⟩⟩
      have g4 : combGo k ((i : Int) + 2, 2 * (i : Int) + 1) .W = some ((i : Int) + 1, 2 * (i : Int) + 1) :=
        combGo_some.2 ⟨by simp [neighbour, unit]; omega, .inr (.inl ⟨by simp only; omega, by simp only; omega, by simp only; omega, .inr (.inr ⟨by simp only; omega, rfl⟩)⟩)⟩
      have g5 : combGo k ((i : Int) + 1, 2 * (i : Int) + 1) .S = some ((i : Int) + 1, 2 * (i : Int) + 2) :=
        combGo_some.2 ⟨by simp [neighbour, unit]; omega, .inr (.inl ⟨by simp only; omega, by simp only; omega, by simp only; omega, .inr (.inl ⟨by simp only; omega, rfl⟩)⟩)⟩
      have s1 : combGo k ((i : Int), 2 * (i : Int)) .S = some ((i : Int), 2 * (i : Int) + 1) :=
        combGo_some.2 ⟨by simp [neighbour, unit], .inl ⟨by simp only; omega, by simp only; omega, by simp only; omega, .inl ⟨by simp only; omega, .inl rfl⟩⟩⟩
      have s2 : combGo k ((i : Int), 2 * (i : Int) + 1) .E = some ((i : Int) + 1, 2 * (i : Int) + 1) :=
        combGo_some.2 ⟨by simp [neighbour, unit], .inr (.inl ⟨by simp only; omega, by simp only; omega, by simp only; omega, .inl ⟨by simp only; omega, rfl⟩⟩)⟩
      have hne : ∀ x y : Int, y < 2 * k + 1 → ((x, y) : P2) ≠ combDest k := by
        intro x y hy
        simp only [combDest, ne_eq, Prod.mk.injEq]
        omega
      obtain ⟨d, b1, rfl, hs, hb1⟩ := comb_next hbs (hne _ _ (by omega))
      have hdE : d = .E := by
        have hd2 : d = .E ∨ d = .S := by
          unfold CombStep at hs
          cases d <;> simp only [reduceCtorEq, and_false, or_false, false_or, or_true, and_true] at hs ⊢ <;> omega
        rcases hd2 with h | rfl
        · exact h
        exfalso
        obtain ⟨b2, rfl, hb2⟩ := comb_forced hb1 (by simp only [neighbour, unit]; exact hne _ _ (by omega)) .E (by
          intro d hs
          unfold CombStep at hs
          cases d <;> simp only [neighbour, unit, reduceCtorEq, and_false, or_false, false_or, or_true, and_true] at hs ⊢ <;> omega)
          ((i : Int) + 1, 2 * (i : Int) + 1) (by simp [neighbour, unit])
        have hp' : astar false (combGo k) (0, 0) (combDest k) fuel = .ok (.ok ((pre ++ [.S]) ++ .E :: b2)) := by rw [hp, e]; simp
        refine C137_astar T hT astar hastar (combGo k) hgo (0, 0) (combDest k) ho hd fuel (pre ++ [.S]) .E b2 hp'
          ((i : Int), 2 * (i : Int) + 1) ((i : Int) + 1, 2 * (i : Int) + 1) (by rw [follow_append, hpre]; simp [follow, s1]) s2
          ((i : Int), 2 * (i : Int) + 1) (3 * i + 1) (3 * k + 6) (comb_shortDist hk' (by omega)) hdist ((i : Int), 2 * (i : Int)) (by simp) (fun ds hds => comb_into hds (by omega))
          (3 * i) (comb_linkDist hk' (by omega)) [.E, .E, .S] ((i : Int) + 2, 2 * (i : Int) + 1) (by simp) ⟨by simp [Allowed, unit], by simp [follow, g1, g2, g3]⟩ ?_
          .W (by simp [Allowed, unit]) g4 ?_ rfl
        · intro j p h1 h2 h3
          simp only [List.length_cons, List.length_nil] at h2
          have hj : j = 1 ∨ j = 2 ∨ j = 3 := by omega
          rcases hj with rfl | rfl | rfl <;> simp only [List.take, follow, g1, g2, g3, Option.some.injEq] at h3 <;> subst h3 <;>
            simp only [l1, combDest] <;> omega
        · simp only [l1, combDest, List.length_cons, List.length_nil]
          omega
      subst hdE
      obtain ⟨b2, rfl, hb2⟩ := comb_forced hb1 (by simp only [neighbour, unit]; exact hne _ _ (by omega)) .E (by
          intro d hs
          unfold CombStep at hs
          cases d <;> simp only [neighbour, unit, reduceCtorEq, and_false, or_false, false_or, or_true, and_true] at hs ⊢ <;> omega)
        ((i : Int) + 2, 2 * (i : Int)) (by simp [neighbour, unit]; omega)
      obtain ⟨b3, rfl, hb3⟩ := comb_forced hb2 (hne _ _ (by omega)) .S (by
          intro d hs
          unfold CombStep at hs
          cases d <;> simp only [reduceCtorEq, and_false, or_false, false_or, or_true, and_true] at hs ⊢ <;> omega)
        ((i : Int) + 2, 2 * (i : Int) + 1) (by simp [neighbour, unit])
      obtain ⟨b4, rfl, hb4⟩ := comb_forced hb3 (hne _ _ (by omega)) .W (by
          intro d hs
          unfold CombStep at hs
          cases d <;> simp only [reduceCtorEq, and_false, or_false, false_or, or_true, and_true] at hs ⊢ <;> omega)
        ((i : Int) + 1, 2 * (i : Int) + 1) (by simp [neighbour, unit]; omega)
      obtain ⟨b5, rfl, hb5⟩ := comb_forced hb4 (hne _ _ (by omega)) .S (by
          intro d hs
          unfold CombStep at hs
          cases d <;> simp only [reduceCtorEq, and_false, or_false, false_or, or_true, and_true] at hs ⊢ <;> omega)
        ((i : Int) + 1, 2 * (i : Int) + 2) (by simp [neighbour, unit]; omega)
      have e2 : (2 * ((i + 1 : Nat) : Int)) = 2 * i + 2 := by omega
      refine ⟨b5, by rw [e]; simp, ?_, ?_⟩
      · rw [follow_append, hpre, e2]
        simp [follow, g1, g2, g3, g4, g5]
      · rw [e2]
        push_cast
        exact hb5
  obtain ⟨bs, e, -, hbs⟩ := key k (Nat.le_refl _)
  rw [hp, e, combPath]
  obtain ⟨c1, rfl, hc1⟩ := comb_forced hbs (by simp only [combDest, ne_eq, Prod.mk.injEq]; omega) .W (by
      intro d hs
      unfold CombStep at hs
      cases d <;> simp only [reduceCtorEq, and_false, or_false, false_or, or_true, and_true] at hs ⊢ <;> omega)
    ((((k : Int) - 1), 2 * (k : Int)) : P2) (by simp only [neighbour, unit, Prod.mk.injEq]; omega)
  obtain ⟨c2, rfl, hc2⟩ := comb_forced hc1 (by simp only [combDest, ne_eq, Prod.mk.injEq]; omega) .S (by
      intro d hs
      unfold CombStep at hs
      cases d <;> simp only [reduceCtorEq, and_false, or_false, false_or, or_true, and_true] at hs ⊢ <;> omega)
    ((((k : Int) - 1), 2 * (k : Int) + 1) : P2) (by simp only [neighbour, unit, Prod.mk.injEq, and_true]; omega)
  obtain ⟨c3, rfl, hc3⟩ := comb_forced hc2 (by simp only [combDest, ne_eq, Prod.mk.injEq]; omega) .S (by
      intro d hs
      unfold CombStep at hs
      cases d <;> simp only [reduceCtorEq, and_false, or_false, false_or, or_true, and_true] at hs ⊢ <;> omega)
    ((((k : Int) - 1), 2 * (k : Int) + 2) : P2) (by simp only [neighbour, unit, Prod.mk.injEq]; omega)
  obtain ⟨c4, rfl, hc4⟩ := comb_forced hc3 (by simp only [combDest, ne_eq, Prod.mk.injEq]; omega) .E (by
      intro d hs
      unfold CombStep at hs
      cases d <;> simp only [reduceCtorEq, and_false, or_false, false_or, or_true, and_true] at hs ⊢ <;> omega)
    ((((k : Int)), 2 * (k : Int) + 2) : P2) (by simp only [neighbour, unit, Prod.mk.injEq]; omega)
  obtain ⟨c5, rfl, hc5⟩ := comb_forced hc4 (by simp only [combDest, ne_eq, Prod.mk.injEq]; omega) .E (by
      intro d hs
      unfold CombStep at hs
      cases d <;> simp only [reduceCtorEq, and_false, or_false, false_or, or_true, and_true] at hs ⊢ <;> omega)
    ((((k : Int) + 1), 2 * (k : Int) + 2) : P2) (by simp only [neighbour, unit, Prod.mk.injEq, true_and]; omega)
  obtain ⟨c6, rfl, hc6⟩ := comb_forced hc5 (by simp only [combDest, ne_eq, Prod.mk.injEq]; omega) .N (by
      intro d hs
      unfold CombStep at hs
      cases d <;> simp only [reduceCtorEq, and_false, or_false, false_or, or_true, and_true] at hs ⊢ <;> omega)
    ((((k : Int) + 1), 2 * (k : Int) + 1) : P2) (by simp only [neighbour, unit, Prod.mk.injEq]; omega)
  have hnil : c6 = [] := by
    cases c6 with
    | nil => rfl
    | cons d c7 =>
      exfalso
      simp only [follow] at hc6
      split at hc6
      · cases hc6
      · rename_i q hq
        have hs := (combGo_some.1 hq).2
        unfold CombStep at hs
        simp only at hs
        omega
  rw [hnil]

example : (PosTy.pos (2 * (2000 : Nat) + 2) (2 * (2000 : Nat) + 2)).Searchable ∧
    Astar.IsSearch (PosTy.pos (2 * (2000 : Nat) + 2) (2 * (2000 : Nat) + 2)) (Astar.pathHash (PosTy.pos (2 * (2000 : Nat) + 2) (2 * (2000 : Nat) + 2))) :=
  ⟨PosTy.pos_searchable (by decide) (by decide) (.inl rfl), .inr (.inl rfl)⟩

-- two links
example : combPath 2 = [.E, .E, .S, .W, .S, .E, .E, .S, .W, .S, .W, .S, .S, .E, .E, .N] ∧
    combShort 2 = [.S, .E, .S, .S, .E, .S, .W, .S, .S, .E, .E, .N] ∧
    Astar.pathHash (PosTy.pos 6 6) false (combGo 2) (0, 0) (combDest 2) 1000 = .ok (.ok (combPath 2)) ∧
    follow (combGo 2) (0, 0) (combShort 2) = some (combDest 2) := by decide +kernel

-- `C137_astar` here: the step to (1, 1) comes from (2, 1) and not from (0, 1), where the path would be shorter. Every way to (0, 1) goes through (0, 0); the way on from there
-- to (2, 1) passes (1, 0) and (2, 0). These three have the same sum of the two distances as (0, 1), 8, and are greater.
example : Astar.pathHash (PosTy.pos 6 6) false (combGo 2) (0, 0) (combDest 2) 1000 =
      .ok (.ok ([.E, .E, .S] ++ .W :: [.S, .E, .E, .S, .W, .S, .W, .S, .S, .E, .E, .N])) ∧
    follow (combGo 2) (0, 0) [.E, .E, .S] = some (2, 1) ∧ combGo 2 (2, 1) .W = some (1, 1) ∧
    (∀ ds, IsPath (combGo 2) false (0, 0) ds (0, 1) → ∃ i, follow (combGo 2) (0, 0) (ds.take i) = some (0, 0)) ∧
    IsDist (combGo 2) false (0, 0) (0, 1) 1 ∧ IsDist (combGo 2) false (0, 0) (0, 0) 0 ∧ IsDist (combGo 2) false (0, 0) (combDest 2) 12 ∧
    combGo 2 (0, 1) .E = some (1, 1) ∧ (1 : Int) + l1 (0, 1) (combDest 2) = 8 ∧
    (∀ i p, 1 ≤ i → i ≤ 3 → follow (combGo 2) (0, 0) (([.E, .E, .S] : List Dir).take i) = some p → (0 : Int) + i + l1 p (combDest 2) = 8 ∧ 0 < p.1) ∧
    ((0 : Int) + 3 + 1 + l1 (1, 1) (combDest 2) < 12) := by
  refine ⟨by decide +kernel, by decide +kernel, by decide +kernel, fun ds _ => ⟨0, rfl⟩, comb_shortDist (i := 0) (by decide) (by decide),
    comb_linkDist (i := 0) (by decide) (by decide), (comb_dist (k := 2) (by decide)).2, by decide +kernel, by decide +kernel, ?_, by decide +kernel⟩
  intro i p h1 h2 h3
  have hi : i = 1 ∨ i = 2 ∨ i = 3 := by omega
  rcases hi with rfl | rfl | rfl
  · have e : follow (combGo 2) (0, 0) (([.E, .E, .S] : List Dir).take 1) = some (1, 0) := by decide +kernel
    rw [e] at h3; injection h3 with h3; subst h3; decide +kernel
  · have e : follow (combGo 2) (0, 0) (([.E, .E, .S] : List Dir).take 2) = some (2, 0) := by decide +kernel
    rw [e] at h3; injection h3 with h3; subst h3; decide +kernel
  · have e : follow (combGo 2) (0, 0) (([.E, .E, .S] : List Dir).take 3) = some (2, 1) := by decide +kernel
    rw [e] at h3; injection h3 with h3; subst h3; decide +kernel

end Sqrid
