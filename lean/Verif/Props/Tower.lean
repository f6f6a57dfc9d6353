import Verif.Props.Ties
/-!
# A family of grids with walls on which A* takes many steps too many: C137

The way from the origin leads through `k` rooms of three by three cells with a wall in the middle. A room is entered in its north west corner and left from the middle of its
south side, which is three steps away to the south and the east. Clockwise it takes five steps, of which the first four lead nearer to the destination. At the end the way
goes around a corner, which the heuristic does not foresee.

```text
...        A room and the first cell of the next one: `.` can be entered, `#` cannot.
.#.
...
#.#
#...
```
-/

namespace Sqrid

-- Statements that do not mention a target are about a debug build for a 64-bit machine.
attribute [local instance] debug64

open Spec

/-- The positions that are not walls. -/
def TowerOpen (k : Int) (q : Int × Int) : Prop :=
  (0 ≤ q.2 ∧ q.2 < 4 * k ∧ q.2 % 4 < 3 ∧ q.2 / 4 ≤ q.1 ∧ q.1 ≤ q.2 / 4 + 2 ∧ ¬ (q.2 % 4 = 1 ∧ q.1 = q.2 / 4 + 1)) ∨
  (0 ≤ q.2 ∧ q.2 < 4 * k ∧ q.2 % 4 = 3 ∧ q.1 = q.2 / 4 + 1) ∨
  (q.2 = 4 * k ∧ (q.1 = k - 1 ∨ q.1 = k)) ∨ (q.2 = 4 * k + 1 ∧ (q.1 = k - 1 ∨ q.1 = k + 1)) ∨ (q.2 = 4 * k + 2 ∧ k - 1 ≤ q.1 ∧ q.1 ≤ k + 1)

instance (k : Int) (q : Int × Int) : Decidable (TowerOpen k q) := by unfold TowerOpen; infer_instance

/-- The grid. -/
def towerTy (k : Int) : PosTy := PosTy.pos (4 * k + 2) (4 * k + 2)

/-- The walls. -/
def towerWalls (k : Int) : List (Int × Int) := (allPositions (towerTy k) true).filter fun q => ¬ TowerOpen k q

/-- The destination. -/
def towerDest (k : Int) : Int × Int := (k + 1, 4 * k + 1)

/-- The path that A* returns. -/
def towerPath (k : Nat) : List Dir := (List.replicate k [Dir.E, .E, .S, .S, .W, .S, .S]).flatten ++ [.W, .S, .S, .E, .E, .N]

/-- A shortest path. -/
def towerShort (k : Nat) : List Dir := (List.replicate k [Dir.S, .S, .E, .S, .S]).flatten ++ [.W, .S, .S, .E, .E, .N]

theorem tower_inGrid (k : Int) (q : P2) : InGrid (towerTy k) q ↔ 0 ≤ q.1 ∧ q.1 ≤ 4 * k + 2 ∧ 0 ≤ q.2 ∧ q.2 ≤ 4 * k + 2 := and_assoc

theorem towerOpen_inGrid {k : Int} (hk : 1 ≤ k) {q : P2} (h : TowerOpen k q) : InGrid (towerTy k) q := by
  rw [tower_inGrid]
  unfold TowerOpen at h
  omega

/-- The movement function: around the walls. -/
abbrev towerGo (k : Int) : GoFn := aroundWalls (towerTy k) (towerWalls k)

theorem towerGo_some {k : Int} (hk : 1 ≤ k) {p q : P2} {d : Dir} : towerGo k p d = some q ↔ q = neighbour p d ∧ TowerOpen k q := by
  have hw : ∀ q : P2, q ∉ towerWalls k ↔ (InGrid (towerTy k) q → TowerOpen k q) := by
    intro q
    simp only [towerWalls, List.mem_filter, PosTy.mem_allPositions, decide_not, Bool.not_eq_true', decide_eq_false_iff_not, not_and, not_not]
    exact Iff.rfl
  unfold towerGo aroundWalls
  split
  · rename_i h
    rw [hw] at h
    constructor
    · intro e
      injection e with e
      subst e
      exact ⟨rfl, h.2 h.1⟩
    · rintro ⟨rfl, -⟩
      rfl
  · rename_i h
    constructor
    · intro e; cases e
    · rintro ⟨rfl, h1⟩
      exact absurd ⟨towerOpen_inGrid hk h1, (hw _).2 fun _ => h1⟩ h

/-- The distance of a position from the origin. -/
def towerDist (k : Int) (p : P2) : Int :=
  if p.2 < 4 * k then (if p.2 % 4 = 3 then 5 * (p.2 / 4) + 4 else 5 * (p.2 / 4) + (p.1 - p.2 / 4) + p.2 % 4)
  else if p.2 = 4 * k then 5 * k + (k - p.1) else if p.2 = 4 * k + 1 then (if p.1 = k - 1 then 5 * k + 2 else 5 * k + 6) else 5 * k + 3 + (p.1 - (k - 1))

theorem towerDist_le {k : Int} (hk : 1 ≤ k) {ds : List Dir} {q : P2} (h : IsPath (towerGo k) false (0, 0) ds q) :
    TowerOpen k q ∧ towerDist k q ≤ ds.length := by
  induction ds using List.reverseRecOn generalizing q with
  | nil =>
    have h1 := h.2
    injection h1 with h1
    subst h1
    refine ⟨.inl (by simp only; omega), ?_⟩
    unfold towerDist
    simp only [List.length_nil]
    split_ifs <;> omega
  | append_singleton ds d ih =>
    obtain ⟨r, h1, h2, h3⟩ := isPath_concat h
    obtain ⟨i1, i2⟩ := ih h1
    obtain ⟨e1, e2⟩ := (towerGo_some hk).1 h3
    refine ⟨e2, ?_⟩
    obtain ⟨x, y⟩ := r
    simp only [List.length_append, List.length_singleton]
    push_cast
    subst e1
    unfold TowerOpen towerDist at *
    rcases h2 with h2 | h2
    · cases h2
    cases d <;> simp only [unit] at h2 <;> first | (exfalso; omega) | skip
    all_goals
      simp only [neighbour, unit] at i1 i2 e2 ⊢
      split_ifs at i2 ⊢ <;> omega

/-! ## Ways without cycles -/

/-- A way from `p` to the destination that does not meet the positions `S`, nor itself. -/
def Simple (k : Int) : List P2 → P2 → List Dir → Prop
  | _, p, [] => p = towerDest k
  | S, p, d :: bs => Allowed false d ∧ TowerOpen k (neighbour p d) ∧ neighbour p d ∉ S ∧ Simple k (p :: S) (neighbour p d) bs

theorem simple_of {k : Int} (hk : 1 ≤ k) {path : List Dir} (hpath : IsPath (towerGo k) false (0, 0) path (towerDest k))
    (hinj : ∀ i j, i ≤ path.length → j ≤ path.length → follow (towerGo k) (0, 0) (path.take i) = follow (towerGo k) (0, 0) (path.take j) → i = j)
    (bs : List Dir) : ∀ (as : List Dir) (S : List P2) (p : P2), path = as ++ bs → follow (towerGo k) (0, 0) as = some p →
      (∀ q ∈ S, ∃ i, i < as.length ∧ follow (towerGo k) (0, 0) (path.take i) = some q) → Simple k S p bs := by
  induction bs with
  | nil =>
    intro as S p e hp _
    have := hpath.2
    rw [e, List.append_nil, hp] at this
    injection this
  | cons d bs ih =>
    intro as S p e hp hS
    have h1 := hpath.2
    rw [e, follow_append, hp] at h1
    simp only [Option.bind_some, follow] at h1
    split at h1
    · cases h1
    · rename_i q hq
      obtain ⟨rfl, hop⟩ := (towerGo_some hk).1 hq
      have hnext : follow (towerGo k) (0, 0) (as ++ [d]) = some (neighbour p d) := by rw [follow_append, hp]; simp [follow, hq]
      have htake : path.take (as.length + 1) = as ++ [d] := by
        rw [e, show as ++ d :: bs = (as ++ [d]) ++ bs by simp, List.take_left' (by simp)]
      have hlen : as.length + 1 ≤ path.length := by rw [e]; simp
      refine ⟨hpath.1 d (by rw [e]; simp), hop, fun hm => ?_, ih (as ++ [d]) (p :: S) _ (by rw [e]; simp) hnext fun q hq' => ?_⟩
      · obtain ⟨i, h2, h3⟩ := hS _ hm
        have := hinj i (as.length + 1) (by omega) hlen (by rw [h3, htake, hnext])
        omega
      · rw [List.length_append, List.length_singleton]
        rcases List.mem_cons.1 hq' with rfl | hq'
        · refine ⟨as.length, by omega, ?_⟩
          rw [e, List.take_left' rfl, hp]
        · obtain ⟨i, h2, h3⟩ := hS _ hq'
          exact ⟨i, by omega, h3⟩

/-- The next step of such a way. -/
theorem Simple.next {k : Int} {S : List P2} {p : P2} {bs : List Dir} (h : Simple k S p bs) (hp : p ≠ towerDest k) :
    ∃ d bs', bs = d :: bs' ∧ (d = .N ∨ d = .E ∨ d = .S ∨ d = .W) ∧ TowerOpen k (neighbour p d) ∧ neighbour p d ∉ S ∧ Simple k (p :: S) (neighbour p d) bs' := by
  cases bs with
  | nil => exact absurd h hp
  | cons d bs =>
    obtain ⟨h1, h2, h3, h4⟩ := h
    refine ⟨d, bs, rfl, ?_, h2, h3, h4⟩
    rcases h1 with h1 | h1
    · cases h1
    · cases d <;> simp [unit] at h1 ⊢

/-- The next step, if there is only one. -/
theorem Simple.forced {k : Int} {S : List P2} {p : P2} {bs : List Dir} (h : Simple k S p bs) (hp : p ≠ towerDest k) (d : Dir)
    (hd : ∀ d', (d' = .N ∨ d' = .E ∨ d' = .S ∨ d' = .W) → d' ≠ d → TowerOpen k (neighbour p d') → neighbour p d' ∈ S) (q : P2) (hq : q = neighbour p d) :
    ∃ bs', bs = d :: bs' ∧ Simple k (p :: S) q bs' := by
  obtain ⟨d', bs', h1, h2, h3, h4, h5⟩ := h.next hp
  by_cases e : d' = d
  · subst e hq
    exact ⟨bs', h1, h5⟩
  · exact absurd (hd d' h2 e h3) h4

/-! ## Distances -/

/-- A step between two given positions. -/
local macro "tower_step" hk:term : tactic =>
  `(tactic| exact (towerGo_some $hk).2 ⟨by refine Prod.ext ?_ ?_ <;> simp only [neighbour, unit] <;> omega,
    by simp only [TowerOpen, true_and, and_true, true_or, or_true]; try omega⟩)

theorem tower_link {k : Int} (hk : 1 ≤ k) {i : Nat} (hi : (i : Int) ≤ k) :
    IsPath (towerGo k) false (0, 0) (List.replicate i [Dir.S, .S, .E, .S, .S]).flatten (i, 4 * i) := by
  induction i with
  | zero => exact ⟨by simp, by simp [follow]⟩
  | succ i ih =>
    rw [List.replicate_succ', List.flatten_append]
    refine isPath_append (ih (by omega)) ⟨by simp [Allowed, unit], ?_⟩
    have h1 : towerGo k ((i : Int), 4 * (i : Int)) .S = some ((i : Int), 4 * (i : Int) + 1) := by tower_step hk
    have h2 : towerGo k ((i : Int), 4 * (i : Int) + 1) .S = some ((i : Int), 4 * (i : Int) + 2) := by tower_step hk
    have h3 : towerGo k ((i : Int), 4 * (i : Int) + 2) .E = some ((i : Int) + 1, 4 * (i : Int) + 2) := by tower_step hk
    have h4 : towerGo k ((i : Int) + 1, 4 * (i : Int) + 2) .S = some ((i : Int) + 1, 4 * (i : Int) + 3) := by tower_step hk
    have h5 : towerGo k ((i : Int) + 1, 4 * (i : Int) + 3) .S = some ((i : Int) + 1, 4 * (i : Int) + 4) := by tower_step hk
    simp only [List.flatten_cons, List.flatten_nil, List.append_nil, follow, h1, h2, h3, h4, h5, Option.some.injEq, Prod.mk.injEq]
    omega

theorem tower_linkDist {k : Int} {i : Nat} (hk : 1 ≤ k) (hi : (i : Int) ≤ k) : IsDist (towerGo k) false (0, 0) (i, 4 * i) (5 * i) := by
  refine ⟨⟨_, tower_link hk hi, by simp; omega⟩, fun ds hds => ?_⟩
  have := (towerDist_le hk hds).2
  unfold towerDist at this
  simp only at this
  split_ifs at this <;> omega

theorem tower_sideDist {k : Int} {i : Nat} (hk : 1 ≤ k) (hi : (i : Int) < k) : IsDist (towerGo k) false (0, 0) (i, 4 * i + 2) (5 * i + 2) := by
  have h1 : towerGo k ((i : Int), 4 * (i : Int)) .S = some ((i : Int), 4 * (i : Int) + 1) := by tower_step hk
  have h2 : towerGo k ((i : Int), 4 * (i : Int) + 1) .S = some ((i : Int), 4 * (i : Int) + 2) := by tower_step hk
  refine ⟨⟨_, isPath_append (bs := [.S, .S]) (tower_link (i := i) hk (by omega)) ⟨by simp [Allowed, unit], by simp [follow, h1, h2]⟩, by simp; omega⟩,
    fun ds hds => ?_⟩
  have := (towerDist_le hk hds).2
  unfold towerDist at this
  simp only at this
  split_ifs at this <;> omega

theorem tower_tail {k : Int} (hk : 1 ≤ k) : IsPath (towerGo k) false (k, 4 * k) [.W, .S, .S, .E, .E, .N] (towerDest k) := by
  refine ⟨by simp [Allowed, unit], ?_⟩
  have h1 : towerGo k (k, 4 * k) .W = some (k - 1, 4 * k) := by tower_step hk
  have h2 : towerGo k (k - 1, 4 * k) .S = some (k - 1, 4 * k + 1) := by tower_step hk
  have h3 : towerGo k (k - 1, 4 * k + 1) .S = some (k - 1, 4 * k + 2) := by tower_step hk
  have h4 : towerGo k (k - 1, 4 * k + 2) .E = some (k, 4 * k + 2) := by tower_step hk
  have h5 : towerGo k (k, 4 * k + 2) .E = some (k + 1, 4 * k + 2) := by tower_step hk
  have h6 : towerGo k (k + 1, 4 * k + 2) .N = some (k + 1, 4 * k + 1) := by tower_step hk
  simp only [follow, h1, h2, h3, h4, h5, h6, towerDest]

theorem tower_dist {k : Nat} (hk : 1 ≤ k) :
    IsPath (towerGo k) false (0, 0) (towerShort k) (towerDest k) ∧ IsDist (towerGo k) false (0, 0) (towerDest k) (5 * k + 6) := by
  have hk' : (1 : Int) ≤ k := by omega
  have h1 : IsPath (towerGo k) false (0, 0) (towerShort k) (towerDest k) := isPath_append (tower_link hk' (Int.le_refl _)) (tower_tail hk')
  refine ⟨h1, ⟨_, h1, by simp [towerShort]; omega⟩, fun ds hds => ?_⟩
  have := (towerDist_le hk' hds).2
  unfold towerDist towerDest at this
  simp only at this
  split_ifs at this <;> omega

/-- Every way to a room goes through its north west corner. -/
theorem tower_into {k : Int} (hk : 1 ≤ k) {i : Nat} {ds : List Dir} {q : P2} (h : IsPath (towerGo k) false (0, 0) ds q) (hq : 4 * (i : Int) ≤ q.2) :
    ∃ j, follow (towerGo k) (0, 0) (ds.take j) = some ((i : Int), 4 * (i : Int)) := by
  induction ds using List.reverseRecOn generalizing q with
  | nil =>
    have h1 := h.2
    injection h1 with h1
    subst h1
    refine ⟨0, ?_⟩
    simp only [List.take_nil, follow, Option.some.injEq, Prod.mk.injEq]
    simp only at hq
    omega
  | append_singleton ds d ih =>
    obtain ⟨⟨x, y⟩, h1, h2, h3⟩ := isPath_concat h
    obtain ⟨e1, e2⟩ := (towerGo_some hk).1 h3
    by_cases hy : 4 * (i : Int) ≤ y
    · obtain ⟨j, hj⟩ := ih h1 hy
      by_cases hle : j ≤ ds.length
      · exact ⟨j, by rw [List.take_append_of_le_length hle]; exact hj⟩
      · rw [List.take_of_length_le (by omega)] at hj
        exact ⟨ds.length, by rw [List.take_left' rfl]; exact hj⟩
    · refine ⟨(ds ++ [d]).length, ?_⟩
      rw [List.take_length, h.2]
      have h4 := (towerDist_le hk h1).1
      subst e1
      unfold TowerOpen at e2 h4
      rcases h2 with h2 | h2
      · cases h2
      cases d <;> simp only [unit] at h2 <;> first | (exfalso; omega) | skip
      all_goals
        simp only [neighbour, unit, Option.some.injEq, Prod.mk.injEq] at hq e2 h4 ⊢
        omega

/-! ## The path -/

/-- The other steps lead into a wall, or back. -/
local macro "tower_only" : tactic =>
  `(tactic| (intro d' hd' hne hop
             rcases hd' with h | h | h | h <;> subst h <;> first
               | exact absurd rfl hne
               | (exfalso; simp only [TowerOpen, neighbour, unit] at hop; omega)
               | (refine List.mem_cons.2 (.inl ?_); refine Prod.ext ?_ ?_ <;> simp only [neighbour, unit] <;> omega)))

/-- The position after a step. -/
local macro "tower_to" : tactic => `(tactic| (refine Prod.ext ?_ ?_ <;> simp only [neighbour, unit] <;> omega))

theorem tower_ne {k x y : Int} (hy : y ≠ 4 * k + 1) : ((x, y) : P2) ≠ towerDest k := by
  simp only [towerDest, ne_eq, Prod.mk.injEq]
  omega

/-- A way without cycles goes through a room clockwise, or enters it to the south. -/
theorem tower_room {k : Int} {i : Nat} (hi : (i : Int) < k) {S : List P2} {bs : List Dir} (h : Simple k S ((i : Int), 4 * (i : Int)) bs)
    (hS : 0 < i → ((i : Int), 4 * (i : Int) - 1) ∈ S) :
    (∃ bs', bs = .S :: .S :: .E :: bs') ∨
    (∃ bs' S', bs = .E :: .E :: .S :: .S :: .W :: .S :: .S :: bs' ∧ Simple k (((i : Int) + 1, 4 * (i : Int) + 3) :: S') ((i : Int) + 1, 4 * (i : Int) + 4) bs') := by
  obtain ⟨d, b1, rfl, hd, hop, hmem, h1⟩ := h.next (tower_ne (by omega))
  rcases hd with rfl | rfl | rfl | rfl
  · exfalso
    by_cases h0 : 0 < i
    · exact hmem (by
        have : neighbour ((i : Int), 4 * (i : Int)) .N = ((i : Int), 4 * (i : Int) - 1) := by tower_to
        rw [this]
        exact hS h0)
    · simp only [TowerOpen, neighbour, unit] at hop
      omega
  · right
    have e1 : neighbour ((i : Int), 4 * (i : Int)) .E = ((i : Int) + 1, 4 * (i : Int)) := by tower_to
    rw [e1] at h1
    obtain ⟨b2, rfl, h2⟩ := h1.forced (tower_ne (by omega)) .E (by tower_only) ((i : Int) + 2, 4 * (i : Int)) (by tower_to)
    obtain ⟨b3, rfl, h3⟩ := h2.forced (tower_ne (by omega)) .S (by tower_only) ((i : Int) + 2, 4 * (i : Int) + 1) (by tower_to)
    obtain ⟨b4, rfl, h4⟩ := h3.forced (tower_ne (by omega)) .S (by tower_only) ((i : Int) + 2, 4 * (i : Int) + 2) (by tower_to)
    obtain ⟨b5, rfl, h5⟩ := h4.forced (tower_ne (by omega)) .W (by tower_only) ((i : Int) + 1, 4 * (i : Int) + 2) (by tower_to)
    obtain ⟨d, b6, rfl, hd, hop, hmem, h6⟩ := h5.next (tower_ne (by omega))
    rcases hd with rfl | rfl | rfl | rfl
    · exfalso
      simp only [TowerOpen, neighbour, unit] at hop
      omega
    · exact absurd (List.mem_cons.2 (.inl (by tower_to))) hmem
    · have e2 : neighbour ((i : Int) + 1, 4 * (i : Int) + 2) .S = ((i : Int) + 1, 4 * (i : Int) + 3) := by tower_to
      rw [e2] at h6
      obtain ⟨b7, rfl, h7⟩ := h6.forced (tower_ne (by omega)) .S (by tower_only) ((i : Int) + 1, 4 * (i : Int) + 4) (by tower_to)
      exact ⟨b7, _, rfl, h7⟩
    · exfalso
      have e2 : neighbour ((i : Int) + 1, 4 * (i : Int) + 2) .W = ((i : Int), 4 * (i : Int) + 2) := by tower_to
      rw [e2] at h6
      obtain ⟨b7, rfl, h7⟩ := h6.forced (tower_ne (by omega)) .N (by tower_only) ((i : Int), 4 * (i : Int) + 1) (by tower_to)
      obtain ⟨b8, rfl, h8⟩ := h7.forced (tower_ne (by omega)) .N (by tower_only) ((i : Int), 4 * (i : Int)) (by tower_to)
      obtain ⟨-, -, hm, -⟩ := h7
      refine hm ?_
      have e3 : neighbour ((i : Int), 4 * (i : Int) + 1) .N = ((i : Int), 4 * (i : Int)) := by tower_to
      rw [e3]
      simp
  · left
    have e1 : neighbour ((i : Int), 4 * (i : Int)) .S = ((i : Int), 4 * (i : Int) + 1) := by tower_to
    rw [e1] at h1
    obtain ⟨b2, rfl, h2⟩ := h1.forced (tower_ne (by omega)) .S (by tower_only) ((i : Int), 4 * (i : Int) + 2) (by tower_to)
    obtain ⟨b3, rfl, h3⟩ := h2.forced (tower_ne (by omega)) .E (by tower_only) ((i : Int) + 1, 4 * (i : Int) + 2) (by tower_to)
    exact ⟨b3, rfl⟩
  · exfalso
    simp only [TowerOpen, neighbour, unit] at hop
    omega

/-- After the last room there is only one way. -/
theorem tower_last {k : Int} {S : List P2} {bs : List Dir} (h : Simple k S (k, 4 * k) bs) (hS : (k, 4 * k - 1) ∈ S) :
    bs = [.W, .S, .S, .E, .E, .N] := by
  have hN : ∃ b1, bs = .W :: b1 ∧ Simple k ((k, 4 * k) :: S) (k - 1, 4 * k) b1 := by
    refine h.forced (tower_ne (by omega)) .W (fun d' hd' hne hop => ?_) _ (by tower_to)
    rcases hd' with rfl | rfl | rfl | rfl
    · have e : neighbour (k, 4 * k) .N = (k, 4 * k - 1) := by tower_to
      rw [e]
      exact hS
    · exfalso; simp only [TowerOpen, neighbour, unit] at hop; omega
    · exfalso; simp only [TowerOpen, neighbour, unit] at hop; omega
    · exact absurd rfl hne
  obtain ⟨b1, rfl, h1⟩ := hN
  have hne : ∀ y : Int, ((k - 1, y) : P2) ≠ towerDest k := by
    intro y
    simp only [towerDest, ne_eq, Prod.mk.injEq]
    omega
  obtain ⟨b2, rfl, h2⟩ := h1.forced (hne _) .S (by tower_only) (k - 1, 4 * k + 1) (by tower_to)
  obtain ⟨b3, rfl, h3⟩ := h2.forced (hne _) .S (by tower_only) (k - 1, 4 * k + 2) (by tower_to)
  obtain ⟨b4, rfl, h4⟩ := h3.forced (hne _) .E (by tower_only) (k, 4 * k + 2) (by tower_to)
  obtain ⟨b5, rfl, h5⟩ := h4.forced (tower_ne (by omega)) .E (by tower_only) (k + 1, 4 * k + 2) (by tower_to)
  obtain ⟨b6, rfl, h6⟩ := h5.forced (tower_ne (by omega)) .N (by tower_only) (k + 1, 4 * k + 1) (by tower_to)
  cases b6 with
  | nil => rfl
  | cons d b7 =>
    exfalso
    obtain ⟨a1, a2, a3, -⟩ := h6
    rcases a1 with a1 | a1
    · cases a1
    cases d <;> simp only [unit] at a1 <;> first
      | omega
      | (exfalso; simp only [TowerOpen, neighbour, unit] at a2; omega)
      | exact absurd (List.mem_cons.2 (.inl (by tower_to))) a3

/-- C137, C58. Also around walls A* can return a path with any number of steps too many: through `k` rooms it returns a path of `7 * k + 6` steps, where the shortest one
has `5 * k + 6` steps. -/
theorem C137_astar_walls [Target] (k : Nat) (hk : 1 ≤ k) (hT : (towerTy k).Searchable) (astar) (hastar : Astar.IsSearch (towerTy k) astar) (fuel : Nat)
    (hfuel : Astar.steps (towerTy k) < (fuel : Int)) :
    astar false (aroundWalls (towerTy k) (towerWalls k)) (0, 0) (towerDest k) fuel = .ok (.ok (towerPath k)) ∧ (towerPath k).length = 7 * k + 6 ∧
    IsDist (aroundWalls (towerTy k) (towerWalls k)) false (0, 0) (towerDest k) (5 * k + 6) := by
  have hk' : (1 : Int) ≤ k := by omega
  have hgo : Adjacent (towerTy k) (towerGo k) := aroundWalls_adjacent _ _
  obtain ⟨hshort, hdist⟩ := tower_dist hk
  refine ⟨?_, by simp [towerPath]; omega, hdist⟩
  have ho : InGrid (towerTy k) (0, 0) := (tower_inGrid _ _).2 (by simp only; omega)
  have hd : InGrid (towerTy k) (towerDest k) := (tower_inGrid _ _).2 (by simp only [towerDest]; omega)
  obtain ⟨path, hp⟩ := (C57_wide_straight_partial (towerTy k) hT (Int.le_refl _) astar hastar (towerGo k) hgo (0, 0) (towerDest k) ho hd fuel hfuel).1 ⟨_, hshort⟩
  have hpath := C55_valid_path (towerTy k) hT astar hastar false (towerGo k) hgo (0, 0) (towerDest k) ho hd fuel path hp
  have hsimple := simple_of hk' hpath (fun i j hi hj he => C91_astar_simple (towerTy k) hT astar hastar false (towerGo k) hgo (0, 0) (towerDest k) ho hd fuel path hp i j hi hj he)
    path [] [] (0, 0) rfl rfl (by simp)
  have key : ∀ i : Nat, i ≤ k → ∃ bs S, path = (List.replicate i [Dir.E, .E, .S, .S, .W, .S, .S]).flatten ++ bs ∧
      follow (towerGo k) (0, 0) (List.replicate i [Dir.E, .E, .S, .S, .W, .S, .S]).flatten = some ((i : Int), 4 * (i : Int)) ∧
      Simple k S ((i : Int), 4 * (i : Int)) bs ∧ (0 < i → ((i : Int), 4 * (i : Int) - 1) ∈ S) := by
    intro i
    induction i with
    | zero => exact fun _ => ⟨path, [], rfl, by simp [follow], by simpa using hsimple, by omega⟩
    | succ i ih =>
      intro hi
      obtain ⟨bs, S, e, hpre, hbs, hS⟩ := ih (by omega)
      rw [List.replicate_succ', List.flatten_append]
      generalize (List.replicate i [Dir.E, .E, .S, .S, .W, .S, .S]).flatten = pre at e hpre ⊢
      have g1 : towerGo k ((i : Int), 4 * (i : Int)) .E = some ((i : Int) + 1, 4 * (i : Int)) := by tower_step hk'
      have g2 : towerGo k ((i : Int) + 1, 4 * (i : Int)) .E = some ((i : Int) + 2, 4 * (i : Int)) := by tower_step hk'
      have g3 : towerGo k ((i : Int) + 2, 4 * (i : Int)) .S = some ((i : Int) + 2, 4 * (i : Int) + 1) := by tower_step hk'
      have g4 : towerGo k ((i : Int) + 2, 4 * (i : Int) + 1) .S = some ((i : Int) + 2, 4 * (i : Int) + 2) := by tower_step hk'
      have g5 : towerGo k ((i : Int) + 2, 4 * (i : Int) + 2) .W = some ((i : Int) + 1, 4 * (i : Int) + 2) := by tower_step hk'
      have g6 : towerGo k ((i : Int) + 1, 4 * (i : Int) + 2) .S = some ((i : Int) + 1, 4 * (i : Int) + 3) := by tower_step hk'
      have g7 : towerGo k ((i : Int) + 1, 4 * (i : Int) + 3) .S = some ((i : Int) + 1, 4 * (i : Int) + 4) := by tower_step hk'
      have s1 : towerGo k ((i : Int), 4 * (i : Int)) .S = some ((i : Int), 4 * (i : Int) + 1) := by tower_step hk'
      have s2 : towerGo k ((i : Int), 4 * (i : Int) + 1) .S = some ((i : Int), 4 * (i : Int) + 2) := by tower_step hk'
      have s3 : towerGo k ((i : Int), 4 * (i : Int) + 2) .E = some ((i : Int) + 1, 4 * (i : Int) + 2) := by tower_step hk'
      rcases tower_room (by omega) hbs hS with ⟨b, rfl⟩ | ⟨b, S', rfl, hb⟩
      · exfalso
        have hp' : astar false (towerGo k) (0, 0) (towerDest k) fuel = .ok (.ok ((pre ++ [.S, .S]) ++ .E :: b)) := by rw [hp, e]; simp
        refine C137_astar (towerTy k) hT astar hastar (towerGo k) hgo (0, 0) (towerDest k) ho hd fuel (pre ++ [.S, .S]) .E b hp'
          ((i : Int), 4 * (i : Int) + 2) ((i : Int) + 1, 4 * (i : Int) + 2) (by rw [follow_append, hpre]; simp [follow, s1, s2]) s3
          ((i : Int), 4 * (i : Int) + 2) (5 * i + 2) (5 * k + 6) (tower_sideDist hk' (by omega)) hdist ((i : Int), 4 * (i : Int)) (by simp)
          (fun ds hds => tower_into hk' hds (by simp only; omega))
          (5 * i) (tower_linkDist hk' (by omega)) [.E, .E, .S, .S] ((i : Int) + 2, 4 * (i : Int) + 2) (by simp)
          ⟨by simp [Allowed, unit], by simp [follow, g1, g2, g3, g4]⟩ ?_ .W (by simp [Allowed, unit]) g5 ?_ rfl
        · intro j p h1 h2 h3
          simp only [List.length_cons, List.length_nil] at h2
          have hj : j = 1 ∨ j = 2 ∨ j = 3 ∨ j = 4 := by omega
          rcases hj with rfl | rfl | rfl | rfl <;> simp only [List.take, follow, g1, g2, g3, g4, Option.some.injEq] at h3 <;> subst h3 <;>
            simp only [l1, towerDest] <;> omega
        · simp only [l1, towerDest, List.length_cons, List.length_nil]
          omega
      · have e2 : 4 * ((i + 1 : Nat) : Int) = 4 * i + 4 := by omega
        refine ⟨b, ((i : Int) + 1, 4 * (i : Int) + 3) :: S', by rw [e]; simp, ?_, ?_, fun _ => ?_⟩
        · rw [follow_append, hpre, e2]
          simp [follow, g1, g2, g3, g4, g5, g6, g7]
        · rw [e2]
          push_cast
          exact hb
        · refine List.mem_cons.2 (.inl ?_)
          refine Prod.ext ?_ ?_ <;> simp only <;> omega
  obtain ⟨bs, S, e, -, hbs, hS⟩ := key k (Nat.le_refl _)
  rw [hp, e, towerPath, tower_last hbs (hS hk)]

example : (towerTy 2000).Searchable ∧ Astar.IsSearch (towerTy 2000) (Astar.pathHash (towerTy 2000)) :=
  ⟨PosTy.pos_searchable (by decide) (by decide) (.inl rfl), .inr (.inl rfl)⟩

-- two rooms
example : towerPath 2 = [.E, .E, .S, .S, .W, .S, .S, .E, .E, .S, .S, .W, .S, .S, .W, .S, .S, .E, .E, .N] ∧
    towerShort 2 = [.S, .S, .E, .S, .S, .S, .S, .E, .S, .S, .W, .S, .S, .E, .E, .N] ∧ (towerTy 2).X.MAX = 10 ∧ towerDest 2 = (3, 9) ∧
    (1, 1) ∈ towerWalls 2 ∧ (0, 3) ∈ towerWalls 2 ∧ (1, 3) ∉ towerWalls 2 ∧
    Astar.pathHash (towerTy 2) false (aroundWalls (towerTy 2) (towerWalls 2)) (0, 0) (towerDest 2) 1000 = .ok (.ok (towerPath 2)) ∧
    follow (aroundWalls (towerTy 2) (towerWalls 2)) (0, 0) (towerShort 2) = some (towerDest 2) := by decide +kernel

end Sqrid
