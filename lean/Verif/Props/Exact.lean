import Verif.Spec.Exact
import Verif.Props.Areas
import Verif.Props.Astar
import Verif.Props.Ucs
/-!
# Where one can be after an exact number of steps: C158
-/

namespace Sqrid

-- Statements that do not mention a target are about a debug build for a 64-bit machine.
attribute [local instance] debug64

open Spec

/-- C158. Without diagonals all ways between two positions have an even number of steps, or all have an odd number, like the Manhattan distance, which is never more; with
diagonals a way has at least as many steps as the greater difference of the coordinates. -/
theorem C158_parity (T : PosTy) (go : Int × Int → Dir → Option (Int × Int)) (hgo : Adjacent T go) (p q : Int × Int) (hp : InGrid T p) (ds : List Dir) :
    (IsPath go false p ds q → (ds.length : Int) % 2 = l1 p q % 2 ∧ l1 p q ≤ ds.length) ∧ (IsPath go true p ds q → linf p q ≤ ds.length) := by
  induction ds generalizing p with
  | nil =>
    have key : ∀ D, IsPath go D p [] q → p = q := fun D h => by have := h.2; unfold follow at this; injection this
    constructor
    · intro h
      rw [key _ h]
      unfold l1
      simp
    · intro h
      rw [key _ h]
      unfold linf
      simp
  | cons d ds ih =>
    have key : ∀ D, IsPath go D p (d :: ds) q → Allowed D d ∧ InGrid T (neighbour p d) ∧ IsPath go D (neighbour p d) ds q := by
      intro D h
      obtain ⟨h1, h2⟩ := h
      unfold follow at h2
      cases hg : go p d with
      | none => rw [hg] at h2; cases h2
      | some r =>
        rw [hg] at h2
        obtain ⟨h3, rfl⟩ := hgo p d r hp hg
        exact ⟨h1 d (by simp), h3, fun e he => h1 e (by simp [he]), h2⟩
    constructor
    · intro h
      obtain ⟨h1, h2, h3⟩ := key _ h
      have h4 := (ih _ h2).1 h3
      rw [List.length_cons]
      push_cast
      rcases h1 with h1 | h1
      · cases h1
      · unfold l1 at h4 ⊢
        cases d <;> simp only [unit, neighbour] at h1 h4 ⊢ <;> omega
    · intro h
      obtain ⟨h1, h2, h3⟩ := key _ h
      have h4 := (ih _ h2).2 h3
      rw [List.length_cons]
      push_cast
      unfold linf at h4 ⊢
      cases d <;> simp only [unit, neighbour] at h4 ⊢ <;> omega

/-- C158. Without diagonals the path of an A* search, and that of a uniform-cost search whatever the costs, are longer than that of the breadth-first search by an even number of
steps, if at all. -/
theorem C158_searches [Target] (T : PosTy) (hT : T.Searchable) (bfs) (hbfs : Bf.IsSearch T bfs) (astar) (hastar : Astar.IsSearch T astar) (ucs) (hucs : Ucs.IsSearch T ucs)
    (go : Int × Int → Dir → Option ((Int × Int) × Int)) (hgo : Adjacent T (dropCost go)) (orig dest : Int × Int) (ho : InGrid T orig) (hd : InGrid T dest)
    (fuel : Nat) (short : List Dir) (hs : bfs false (dropCost go) orig (fun p => p == dest) fuel = .ok (.ok (dest, short))) (path : List Dir)
    (h : astar false (dropCost go) orig dest fuel = .ok (.ok path) ∨ ucs false go orig dest fuel = .ok (.ok path)) :
    ∃ k : Nat, path.length = short.length + 2 * k := by
  have h1 := C51_valid_path T hT bfs hbfs false (dropCost go) hgo orig ho _ fuel dest short hs
  have h2 : IsPath (dropCost go) false orig path dest := by
    rcases h with h | h
    · exact C55_valid_path T hT astar hastar false (dropCost go) hgo orig dest ho hd fuel path h
    · exact C61_valid_path T hT ucs hucs false go hgo orig dest ho hd fuel path h
  have h3 := (C52_shortest T hT bfs hbfs false (dropCost go) hgo orig ho _ fuel dest short hs).1.2 path h2
  have h4 := ((C158_parity T _ hgo orig dest ho short).1 h1.2).1
  have h5 := ((C158_parity T _ hgo orig dest ho path).1 h2).1
  exact ⟨(path.length - short.length) / 2, by omega⟩

-- The detour of C58 has ten steps, and eight are enough.
example : Astar.pathHash (PosTy.pos 4 3) false (dropCost (unitCost (aroundWalls (PosTy.pos 4 3) [(2, 3), (1, 0), (1, 2), (3, 1)]))) (4, 0) (1, 3) 1000 =
      .ok (.ok [.S, .S, .W, .W, .N, .W, .W, .S, .S, .E]) ∧
    Bf.pathHash (PosTy.pos 4 3) false (dropCost (unitCost (aroundWalls (PosTy.pos 4 3) [(2, 3), (1, 0), (1, 2), (3, 1)]))) (4, 0) (fun p => p == (1, 3)) 1000 =
      .ok (.ok ((1, 3), [.W, .W, .S, .W, .W, .S, .S, .E])) := by decide +kernel

theorem mem_everyOther (n : Nat) (q : P2) (ls : List (List (P2 × Dir))) (k : Nat) :
    q ∈ everyOther n k ls ↔ ∃ i layer, ls[i]? = some layer ∧ q ∈ layer.map Prod.fst ∧ k + i + 1 ≤ n ∧ (k + i + 1) % 2 = n % 2 := by
  induction ls generalizing k with
  | nil => simp [everyOther]
  | cons l ls ih =>
    rw [everyOther, List.mem_append, ih]
    constructor
    · rintro (h | ⟨i, layer, h1, h2, h3, h4⟩)
      · split at h
        · rename_i hc
          exact ⟨0, l, rfl, h, hc.1, hc.2⟩
        · cases h
      · exact ⟨i + 1, layer, h1, h2, by omega, by rw [← h4]; congr 1; omega⟩
    · rintro ⟨i, layer, h1, h2, h3, h4⟩
      cases i with
      | zero =>
        left
        simp only [List.getElem?_cons_zero, Option.some.injEq] at h1
        subst h1
        rw [if_pos ⟨h3, h4⟩]
        exact h2
      | succ i => exact .inr ⟨i, layer, h1, h2, by omega, by rw [← h4]; congr 1; omega⟩

theorem everyOther_nodup (n : Nat) (ls : List (List (P2 × Dir))) (k : Nat) (h1 : ∀ l ∈ ls, (l.map Prod.fst).Nodup)
    (h2 : ∀ (i j : Nat) (a b : List (P2 × Dir)) (q : P2), ls[i]? = some a → ls[j]? = some b → q ∈ a.map Prod.fst → q ∈ b.map Prod.fst → i = j) : (everyOther n k ls).Nodup := by
  induction ls generalizing k with
  | nil => exact List.nodup_nil
  | cons l ls ih =>
    rw [everyOther]
    refine List.nodup_append.2 ⟨?_, ih (k + 1) (fun x hx => h1 x (by simp [hx])) fun i j a b q ha hb hqa hqb => ?_, ?_⟩
    · split
      · exact h1 l (by simp)
      · exact List.nodup_nil
    · have := h2 (i + 1) (j + 1) a b q ha hb hqa hqb
      omega
    · intro x hx y hy e
      subst e
      split at hx
      · obtain ⟨i, layer, a1, a2, _⟩ := (mem_everyOther n x ls (k + 1)).1 hy
        have := h2 0 (i + 1) l layer x rfl a1 hx a2
        omega
      · cases hx

/-- C158. The program finds, each once, exactly the positions where one can be after `n` steps, if steps can be taken back and there is some step from the origin, which only
matters if `n` is even and not 0. -/
theorem C158_exact [Target] (T : PosTy) (hT : T.IsGrid) (iter) (hiter : Bf.IsIter T iter) (go : Int × Int → Dir → Option (Int × Int)) (hgo : Adjacent T go)
    (free : Int × Int → Prop) (hback : BackAndForth T false go free) (orig : Int × Int) (ho : InGrid T orig) (hfree : free orig) (fuel : Nat)
    (hfuel : cols T * rows T < (fuel : Int)) :
    ∃ ls, iter false go orig fuel = .ok ls ∧ ∀ n, (afterSteps orig ls n).Nodup ∧
      ((n % 2 = 1 ∨ n = 0 ∨ ∃ d q, Allowed false d ∧ go orig d = some q) →
        ∀ q, q ∈ afterSteps orig ls n ↔ ∃ ds, IsPath go false orig ds q ∧ ds.length = n) := by
  have hself : ∀ d, go orig d ≠ some orig := by
    intro d hd
    have := (hgo orig d orig ho hd).2
    exact neighbour_ne orig d this.symm
  obtain ⟨ls, h1, h2, h3⟩ := C49_layers_partial T hT iter hiter false go (fun p d q hp h => (hgo p d q hp h).1) orig ho hself fuel hfuel
  have huniq : ∀ q a b, IsDist go false orig q a → IsDist go false orig q b → a = b := by
    rintro q a b ⟨⟨x, x1, x2⟩, x3⟩ ⟨⟨y, y1, y2⟩, y3⟩
    have := x3 y y1
    have := y3 x x1
    omega
  have hmem : ∀ (i : Nat) l q, ls[i]? = some l → (q ∈ l.map Prod.fst ↔ IsDist go false orig q (i + 1)) := by
    intro i l q hl
    rw [← (h2 i l hl).1 q]
    simp
  have horig : ∀ n, IsDist go false orig orig n → n = 0 := by
    rintro n ⟨-, h⟩
    have := h [] ⟨by simp, rfl⟩
    simpa using this
  refine ⟨ls, h1, fun n => ⟨?_, fun hn q => ?_⟩⟩
  · unfold afterSteps
    refine List.nodup_append.2 ⟨by split <;> simp, everyOther_nodup n ls 0 (fun l hl => ?_) fun i j a b q ha hb hqa hqb => ?_, ?_⟩
    · obtain ⟨i, hi, rfl⟩ := List.mem_iff_getElem.1 hl
      exact (h2 i _ (List.getElem?_eq_getElem hi)).2.1
    · have := huniq q _ _ ((hmem i a q ha).1 hqa) ((hmem j b q hb).1 hqb)
      omega
    · intro x hx y hy e
      subst e
      split at hx
      · rw [List.mem_singleton.1 hx] at hy
        obtain ⟨i, layer, a1, a2, _⟩ := (mem_everyOther n orig ls 0).1 hy
        have := horig _ ((hmem i layer orig a1).1 a2)
        omega
      · cases hx
  · have hpad : ∀ m k, (m = 0 ∨ ∃ d q, Allowed false d ∧ go orig d = some q) → (∃ ds, IsPath go false orig ds q ∧ ds.length = k) →
        ∃ ds, IsPath go false orig ds q ∧ ds.length = k + 2 * m := by
      intro m k hm ⟨ds, a1, a2⟩
      induction m with
      | zero => exact ⟨ds, a1, a2⟩
      | succ m ih =>
        obtain ⟨d, r, b1, b2⟩ := hm.resolve_left (by omega)
        obtain ⟨_, d', b3, b4⟩ := hback orig d r ho hfree b1 b2
        obtain ⟨es, c1, c2⟩ := ih (.inr ⟨d, r, b1, b2⟩)
        refine ⟨d :: d' :: es, ⟨?_, ?_⟩, by simp only [List.length_cons]; omega⟩
        · intro e he
          rcases List.mem_cons.1 he with rfl | he
          · exact b1
          · rcases List.mem_cons.1 he with rfl | he
            · exact b3
            · exact c1.1 e he
        · simp only [follow, b2, b4]
          exact c1.2
    rw [afterSteps, List.mem_append, mem_everyOther]
    constructor
    · rintro (h | ⟨i, layer, a1, a2, a3, a4⟩)
      · split at h
        · rename_i he
          rw [List.mem_singleton.1 h]
          rw [List.mem_singleton.1 h] at hpad
          obtain ⟨ds, b1, b2⟩ := hpad (n / 2) 0 (by
            rcases hn with hn | hn | hn
            · omega
            · left; omega
            · exact .inr hn) ⟨[], ⟨by simp, rfl⟩, rfl⟩
          exact ⟨ds, b1, by omega⟩
        · cases h
      · have hd := (hmem i layer q a1).1 a2
        have hstep : ∃ d q, Allowed false d ∧ go orig d = some q := by
          obtain ⟨⟨ds, b1, b2⟩, _⟩ := hd
          cases ds with
          | nil => simp at b2
          | cons d ds =>
            obtain ⟨b3, b4⟩ := b1
            unfold follow at b4
            cases hg : go orig d with
            | none => rw [hg] at b4; cases b4
            | some r => exact ⟨d, r, b3 d (by simp), hg⟩
        obtain ⟨ds, b1, b2⟩ := hpad ((n - (i + 1)) / 2) (i + 1) (.inr hstep) hd.1
        exact ⟨ds, b1, by omega⟩
    · rintro ⟨ds, a1, a2⟩
      obtain ⟨k, hk⟩ := reachable_iff_isDist.1 ⟨ds, a1⟩
      have hle := hk.2 ds a1
      obtain ⟨es, e1, e2⟩ := hk.1
      have p1 := ((C158_parity T go hgo orig q ho ds).1 a1).1
      have p2 := ((C158_parity T go hgo orig q ho es).1 e1).1
      have hpar : k % 2 = n % 2 := by omega
      cases k with
      | zero =>
        left
        rw [if_pos (by omega)]
        cases es with
        | nil =>
          have := e1.2
          unfold follow at this
          injection this with this
          simp [this]
        | cons _ _ => simp at e2
      | succ k =>
        right
        have hlt : k < ls.length := by
          by_contra hc
          exact h3 k q (by omega) hk
        exact ⟨k, ls[k], List.getElem?_eq_getElem hlt, (hmem k _ q (List.getElem?_eq_getElem hlt)).2 hk, by omega, by omega⟩

-- From the corner of a grid with a wall: where one can be after 0, 1, 4 and 5 steps.
example : (Bf.iterHash false (aroundWalls (PosTy.pos 2 2) [(1, 0), (1, 1)]) (0, 0) 10 >>= fun ls => .ok ([0, 1, 4, 5].map (afterSteps (0, 0) ls))) =
    .ok [[(0, 0)], [(0, 1)], [(0, 0), (0, 2), (2, 2)], [(0, 1), (1, 2), (2, 1)]] := by decide +kernel
example : BackAndForth (PosTy.pos 2 2) false (aroundWalls (PosTy.pos 2 2) [(1, 0), (1, 1)]) (fun p => p ∉ [(1, 0), (1, 1)]) :=
  aroundWalls_backAndForth (PosTy.pos 2 2) false [(1, 0), (1, 1)]
example : ∃ d q, Allowed false d ∧ aroundWalls (PosTy.pos 2 2) [(1, 0), (1, 1)] (0, 0) d = some q := ⟨.S, (0, 1), .inr (by decide), by decide +kernel⟩
-- The condition is needed: where there is no step, one is nowhere after 2 steps.
example : (Bf.iterHash false (aroundWalls (PosTy.pos 0 0) []) (0, 0) 10 >>= fun ls => .ok (afterSteps (0, 0) ls 2)) = .ok [(0, 0)] := by decide +kernel

theorem isPath_step {go : GoFn} {D : Bool} {p q r : P2} {d : Dir} {ds : List Dir} (hd : Allowed D d) (hg : go p d = some r) (h : IsPath go D r ds q) :
    IsPath go D p (d :: ds) q :=
  ⟨fun e he => by rcases List.mem_cons.1 he with rfl | he <;> [exact hd; exact h.1 e he], by simp only [follow, hg]; exact h.2⟩

theorem open_step {T : PosTy} {p r : P2} (hr : InGrid T r) (hne : p ≠ r) (hx : (p.1 - r.1).natAbs ≤ 1) (hy : (p.2 - r.2).natAbs ≤ 1) :
    ∃ d, aroundWalls T [] p d = some r ∧ (l1 p r = 1 → Allowed false d) := by
  obtain ⟨x, y⟩ := p
  obtain ⟨u, v⟩ := r
  have hne' : ¬(x = u ∧ y = v) := fun h => hne (by rw [h.1, h.2])
  simp only at hx hy
  have key : ∃ d, neighbour (x, y) d = (u, v) ∧ (l1 (x, y) (u, v) = 1 → Allowed false d) := by
    have hu : u = x - 1 ∨ u = x ∨ u = x + 1 := by omega
    have hv : v = y - 1 ∨ v = y ∨ v = y + 1 := by omega
    rcases hu with rfl | rfl | rfl <;> rcases hv with rfl | rfl | rfl
    · exact ⟨.NW, by simp [neighbour, unit, Int.sub_eq_add_neg], fun h => by unfold l1 at h; simp only at h; omega⟩
    · exact ⟨.W, by simp [neighbour, unit, Int.sub_eq_add_neg], fun _ => .inr (by decide)⟩
    · exact ⟨.SW, by simp [neighbour, unit, Int.sub_eq_add_neg], fun h => by unfold l1 at h; simp only at h; omega⟩
    · exact ⟨.N, by simp [neighbour, unit, Int.sub_eq_add_neg], fun _ => .inr (by decide)⟩
    · exact absurd ⟨rfl, rfl⟩ hne'
    · exact ⟨.S, by simp [neighbour, unit], fun _ => .inr (by decide)⟩
    · exact ⟨.NE, by simp [neighbour, unit, Int.sub_eq_add_neg], fun h => by unfold l1 at h; simp only at h; omega⟩
    · exact ⟨.E, by simp [neighbour, unit], fun _ => .inr (by decide)⟩
    · exact ⟨.SE, by simp [neighbour, unit], fun h => by unfold l1 at h; simp only at h; omega⟩
  obtain ⟨d, h1, h2⟩ := key
  exact ⟨d, by unfold aroundWalls; rw [h1, if_pos ⟨hr, by simp⟩], h2⟩

theorem open_adjacent (T : PosTy) : Adjacent T (aroundWalls T []) := by
  intro p d q _ h
  unfold aroundWalls at h
  split at h
  · rename_i hc
    injection h with h
    subst h
    exact ⟨hc.1, rfl⟩
  · cases h

/-- C158. Without walls and without diagonals, in a grid with at least two positions, one can be after `n` steps exactly at the positions whose Manhattan distance is at most `n`
and even if `n` is, and odd if `n` is. -/
theorem C158_open (T : PosTy) (hT : 2 ≤ cols T ∨ 2 ≤ rows T) (p q : Int × Int) (hp : InGrid T p) (hq : InGrid T q) (n : Nat) :
    (∃ ds, IsPath (aroundWalls T []) false p ds q ∧ ds.length = n) ↔ l1 p q ≤ n ∧ l1 p q % 2 = (n : Int) % 2 := by
  constructor
  · rintro ⟨ds, h1, rfl⟩
    have := (C158_parity T _ (open_adjacent T) p q hp ds).1 h1
    omega
  · intro h
    induction n generalizing p with
    | zero =>
      have : p = q := by
        unfold l1 at h
        exact Prod.ext (by omega) (by omega)
      exact ⟨[], this ▸ ⟨by simp, rfl⟩, rfl⟩
    | succ n ih =>
      have key : ∃ r, InGrid T r ∧ l1 p r = 1 ∧ l1 r q ≤ n ∧ l1 r q % 2 = (n : Int) % 2 := by
        obtain ⟨x, y⟩ := p
        obtain ⟨u, v⟩ := q
        unfold cols rows at hT
        unfold InGrid l1 at *
        simp only at *

        rcases Int.lt_trichotomy x u with c | c | c
        · exact ⟨(x + 1, y), by simp only; omega, by simp only; omega, by simp only; omega, by simp only; omega⟩
        · rcases Int.lt_trichotomy y v with e | e | e
          · exact ⟨(x, y + 1), by simp only; omega, by simp only; omega, by simp only; omega, by simp only; omega⟩
          · by_cases f : x < T.X.MAX
            · exact ⟨(x + 1, y), by simp only; omega, by simp only; omega, by simp only; omega, by simp only; omega⟩
            · by_cases g : T.X.MIN < x
              · exact ⟨(x - 1, y), by simp only; omega, by simp only; omega, by simp only; omega, by simp only; omega⟩
              · by_cases i : y < T.Y.MAX
                · exact ⟨(x, y + 1), by simp only; omega, by simp only; omega, by simp only; omega, by simp only; omega⟩
                · exact ⟨(x, y - 1), by simp only; omega, by simp only; omega, by simp only; omega, by simp only; omega⟩
          · exact ⟨(x, y - 1), by simp only; omega, by simp only; omega, by simp only; omega, by simp only; omega⟩
        · exact ⟨(x - 1, y), by simp only; omega, by simp only; omega, by simp only; omega, by simp only; omega⟩
      obtain ⟨r, h1, h2, h3, h4⟩ := key
      obtain ⟨ds, a1, a2⟩ := ih r h1 ⟨h3, h4⟩
      obtain ⟨d, b1, b2⟩ := open_step (p := p) h1 (by rintro rfl; unfold l1 at h2; omega) (by unfold l1 at h2; omega) (by unfold l1 at h2; omega)
      exact ⟨d :: ds, isPath_step (b2 h2) b1 a1, by simp [a2]⟩

theorem towards {x0 x1 y0 y1 x y u v n : Int} (hx : x0 < x1) (hy : y0 < y1) (hn : 0 ≤ n) (h1 : x0 ≤ x ∧ x ≤ x1) (h2 : y0 ≤ y ∧ y ≤ y1) (h3 : x0 ≤ u ∧ u ≤ x1)
    (h4 : y0 ≤ v ∧ v ≤ y1) (h5 : x - u ≤ n + 1 ∧ u - x ≤ n + 1) (h6 : y - v ≤ n + 1 ∧ v - y ≤ n + 1) (h7 : ¬(x = u ∧ y = v ∧ n = 0)) :
    ∃ a b, (x0 ≤ a ∧ a ≤ x1) ∧ (y0 ≤ b ∧ b ≤ y1) ∧ ((x - a ≤ 1 ∧ a - x ≤ 1) ∧ (y - b ≤ 1 ∧ b - y ≤ 1)) ∧ ¬(x = a ∧ y = b) ∧
      ((a - u ≤ n ∧ u - a ≤ n) ∧ (b - v ≤ n ∧ v - b ≤ n)) ∧ ¬(a = u ∧ b = v ∧ n = 1) := by
  -- Beside `x` and beside `y`.
  obtain ⟨x', hx', hx''⟩ : ∃ x', (x0 ≤ x' ∧ x' ≤ x1) ∧ (x' = x + 1 ∨ x' = x - 1) := by
    by_cases f : x < x1
    · exact ⟨x + 1, by omega, .inl rfl⟩
    · exact ⟨x - 1, by omega, .inr rfl⟩
  obtain ⟨y', hy', hy''⟩ : ∃ y', (y0 ≤ y' ∧ y' ≤ y1) ∧ (y' = y + 1 ∨ y' = y - 1) := by
    by_cases f : y < y1
    · exact ⟨y + 1, by omega, .inl rfl⟩
    · exact ⟨y - 1, by omega, .inr rfl⟩
  -- Towards `u` and towards `v`.
  obtain ⟨a, ha⟩ : ∃ a, (x < u ∧ a = x + 1) ∨ (x = u ∧ a = x) ∨ (u < x ∧ a = x - 1) := by
    rcases Int.lt_trichotomy x u with c | c | c
    · exact ⟨_, .inl ⟨c, rfl⟩⟩
    · exact ⟨_, .inr (.inl ⟨c, rfl⟩)⟩
    · exact ⟨_, .inr (.inr ⟨c, rfl⟩)⟩
  obtain ⟨b, hb⟩ : ∃ b, (y < v ∧ b = y + 1) ∨ (y = v ∧ b = y) ∨ (v < y ∧ b = y - 1) := by
    rcases Int.lt_trichotomy y v with c | c | c
    · exact ⟨_, .inl ⟨c, rfl⟩⟩
    · exact ⟨_, .inr (.inl ⟨c, rfl⟩)⟩
    · exact ⟨_, .inr (.inr ⟨c, rfl⟩)⟩
  by_cases c1 : x = u ∧ y = v
  · exact ⟨x', y, by omega, by omega, by omega, by omega, by omega, by omega⟩
  · by_cases c2 : n = 1 ∧ a = u ∧ b = v
    · by_cases c3 : x = u
      · exact ⟨x', y, by omega, by omega, by omega, by omega, by omega, by omega⟩
      · by_cases c4 : y = v
        · exact ⟨x, y', by omega, by omega, by omega, by omega, by omega, by omega⟩
        · exact ⟨x, v, by omega, by omega, by omega, by omega, by omega, by omega⟩
    · exact ⟨a, b, by omega, by omega, by omega, by omega, by omega, by omega⟩

/-- C158. Without walls and with diagonals, in a grid with at least two columns and two lines, one can be after `n` steps exactly at the positions whose Chebyshev distance is at
most `n`, except where one was after a single step. -/
theorem C158_open_diagonals (T : PosTy) (hc : 2 ≤ cols T) (hr : 2 ≤ rows T) (p q : Int × Int) (hp : InGrid T p) (hq : InGrid T q) (n : Nat) :
    (∃ ds, IsPath (aroundWalls T []) true p ds q ∧ ds.length = n) ↔ linf p q ≤ n ∧ ¬(p = q ∧ n = 1) := by
  constructor
  · rintro ⟨ds, h1, rfl⟩
    refine ⟨(C158_parity T _ (open_adjacent T) p q hp ds).2 h1, ?_⟩
    rintro ⟨rfl, h2⟩
    obtain ⟨d, rfl⟩ := List.length_eq_one_iff.1 h2
    have h3 := h1.2
    unfold follow at h3
    cases hg : aroundWalls T [] p d with
    | none => rw [hg] at h3; cases h3
    | some r =>
      rw [hg] at h3
      have h4 := (open_adjacent T p d r hp hg).2
      unfold follow at h3
      injection h3 with h3
      exact neighbour_ne p d (by rw [← h4]; exact h3)
  · rintro ⟨h, hne⟩
    induction n generalizing p with
    | zero =>
      have : p = q := by
        unfold linf at h
        exact Prod.ext (by omega) (by omega)
      exact ⟨[], this ▸ ⟨by simp, rfl⟩, rfl⟩
    | succ n ih =>
      have key : ∃ r, InGrid T r ∧ linf p r = 1 ∧ linf r q ≤ n ∧ ¬(linf r q = 0 ∧ n = 1) := by
        have hne' : ¬(linf p q = 0 ∧ n = 0) := by
          rintro ⟨h1, h2⟩
          refine hne ⟨?_, by omega⟩
          unfold linf at h1
          exact Prod.ext (by omega) (by omega)
        clear hne ih
        unfold cols at hc
        unfold rows at hr
        unfold linf at h hne'
        obtain ⟨a, b, k1, k2, k3, k4, k5, k6⟩ := towards (x := p.1) (y := p.2) (u := q.1) (v := q.2) (n := (n : Int)) (show T.X.MIN < T.X.MAX by omega)
          (show T.Y.MIN < T.Y.MAX by omega) (by omega) hp.1 hp.2 hq.1 hq.2 (by omega) (by omega) (by omega)
        refine ⟨(a, b), ⟨k1, k2⟩, ?_, ?_, ?_⟩ <;> unfold linf <;> simp only <;> omega
      obtain ⟨r, h1, h2, h3, h4⟩ := key
      obtain ⟨ds, a1, a2⟩ := ih r h1 h3 (by rintro ⟨rfl, h5⟩; exact h4 ⟨by unfold linf; simp, h5⟩)
      obtain ⟨d, b1, -⟩ := open_step (p := p) h1 (by rintro rfl; unfold linf at h2; simp at h2) (by unfold linf at h2; omega) (by unfold linf at h2; omega)
      exact ⟨d :: ds, isPath_step (.inl rfl) b1 a1, by simp [a2]⟩

-- With diagonals the parity does not matter, but it takes 2 steps to come back.
example : IsPath (aroundWalls (PosTy.pos 1 1) []) true (0, 0) [.E] (1, 0) ∧ IsPath (aroundWalls (PosTy.pos 1 1) []) true (0, 0) [.S, .NE] (1, 0) :=
  ⟨⟨fun _ _ => .inl rfl, by decide +kernel⟩, ⟨fun _ _ => .inl rfl, by decide +kernel⟩⟩
example : 2 ≤ cols (PosTy.pos 1 1) ∧ 2 ≤ rows (PosTy.pos 1 1) ∧ InGrid (PosTy.pos 1 1) (1, 0) := by unfold InGrid; decide

end Sqrid
