import Verif.Spec.Count
import Verif.Props.SearchLaws
import Verif.Props.Exact
import Mathlib.Data.Nat.Choose.Basic
/-!
# How many shortest paths there are: C161
-/

namespace Sqrid

-- Statements that do not mention a target are about a debug build for a 64-bit machine.
attribute [local instance] debug64

open Spec

theorem numPaths_step {go : GoFn} {D : Bool} {orig q : P2} {k : Nat} {before : List (P2 × Nat)} (hnd : (before.map Prod.fst).Nodup)
    (hall : ∀ p, p ∈ before.map Prod.fst ↔ IsDist go D orig p k) (hnum : ∀ p c, (p, c) ∈ before → NumPaths go D orig p k c) (hq : IsDist go D orig q (k + 1)) :
    NumPaths go D orig q (k + 1) (before.map fun (p, n) => ((clockwise D).filter fun d => go p d = some q).length * n).sum := by
  have hex : ∀ p, ∃ l : List (List Dir), p ∈ before.map Prod.fst → l.Nodup ∧ (∀ ds, ds ∈ l ↔ IsPath go D orig ds p ∧ ds.length = k) ∧ ∀ c, (p, c) ∈ before → l.length = c := by
    intro p
    by_cases hp : p ∈ before.map Prod.fst
    · obtain ⟨⟨p', c⟩, h1, h2⟩ := List.mem_map.1 hp
      have h2 : p' = p := h2
      subst h2
      obtain ⟨l, h3, h4, h5⟩ := hnum p' c h1
      refine ⟨l, fun _ => ⟨h3, h4, fun c' hc' => ?_⟩⟩
      have := List.inj_on_of_nodup_map hnd h1 hc' rfl
      injection this with _ this
      rw [h5, this]
    · exact ⟨[], fun h => absurd h hp⟩
  choose L hL using hex
  refine ⟨before.flatMap fun e => ((clockwise D).filter fun d => go e.1 d = some q).flatMap fun d => (L e.1).map (· ++ [d]), ?_, fun ds => ?_, ?_⟩
  · refine List.nodup_flatMap.2 ⟨fun e he => List.nodup_flatMap.2 ⟨fun d _ => ?_, ?_⟩, ?_⟩
    · exact (hL e.1 (List.mem_map_of_mem he)).1.map fun a b hab => List.append_cancel_right hab
    · refine (List.Nodup.filter _ (by cases D <;> decide)).imp fun {d d'} hdd' => ?_
      intro ds h1 h2
      obtain ⟨a, _, rfl⟩ := List.mem_map.1 h1
      obtain ⟨b, _, hb⟩ := List.mem_map.1 h2
      have := (List.append_inj' hb rfl).2
      injection this with this
      exact hdd' this.symm
    · refine List.Pairwise.imp_of_mem (fun {e e'} he he' hee' => ?_) (List.pairwise_map.1 hnd)
      intro ds h1 h2
      obtain ⟨d, _, h3⟩ := List.mem_flatMap.1 h1
      obtain ⟨d', _, h4⟩ := List.mem_flatMap.1 h2
      obtain ⟨a, ha, rfl⟩ := List.mem_map.1 h3
      obtain ⟨b, hb, hab⟩ := List.mem_map.1 h4
      have := (List.append_inj' hab rfl).1
      subst this
      have h5 := (((hL e.1 (List.mem_map_of_mem he)).2.1 b).1 ha).1.2
      have h6 := (((hL e'.1 (List.mem_map_of_mem he')).2.1 b).1 hb).1.2
      rw [h5] at h6
      injection h6 with h6
      exact hee' h6
  · rw [List.mem_flatMap]
    constructor
    · rintro ⟨e, he, h1⟩
      obtain ⟨d, hd, h2⟩ := List.mem_flatMap.1 h1
      obtain ⟨a, ha, rfl⟩ := List.mem_map.1 h2
      obtain ⟨h3, h4⟩ := List.mem_filter.1 hd
      obtain ⟨h5, h6⟩ := ((hL e.1 (List.mem_map_of_mem he)).2.1 a).1 ha
      refine ⟨isPath_append h5 ⟨?_, ?_⟩, by simp [h6]⟩
      · intro d' hd'
        rw [List.mem_singleton.1 hd']
        exact mem_clockwise.1 h3
      · simp only [follow, of_decide_eq_true h4]
    · rintro ⟨h1, h2⟩
      obtain ⟨a, d, rfl⟩ : ∃ a d, ds = a ++ [d] := by
        rcases List.eq_nil_or_concat ds with rfl | ⟨a, d, rfl⟩
        · cases h2
        · exact ⟨a, d, by simp⟩
      rw [List.length_append, List.length_singleton] at h2
      obtain ⟨p, h3, h4⟩ := isPath_split h1
      have hg : go p d = some q := by
        have := h4.2
        unfold follow at this
        cases hg : go p d with
        | none => rw [hg] at this; cases this
        | some r =>
          rw [hg] at this
          exact this
      have hp : IsDist go D orig p k := by
        refine ⟨⟨a, h3, by omega⟩, fun es hes => ?_⟩
        have := hq.2 _ (isPath_append hes h4)
        rw [List.length_append, List.length_singleton] at this
        omega
      have hmem := (hall p).2 hp
      obtain ⟨e, he, rfl⟩ := List.mem_map.1 hmem
      exact ⟨e, he, List.mem_flatMap.2 ⟨d, List.mem_filter.2 ⟨mem_clockwise.2 (h4.1 d (by simp)), decide_eq_true hg⟩,
        List.mem_map.2 ⟨a, ((hL e.1 hmem).2.1 a).2 ⟨h3, by omega⟩, rfl⟩⟩⟩
  · rw [List.length_flatMap]
    congr 1
    refine List.map_congr_left fun e he => ?_
    rw [List.length_flatMap]
    have := (hL e.1 (List.mem_map_of_mem he)).2.2 e.2 he
    simp [this]

theorem countWays_spec {go : GoFn} {D : Bool} {orig : P2} (ls : List (List (P2 × Dir))) (k : Nat) (before : List (P2 × Nat)) (hnd : (before.map Prod.fst).Nodup)
    (hall : ∀ p, p ∈ before.map Prod.fst ↔ IsDist go D orig p k) (hnum : ∀ p c, (p, c) ∈ before → NumPaths go D orig p k c)
    (hls : ∀ i l, ls[i]? = some l → (∀ q, q ∈ l.map Prod.fst ↔ IsDist go D orig q (k + i + 1)) ∧ (l.map Prod.fst).Nodup) (i : Nat) :
    (∀ l, (countWays D go before ls)[i]? = some l → ∀ q c, (q, c) ∈ l → NumPaths go D orig q (k + i + 1) c) ∧
    ∀ l, ls[i]? = some l → ∃ l', (countWays D go before ls)[i]? = some l' ∧ l'.map Prod.fst = l.map Prod.fst := by
  induction ls generalizing k before i with
  | nil => simp [countWays]
  | cons l ls ih =>
    have hfst : (countLayer D go before l).map Prod.fst = l.map Prod.fst := by
      unfold countLayer
      rw [List.map_map]
      rfl
    obtain ⟨h1, h2⟩ := hls 0 l rfl
    have hnum' : ∀ q c, (q, c) ∈ countLayer D go before l → NumPaths go D orig q (k + 1) c := by
      intro q c hqc
      unfold countLayer at hqc
      obtain ⟨⟨q', d⟩, h3, h4⟩ := List.mem_map.1 hqc
      injection h4 with h4 h5
      subst h4
      rw [← h5]
      exact numPaths_step hnd hall hnum ((h1 q').1 (List.mem_map.2 ⟨_, h3, rfl⟩))
    cases i with
    | zero =>
      rw [countWays]
      refine ⟨fun l' hl' q c hqc => ?_, fun l' hl' => ⟨_, rfl, ?_⟩⟩
      · simp only [List.getElem?_cons_zero, Option.some.injEq] at hl'
        subst hl'
        exact hnum' q c hqc
      · simp only [List.getElem?_cons_zero, Option.some.injEq] at hl'
        rw [hfst, hl']
    | succ i =>
      rw [countWays]
      simp only [List.getElem?_cons_succ]
      have := ih (k + 1) (countLayer D go before l) (by rw [hfst]; exact h2) (fun p => by rw [hfst]; exact h1 p) hnum' (fun j l' hl' => by
        have := hls (j + 1) l' hl'
        rwa [show k + (j + 1) + 1 = k + 1 + j + 1 by omega] at this) i
      rwa [show k + 1 + i + 1 = k + (i + 1) + 1 by omega] at this

/-- C161. The program finds for each position that can be reached, other than the origin, how many shortest paths lead there. -/
theorem C161_count [Target] (T : PosTy) (hT : T.IsGrid) (iter) (hiter : Bf.IsIter T iter) (D : Bool) (go : Int × Int → Dir → Option (Int × Int)) (hgo : Adjacent T go)
    (orig : Int × Int) (ho : InGrid T orig) (fuel : Nat) (hfuel : cols T * rows T < (fuel : Int)) :
    ∃ ls, iter D go orig fuel = .ok ls ∧
      (∀ n q, IsDist go D orig q (n + 1) ↔ ∃ layer c, (countWays D go [(orig, 1)] ls)[n]? = some layer ∧ (q, c) ∈ layer) ∧
      ∀ n layer q c, (countWays D go [(orig, 1)] ls)[n]? = some layer → (q, c) ∈ layer → NumPaths go D orig q (n + 1) c := by
  have hself : ∀ d, go orig d ≠ some orig := by
    intro d hd
    have := (hgo orig d orig ho hd).2
    exact neighbour_ne orig d this.symm
  obtain ⟨ls, h1, h2, h3⟩ := C49_layers_partial T hT iter hiter D go (fun p d q hp h => (hgo p d q hp h).1) orig ho hself fuel hfuel
  have hmem : ∀ (i : Nat) l q, ls[i]? = some l → (q ∈ l.map Prod.fst ↔ IsDist go D orig q (i + 1)) := by
    intro i l q hl
    rw [← (h2 i l hl).1 q]
    simp
  have key := countWays_spec (go := go) (D := D) (orig := orig) ls 0 [(orig, 1)] (by simp) (fun p => by simp [isDist_zero]) (fun p c hpc => by
    simp only [List.mem_singleton, Prod.mk.injEq] at hpc
    obtain ⟨rfl, rfl⟩ := hpc
    refine ⟨[[]], by simp, fun ds => ?_, rfl⟩
    simp only [List.mem_singleton, List.length_eq_zero_iff]
    exact ⟨fun h => ⟨h ▸ isPath_nil, h⟩, fun h => h.2⟩) (fun i l hl => by
    rw [Nat.zero_add]
    exact ⟨fun q => hmem i l q hl, (h2 i l hl).2.1⟩)
  have hlen : (countWays D go [(orig, 1)] ls).length = ls.length := by
    generalize [(orig, 1)] = before
    clear key hmem h1 h2 h3
    induction ls generalizing before with
    | nil => rfl
    | cons l ls ih => rw [countWays, List.length_cons, ih, List.length_cons]
  refine ⟨ls, h1, fun n q => ⟨fun hq => ?_, ?_⟩, fun n layer q c hl hqc => ?_⟩
  · have hlt : n < ls.length := by
      by_contra hc
      exact h3 n q (by omega) hq
    obtain ⟨l', h4, h5⟩ := (key n).2 ls[n] (List.getElem?_eq_getElem hlt)
    have := (hmem n _ q (List.getElem?_eq_getElem hlt)).2 hq
    rw [← h5] at this
    obtain ⟨⟨q', c⟩, h6, h7⟩ := List.mem_map.1 this
    have h7 : q' = q := h7
    exact ⟨l', c, h4, h7 ▸ h6⟩
  · rintro ⟨layer, c, h4, h5⟩
    have hlt : n < ls.length := by
      rw [← hlen]
      exact (List.getElem?_eq_some_iff.1 h4).1
    obtain ⟨l', h6, h7⟩ := (key n).2 ls[n] (List.getElem?_eq_getElem hlt)
    rw [h4] at h6
    injection h6 with h6
    subst h6
    refine (hmem n _ q (List.getElem?_eq_getElem hlt)).1 ?_
    rw [← h7]
    exact List.mem_map.2 ⟨_, h5, rfl⟩
  · have := (key n).1 layer hl q c hqc
    rwa [Nat.zero_add] at this

/-- C161. There is only one such number. -/
theorem C161_unique (go : Int × Int → Dir → Option (Int × Int)) (D : Bool) (p q : Int × Int) (n c c' : Nat) (h : NumPaths go D p q n c) (h' : NumPaths go D p q n c') : c = c' := by
  obtain ⟨l, h1, h2, rfl⟩ := h
  obtain ⟨l', h3, h4, rfl⟩ := h'
  exact ((List.perm_ext_iff_of_nodup h1 h3).2 fun ds => by rw [h2, h4]).length_eq

-- From the corner of a grid, and around a wall, with and without diagonals.
example : (Bf.iterHash false (aroundWalls (PosTy.pos 2 2) []) (0, 0) 10 >>= fun ls => .ok ((countWays false (aroundWalls (PosTy.pos 2 2) []) [((0, 0), 1)] ls).getLast?)) =
    .ok (some [((2, 2), 6)]) := by decide +kernel
example : (Bf.iterHash false (aroundWalls (PosTy.pos 2 2) [(1, 1)]) (0, 0) 10 >>= fun ls => .ok ((countWays false (aroundWalls (PosTy.pos 2 2) [(1, 1)]) [((0, 0), 1)] ls).getLast?)) =
    .ok (some [((2, 2), 2)]) := by decide +kernel
example : (Bf.iterHash true (aroundWalls (PosTy.pos 2 2) []) (0, 0) 10 >>= fun ls => .ok ((countWays true (aroundWalls (PosTy.pos 2 2) []) [((0, 0), 1)] ls)[1]?.map fun l => l.filter fun e => e.1.2 = 0)) =
    .ok (some [((2, 0), 2)]) := by decide +kernel

theorem numPaths_first {go : GoFn} {D : Bool} {p q : P2} {n : Nat} (F : Dir → Nat) (h : ∀ d ∈ clockwise D, (go p d = none ∧ F d = 0) ∨ ∃ r, go p d = some r ∧ NumPaths go D r q n (F d)) :
    NumPaths go D p q (n + 1) ((clockwise D).map F).sum := by
  have hex : ∀ d, ∃ l : List (List Dir), d ∈ clockwise D → l.Nodup ∧ (∀ ds, ds ∈ l ↔ IsPath go D p (d :: ds) q ∧ ds.length = n) ∧ l.length = F d := by
    intro d
    by_cases hd : d ∈ clockwise D
    · rcases h d hd with ⟨h1, h2⟩ | ⟨r, h1, l, h2, h3, h4⟩
      · refine ⟨[], fun _ => ⟨List.nodup_nil, fun ds => ⟨fun h => (by cases h), fun h => ?_⟩, h2.symm⟩⟩
        have := h.1.2
        unfold follow at this
        rw [h1] at this
        cases this
      · refine ⟨l, fun _ => ⟨h2, fun ds => ?_, h4⟩⟩
        rw [h3]
        refine and_congr_left fun _ => ⟨fun h => isPath_step (mem_clockwise.1 hd) h1 h, fun h => ⟨fun e he => h.1 e (by simp [he]), ?_⟩⟩
        have := h.2
        unfold follow at this
        rw [h1] at this
        exact this
    · exact ⟨[], fun h => absurd h hd⟩
  choose L hL using hex
  refine ⟨(clockwise D).flatMap fun d => (L d).map (d :: ·), ?_, fun ds => ?_, ?_⟩
  · refine List.nodup_flatMap.2 ⟨fun d hd => (hL d hd).1.map fun a b hab => List.tail_eq_of_cons_eq hab, ?_⟩
    refine List.Pairwise.imp (fun {d d'} hdd' => ?_) (show (clockwise D).Nodup by cases D <;> decide)
    intro ds h1 h2
    obtain ⟨a, _, rfl⟩ := List.mem_map.1 h1
    obtain ⟨b, _, hb⟩ := List.mem_map.1 h2
    injection hb with hb
    exact hdd' hb.symm
  · rw [List.mem_flatMap]
    constructor
    · rintro ⟨d, hd, h1⟩
      obtain ⟨a, ha, rfl⟩ := List.mem_map.1 h1
      have := ((hL d hd).2.1 a).1 ha
      exact ⟨this.1, by rw [List.length_cons, this.2]⟩
    · rintro ⟨h1, h2⟩
      cases ds with
      | nil => cases h2
      | cons d ds =>
        have hd := mem_clockwise.2 (h1.1 d (by simp))
        exact ⟨d, hd, List.mem_map.2 ⟨ds, ((hL d hd).2.1 ds).2 ⟨h1, by simpa using h2⟩, rfl⟩⟩
  · rw [List.length_flatMap]
    congr 1
    refine List.map_congr_left fun d hd => ?_
    rw [List.length_map, (hL d hd).2.2]

/-- C161. Without walls and without diagonals the number of shortest paths is a binomial coefficient: which of the steps go sideways. -/
theorem C161_open (T : PosTy) (p q : Int × Int) (hp : InGrid T p) (hq : InGrid T q) :
    NumPaths (aroundWalls T []) false p q ((p.1 - q.1).natAbs + (p.2 - q.2).natAbs) (((p.1 - q.1).natAbs + (p.2 - q.2).natAbs).choose (p.1 - q.1).natAbs) := by
  obtain ⟨n, hn⟩ : ∃ n, (p.1 - q.1).natAbs + (p.2 - q.2).natAbs = n := ⟨_, rfl⟩
  rw [hn]
  induction n generalizing p with
  | zero =>
    have : p = q := Prod.ext (by omega) (by omega)
    subst this
    refine ⟨[[]], by simp, fun ds => ?_, by simp⟩
    simp only [List.mem_singleton, List.length_eq_zero_iff]
    exact ⟨fun h => ⟨h ▸ isPath_nil, h⟩, fun h => h.2⟩
  | succ n ih =>
    have hfar : ∀ r, InGrid T r → (n : Int) < l1 r q → NumPaths (aroundWalls T []) false r q n 0 := by
      intro r hr hl
      refine ⟨[], List.nodup_nil, fun ds => ⟨fun h => (by cases h), fun ⟨h1, h2⟩ => ?_⟩, rfl⟩
      have := ((C158_parity T _ (open_adjacent T) r q hr ds).1 h1).2
      omega
    have hstep : ∀ d ∈ clockwise false, (aroundWalls T [] p d = none ∧ (if l1 (neighbour p d) q = n then n.choose ((neighbour p d).1 - q.1).natAbs else 0) = 0) ∨
        ∃ r, aroundWalls T [] p d = some r ∧ NumPaths (aroundWalls T []) false r q n (if l1 (neighbour p d) q = n then n.choose ((neighbour p d).1 - q.1).natAbs else 0) := by
      intro d hd
      have hgrid : l1 (neighbour p d) q = n → InGrid T (neighbour p d) := by
        intro h
        unfold InGrid at *
        unfold l1 at h
        cases d <;> simp only [neighbour, unit] at h ⊢ <;> omega
      have hpar : l1 (neighbour p d) q ≠ n → (n : Int) < l1 (neighbour p d) q := by
        intro h
        unfold l1 at h ⊢
        cases d <;> simp only [neighbour, unit] at h ⊢ <;> first | omega | (exact absurd hd (by decide))
      by_cases hin : InGrid T (neighbour p d)
      · refine .inr ⟨neighbour p d, if_pos ⟨hin, by simp⟩, ?_⟩
        by_cases hl : l1 (neighbour p d) q = n
        · rw [if_pos hl]
          exact ih _ hin (by unfold l1 at hl; omega)
        · rw [if_neg hl]
          exact hfar _ hin (hpar hl)
      · refine .inl ⟨if_neg fun h => hin h.1, if_neg fun h => hin (hgrid h)⟩
    have := numPaths_first _ hstep
    convert this using 1
    obtain ⟨x, y⟩ := p
    obtain ⟨u, v⟩ := q
    simp only [clockwise, Bool.false_eq_true, if_false, List.map_cons, List.map_nil, List.sum_cons, List.sum_nil, neighbour, unit, l1, Int.add_zero] at hn ⊢
    clear this hstep hfar ih hp hq
    by_cases hx : x = u
    · subst hx
      have h0 : (x - x).natAbs = 0 := by omega
      rw [h0, Nat.choose_zero_right, Nat.choose_zero_right]
      split_ifs <;> omega
    · obtain ⟨a, ha⟩ : ∃ a, (x - u).natAbs = a + 1 := ⟨(x - u).natAbs - 1, by omega⟩
      rw [ha, Nat.choose_succ_succ]
      have hside : (if ((x + 1 - u).natAbs : Int) + ((y - v).natAbs : Int) = n then n.choose (x + 1 - u).natAbs else 0) +
          (if ((x + -1 - u).natAbs : Int) + ((y - v).natAbs : Int) = n then n.choose (x + -1 - u).natAbs else 0) = n.choose a := by
        rcases Int.lt_or_gt_of_ne hx with h | h
        · rw [if_pos (by omega), if_neg (by omega), show (x + 1 - u).natAbs = a by omega, Nat.add_zero]
        · rw [if_neg (by omega), if_pos (by omega), show (x + -1 - u).natAbs = a by omega, Nat.zero_add]
      have hup : (if ((a + 1 : Nat) : Int) + ((y + -1 - v).natAbs : Int) = n then n.choose (a + 1) else 0) +
          (if ((a + 1 : Nat) : Int) + ((y + 1 - v).natAbs : Int) = n then n.choose (a + 1) else 0) = n.choose (a + 1) := by
        rcases Int.lt_trichotomy y v with h | h | h
        · rw [if_neg (by omega), if_pos (by omega), Nat.zero_add]
        · rw [if_neg (by omega), if_neg (by omega), Nat.choose_eq_zero_of_lt (by omega)]
        · rw [if_pos (by omega), if_neg (by omega), Nat.add_zero]
      refine (congrArg₂ (· + ·) hside hup).symm.trans ?_
      omega

-- Ten shortest paths to three columns and two lines further on.
example : InGrid (PosTy.pos 4 4) (1, 0) ∧ InGrid (PosTy.pos 4 4) (4, 2) ∧ (3 + 2 : Nat).choose 3 = 10 := by unfold InGrid; decide

end Sqrid
