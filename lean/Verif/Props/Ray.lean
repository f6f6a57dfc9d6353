import Verif.Spec.Ray
import Verif.Props.Around
import Verif.Props.Grid
/-!
# Looking along a direction: C165
-/

namespace Sqrid

-- Statements that do not mention a target are about a debug build for a 64-bit machine.
attribute [local instance] debug64

open Spec

theorem along_zero (p : P2) (d : Dir) : along p d 0 = p := by simp [along]

theorem along_succ (p : P2) (d : Dir) (k : Nat) : along p d (k + 1) = along (neighbour p d) d k := by
  unfold along neighbour
  cases d <;> simp [unit] <;> omega

/-- The grid has no gaps. -/
theorem along_inGrid {T : PosTy} {p : P2} {d : Dir} {k : Nat} (hp : InGrid T p) (hk : InGrid T (along p d (k + 1))) : InGrid T (neighbour p d) := by
  obtain ⟨⟨a1, a2⟩, a3, a4⟩ := hp
  obtain ⟨⟨b1, b2⟩, b3, b4⟩ := hk
  cases d <;> simp only [along, unit, neighbour] at b1 b2 b3 b4 ⊢ <;> refine ⟨⟨?_, ?_⟩, ?_, ?_⟩ <;> simp only <;> omega

theorem along_bound {T : PosTy} {p : P2} {d : Dir} {k : Nat} (hp : InGrid T p) (hk : InGrid T (along p d k)) : (k : Int) < cols T ∨ (k : Int) < rows T := by
  obtain ⟨⟨a1, a2⟩, a3, a4⟩ := hp
  obtain ⟨⟨b1, b2⟩, b3, b4⟩ := hk
  unfold cols rows
  cases d <;> simp only [along, unit] at b1 b2 b3 b4 <;> omega

theorem addDir_cases {T : PosTy} (hT : T.WF) {p : P2} (hp : InGrid T p) (d : Dir) :
    (T.addDir p d = .ok (neighbour p d) ∧ InGrid T (neighbour p d)) ∨ (∃ e, T.addDir p d = .error e) ∧ ¬ InGrid T (neighbour p d) := by
  have h := addDirOk_iff hT hp d
  cases he : T.addDir p d with
  | ok q =>
    have h1 : T.addDirOk p d = some q := by unfold PosTy.addDirOk; rw [he]; rfl
    obtain ⟨h2, rfl⟩ := (h q).1 h1
    exact .inl ⟨rfl, h2⟩
  | error e =>
    refine .inr ⟨⟨e, rfl⟩, fun h2 => ?_⟩
    have h1 := (h _).2 ⟨h2, rfl⟩
    unfold PosTy.addDirOk at h1
    rw [he] at h1
    cases h1

theorem ray_spec {T : PosTy} (hT : T.WF) (d : Dir) (fuel : Nat) (p : P2) (hp : InGrid T p) (hfuel : ∀ k, InGrid T (along p d k) → k < fuel) :
    ∃ l, ray T d fuel p = .ok l ∧ l = (List.range l.length).map (along p d) ∧ ∀ k : Nat, InGrid T (along p d k) ↔ k < l.length := by
  induction fuel generalizing p with
  | zero => exact absurd (hfuel 0 (by rw [along_zero]; exact hp)) (by omega)
  | succ fuel ih =>
    rcases addDir_cases hT hp d with ⟨h1, h2⟩ | ⟨⟨e, h1⟩, h2⟩
    · obtain ⟨l, h3, h4, h5⟩ := ih _ h2 fun k hk => by
        rw [← along_succ] at hk
        have := hfuel _ hk
        omega
      refine ⟨p :: l, by simp only [ray, h1, h3, Out.ok_bind], ?_, fun k => ?_⟩
      · rw [List.length_cons, List.range_succ_eq_map, List.map_cons, List.map_map, along_zero]
        congr 1
        rw [h4]
        simp only [List.length_map, List.length_range]
        exact List.map_congr_left fun k _ => (along_succ p d k).symm
      · cases k with
        | zero => rw [along_zero]; simp [hp]
        | succ k => rw [along_succ, h5, List.length_cons]; omega
    · refine ⟨[p], by simp only [ray, h1], by simp [along_zero], fun k => ?_⟩
      cases k with
      | zero => rw [along_zero]; simp [hp]
      | succ k =>
        refine ⟨fun h => absurd (along_inGrid hp h) h2, fun h => ?_⟩
        simp at h

/-- C165. Adding a direction again and again, as long as that is possible, yields the positions in that direction, in order, and all of them that are in the grid. -/
theorem C165_ray (T : PosTy) (hT : T.WF) (d : Dir) (p : Int × Int) (hp : InGrid T p) (fuel : Nat) (hfuel : max (cols T) (rows T) ≤ (fuel : Int)) :
    ∃ l, ray T d fuel p = .ok l ∧ l = (List.range l.length).map (along p d) ∧ ∀ k : Nat, InGrid T (along p d k) ↔ k < l.length :=
  ray_spec hT d fuel p hp fun k hk => by
    have := along_bound hp hk
    omega

theorem mem_ray {T : PosTy} {p q : P2} {d : Dir} {l : List P2} (h1 : l = (List.range l.length).map (along p d)) (h2 : ∀ k : Nat, InGrid T (along p d k) ↔ k < l.length) :
    q ∈ l ↔ InGrid T q ∧ ∃ k, q = along p d k := by
  constructor
  · intro h
    rw [h1, List.mem_map] at h
    obtain ⟨k, hk, rfl⟩ := h
    exact ⟨(h2 k).2 (List.mem_range.1 hk), k, rfl⟩
  · rintro ⟨h, k, rfl⟩
    rw [h1, List.mem_map]
    exact ⟨k, List.mem_range.2 ((h2 k).1 h), rfl⟩

theorem along_back {p q : P2} {d : Dir} {k : Nat} : q = along p d k ↔ p = along q (opposite d) k := by
  obtain ⟨x, y⟩ := p
  obtain ⟨x', y'⟩ := q
  unfold along
  cases d <;> simp only [opposite, unit, Prod.mk.injEq] <;> omega

/-- C165. One position is seen from another in a direction if and only if that is seen from it in the opposite direction. -/
theorem C165_back (T : PosTy) (hT : T.WF) (d d' : Dir) (hd : d.flip = .ok d') (p q : Int × Int) (hp : InGrid T p) (hq : InGrid T q) (fuel : Nat)
    (hfuel : max (cols T) (rows T) ≤ (fuel : Int)) :
    ∃ l l', ray T d fuel p = .ok l ∧ ray T d' fuel q = .ok l' ∧ (q ∈ l ↔ p ∈ l') := by
  obtain ⟨l, a1, a2, a3⟩ := C165_ray T hT d p hp fuel hfuel
  obtain ⟨l', b1, b2, b3⟩ := C165_ray T hT d' q hq fuel hfuel
  have e : d' = opposite d := by cases d <;> cases d' <;> first | rfl | (cases hd)
  refine ⟨l, l', a1, b1, ?_⟩
  rw [mem_ray a2 a3, mem_ray b2 b3, e]
  exact ⟨fun ⟨_, k, h⟩ => ⟨hp, k, along_back.1 h⟩, fun ⟨_, k, h⟩ => ⟨hq, k, along_back.2 h⟩⟩

theorem keepIf_spec {α : Type} (f : α → Out Bool) (P : α → Prop) (as : List α) (h : ∀ a ∈ as, ∃ b, f a = .ok b ∧ (b = true ↔ P a)) :
    ∃ l, keepIf f as = .ok l ∧ l.Sublist as ∧ ∀ a, a ∈ l ↔ a ∈ as ∧ P a := by
  induction as with
  | nil => exact ⟨[], rfl, .slnil, by simp⟩
  | cons a as ih =>
    obtain ⟨l, h1, h2, h3⟩ := ih fun a' ha' => h a' (List.mem_cons_of_mem _ ha')
    obtain ⟨b, h4, h5⟩ := h a List.mem_cons_self
    refine ⟨if b then a :: l else l, by simp only [keepIf, h4, h1, Out.ok_bind], ?_, fun a' => ?_⟩
    · split
      · exact h2.cons_cons _
      · exact h2.cons _
    · cases b with
      | true =>
        simp only [if_true, List.mem_cons, h3]
        constructor
        · rintro (rfl | ⟨h6, h7⟩)
          · exact ⟨.inl rfl, h5.1 rfl⟩
          · exact ⟨.inr h6, h7⟩
        · rintro ⟨rfl | h6, h7⟩
          · exact .inl rfl
          · exact .inr ⟨h6, h7⟩
      | false =>
        simp only [Bool.false_eq_true, if_false, List.mem_cons, h3]
        constructor
        · exact fun h => ⟨.inr h.1, h.2⟩
        · rintro ⟨rfl | h6, h7⟩
          · exact absurd (h5.2 h7) (by simp)
          · exact ⟨h6, h7⟩

theorem mapM_get {α : Type} {f : P2 → Out α} {v : P2 → α} (l : List P2) (h : ∀ p ∈ l, f p = .ok (v p)) : l.mapM f = .ok (l.map v) := by
  induction l with
  | nil => rfl
  | cons p l ih =>
    rw [List.mapM_cons, h p List.mem_cons_self, Out.ok_bind, ih fun q hq => h q (List.mem_cons_of_mem _ hq), Out.ok_bind]
    rfl

/-- C165. The program finds each place where the word stands, and in which direction, once, and nothing else. -/
theorem C165_words [Target] {α : Type} [DecidableEq α] (T : PosTy) (hT : T.IsGrid) (D : Bool) (g : List α) (hg : (g.length : Int) = cols T * rows T) (word : List α) (fuel : Nat)
    (hfuel : max (cols T) (rows T) ≤ (fuel : Int)) :
    ∃ l, findWord T D g word fuel = .ok l ∧ l.Nodup ∧ ∀ p d, (p, d) ∈ l ↔ InGrid T p ∧ Allowed D d ∧
      ∀ (i : Nat) (h : i < word.length), InGrid T (along p d i) ∧ Grid.get T g (along p d i) = .ok word[i] := by
  obtain ⟨v, hv⟩ := Grid.exists_rep hT g ((Grid.length_iff hT g).1 hg)
  have key : ∀ pd ∈ (allPositions T true).flatMap (fun p => (clockwise D).map fun d => (p, d)), ∃ b, (do
      let l ← ray T pd.2 fuel pd.1
      let items ← (l.take word.length).mapM (Grid.get T g)
      .ok (decide (items = word))) = Out.ok b ∧
        (b = true ↔ ∀ (i : Nat) (h : i < word.length), InGrid T (along pd.1 pd.2 i) ∧ Grid.get T g (along pd.1 pd.2 i) = .ok word[i]) := by
    rintro ⟨p, d⟩ hpd
    have hp : InGrid T p := by
      simp only [List.mem_flatMap, List.mem_map, Prod.mk.injEq] at hpd
      obtain ⟨p', h1, d', -, rfl, -⟩ := hpd
      exact PosTy.mem_allPositions.1 h1
    obtain ⟨l, h1, h2, h3⟩ := C165_ray T hT.wf d p hp fuel hfuel
    have h4 : ∀ q ∈ l, InGrid T q := fun q hq => ((mem_ray h2 h3).1 hq).1
    have h5 := mapM_get (f := Grid.get T g) (v := v) (l.take word.length) fun q hq => hv.get hT (h4 q (List.mem_of_mem_take hq))
    refine ⟨_, by simp only [h1, Out.ok_bind]; rw [h5, Out.ok_bind], ?_⟩
    rw [decide_eq_true_iff]
    have h6 : ∀ i (h : i < l.length), l[i] = along p d i := fun i h => by
      have : l[i]? = ((List.range l.length).map (along p d))[i]? := congrArg (·[i]?) h2
      rw [List.getElem?_eq_getElem h] at this
      simp [h] at this
      exact this
    constructor
    · intro h i hi
      have hl : i < l.length := by
        have := congrArg List.length h
        simp at this
        omega
      have hin := (h3 i).2 hl
      refine ⟨hin, ?_⟩
      rw [hv.get hT hin, Out.ok.injEq]
      have h7 : ((l.take word.length).map v)[i]? = word[i]? := by rw [h]
      rw [List.getElem?_map, List.getElem?_take_of_lt hi, List.getElem?_eq_getElem hl, List.getElem?_eq_getElem hi] at h7
      simp only [Option.map_some, Option.some.injEq] at h7
      rw [← h7, h6]
    · intro h
      have hl : word.length ≤ l.length := by
        cases hw : word.length with
        | zero => omega
        | succ n => exact (h3 n).1 (h n (by omega)).1
      refine List.ext_getElem (by simp; omega) fun i h1 h2 => ?_
      obtain ⟨a, b⟩ := h i h2
      rw [hv.get hT a, Out.ok.injEq] at b
      rw [List.getElem_map, List.getElem_take, h6, b]
  obtain ⟨l, h1, h2, h3⟩ := keepIf_spec _ (fun pd : P2 × Dir => ∀ (i : Nat) (h : i < word.length), InGrid T (along pd.1 pd.2 i) ∧ Grid.get T g (along pd.1 pd.2 i) = .ok word[i]) _ key
  refine ⟨l, by rw [findWord, PosTy.toList_eq hT.wf, Out.ok_bind, toList_dirs, Out.ok_bind]; exact h1, ?_, fun p d => ?_⟩
  · refine h2.nodup ?_
    rw [List.nodup_flatMap]
    refine ⟨fun p _ => List.Nodup.map (fun a b h => by injection h) (by cases D <;> decide), (PosTy.allPositions_nodup true).imp fun {a b} hab => ?_⟩
    intro x hx hy
    simp only [List.mem_map] at hx hy
    obtain ⟨_, -, rfl⟩ := hx
    obtain ⟨_, -, h⟩ := hy
    injection h with h
    exact hab h.symm
  · rw [h3]
    simp only [List.mem_flatMap, List.mem_map, Prod.mk.injEq]
    constructor
    · rintro ⟨⟨p', a1, d', a2, rfl, rfl⟩, a3⟩
      exact ⟨PosTy.mem_allPositions.1 a1, mem_clockwise.1 a2, a3⟩
    · rintro ⟨a1, a2, a3⟩
      exact ⟨⟨p, PosTy.mem_allPositions.2 a1, d, mem_clockwise.2 a2, rfl, rfl⟩, a3⟩

-- To the corner, and not further.
example : ray (PosTy.pos 3 2) .SE 4 (1, 0) = .ok [(1, 0), (2, 1), (3, 2)] ∧ ray (PosTy.pos 3 2) .NW 4 (3, 2) = .ok [(3, 2), (2, 1), (1, 0)] := by decide +kernel
example : ray (PosTy.tuple .i8) .W 300 (-126, 5) = .ok [(-126, 5), (-127, 5), (-128, 5)] := by decide +kernel
-- A word that stands in the grid in two directions; and another one.
example : findWord (PosTy.pos 2 2) true ['a', 'b', 'c', 'x', 'b', 'b', 'c', 'x', 'c'] ['a', 'b', 'c'] 3 = .ok [((0, 0), .E), ((0, 0), .SE)] := by decide +kernel
example : findWord (PosTy.pos 2 2) false ['a', 'b', 'c', 'x', 'b', 'b', 'c', 'x', 'c'] ['b', 'x'] 3 = .ok [((1, 1), .S), ((1, 1), .W)] := by decide +kernel

end Sqrid
