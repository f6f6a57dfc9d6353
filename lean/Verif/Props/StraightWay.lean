import Verif.Proofs.BfLex
import Verif.Props.Greedy
import Verif.Props.Backwards
/-!
# The way with one bend: C141

Without diagonals, and with costs of 1, there are many shortest ways in a grid without walls. The uniform-cost search and A* return the same one: first east, then north
or south; or first north or south, then west. They do so whenever this way is free, whatever the grid looks like elsewhere.
-/

namespace Sqrid

-- Statements that do not mention a target are about a debug build for a 64-bit machine.
attribute [local instance] debug64

open Spec

/-- First east, then north or south; or first north or south, then west. -/
def bendWay (orig dest : Int × Int) : List Dir :=
  let vertical := if orig.2 ≤ dest.2 then List.replicate (dest.2 - orig.2).toNat Dir.S else List.replicate (orig.2 - dest.2).toNat Dir.N
  if orig.1 ≤ dest.1 then List.replicate (dest.1 - orig.1).toNat Dir.E ++ vertical else vertical ++ List.replicate (orig.1 - dest.1).toNat Dir.W

theorem foldl_replicate (p : P2) (n : Nat) (d : Dir) : (List.replicate n d).foldl neighbour p = (p.1 + n * (unit d).1, p.2 + n * (unit d).2) := by
  induction n with
  | zero => simp
  | succ n ih =>
    rw [List.replicate_succ', List.foldl_append, ih]
    simp only [List.foldl_cons, List.foldl_nil, neighbour, Prod.mk.injEq]
    constructor <;> push_cast <;> ring

/-- The position after `i` steps. -/
def bendAt (orig dest : P2) (i : Nat) : P2 :=
  if orig.1 ≤ dest.1 then
    if orig.2 ≤ dest.2 then (orig.1 + (min i (dest.1 - orig.1).toNat : Nat), orig.2 + (min (i - (dest.1 - orig.1).toNat) (dest.2 - orig.2).toNat : Nat))
    else (orig.1 + (min i (dest.1 - orig.1).toNat : Nat), orig.2 - (min (i - (dest.1 - orig.1).toNat) (orig.2 - dest.2).toNat : Nat))
  else
    if orig.2 ≤ dest.2 then (orig.1 - (min (i - (dest.2 - orig.2).toNat) (orig.1 - dest.1).toNat : Nat), orig.2 + (min i (dest.2 - orig.2).toNat : Nat))
    else (orig.1 - (min (i - (orig.2 - dest.2).toNat) (orig.1 - dest.1).toNat : Nat), orig.2 - (min i (orig.2 - dest.2).toNat : Nat))

theorem bend_length (orig dest : P2) : ((bendWay orig dest).length : Int) = l1 orig dest := by
  simp only [bendWay, l1]
  split_ifs <;> simp only [List.length_append, List.length_replicate] <;> omega

theorem bendAt_spec (orig dest : P2) (i : Nat) (hi : (i : Int) ≤ l1 orig dest) :
    (orig.1 ≤ dest.1 ∧ orig.2 ≤ dest.2 ∧ ((i ≤ dest.1 - orig.1 ∧ (bendAt orig dest i).1 = orig.1 + i ∧ (bendAt orig dest i).2 = orig.2) ∨
      (dest.1 - orig.1 < i ∧ (bendAt orig dest i).1 = dest.1 ∧ (bendAt orig dest i).2 = orig.2 + (i - (dest.1 - orig.1))))) ∨
    (orig.1 ≤ dest.1 ∧ dest.2 < orig.2 ∧ ((i ≤ dest.1 - orig.1 ∧ (bendAt orig dest i).1 = orig.1 + i ∧ (bendAt orig dest i).2 = orig.2) ∨
      (dest.1 - orig.1 < i ∧ (bendAt orig dest i).1 = dest.1 ∧ (bendAt orig dest i).2 = orig.2 - (i - (dest.1 - orig.1))))) ∨
    (dest.1 < orig.1 ∧ orig.2 ≤ dest.2 ∧ ((i ≤ dest.2 - orig.2 ∧ (bendAt orig dest i).1 = orig.1 ∧ (bendAt orig dest i).2 = orig.2 + i) ∨
      (dest.2 - orig.2 < i ∧ (bendAt orig dest i).1 = orig.1 - (i - (dest.2 - orig.2)) ∧ (bendAt orig dest i).2 = dest.2))) ∨
    (dest.1 < orig.1 ∧ dest.2 < orig.2 ∧ ((i ≤ orig.2 - dest.2 ∧ (bendAt orig dest i).1 = orig.1 ∧ (bendAt orig dest i).2 = orig.2 - i) ∨
      (orig.2 - dest.2 < i ∧ (bendAt orig dest i).1 = orig.1 - (i - (orig.2 - dest.2)) ∧ (bendAt orig dest i).2 = dest.2))) := by
  unfold l1 at hi
  unfold bendAt
  split_ifs with h1 h2 h2
  · exact .inl ⟨h1, h2, by simp only; omega⟩
  · exact .inr (.inl ⟨h1, by omega, by simp only; omega⟩)
  · exact .inr (.inr (.inl ⟨by omega, h2, by simp only; omega⟩))
  · exact .inr (.inr (.inr ⟨by omega, by omega, by simp only; omega⟩))

theorem bend_foldl (orig dest : P2) (i : Nat) : ((bendWay orig dest).take i).foldl neighbour orig = bendAt orig dest i := by
  simp only [bendWay, bendAt]
  split_ifs <;> simp only [List.take_append, List.length_replicate, List.take_replicate, List.foldl_append, foldl_replicate, unit, Prod.mk.injEq] <;> omega

theorem bend_follow {T : PosTy} {go : GoFn} (hgo : Adjacent T go) {orig dest : P2} (ho : InGrid T orig) (h : follow go orig (bendWay orig dest) = some dest) (i : Nat) :
    follow go orig ((bendWay orig dest).take i) = some (bendAt orig dest i) := by
  rw [← List.take_append_drop i (bendWay orig dest), follow_append] at h
  cases h1 : follow go orig ((bendWay orig dest).take i) with
  | none => rw [h1] at h; cases h
  | some q => rw [follow_foldl hgo _ ho h1, bend_foldl]

theorem bend_dir (orig dest : P2) (i : Nat) (hi : i < (bendWay orig dest).length) : (bendWay orig dest)[i]? = some
    (if orig.1 ≤ dest.1 then if (i : Int) < dest.1 - orig.1 then .E else if orig.2 ≤ dest.2 then .S else .N
      else if (i : Int) < (dest.2 - orig.2).natAbs then if orig.2 ≤ dest.2 then .S else .N else .W) := by
  have hl := bend_length orig dest
  rw [l1] at hl
  simp only [bendWay]
  split_ifs <;> first
    | omega
    | (rw [List.getElem?_append_left (by simp; omega), List.getElem?_replicate, if_pos (by omega)])
    | (rw [List.getElem?_append_right (by simp; omega), List.getElem?_replicate, if_pos (by simp only [List.length_replicate]; omega)])

theorem bend_isDist {T : PosTy} {go : GoFn} (hgo : Adjacent T go) {orig dest : P2} (ho : InGrid T orig) (h : IsPath go false orig (bendWay orig dest) dest) :
    IsDist go false orig dest (bendWay orig dest).length := by
  refine ⟨⟨_, h, rfl⟩, fun ds hds => ?_⟩
  have := l1_le_path hgo ho hds
  have := bend_length orig dest
  omega

theorem take_isPath {go : GoFn} {D : Bool} {p q r : P2} {ds : List Dir} (h : IsPath go D p ds q) {i : Nat} (hr : follow go p (ds.take i) = some r) :
    IsPath go D p (ds.take i) r := ⟨fun d hd => h.1 d (List.mem_of_mem_take hd), hr⟩

theorem bend_isDist_at {T : PosTy} {go : GoFn} (hgo : Adjacent T go) {orig dest : P2} (ho : InGrid T orig) (h : IsPath go false orig (bendWay orig dest) dest) (i : Nat)
    (hi : i ≤ (bendWay orig dest).length) : IsDist go false orig (bendAt orig dest i) i := by
  refine ⟨⟨_, take_isPath h (bend_follow hgo ho h.2 i), List.length_take_of_le hi⟩, fun ds hds => ?_⟩
  have h1 := l1_le_path hgo ho hds
  have h2 := bend_length orig dest
  have : l1 orig (bendAt orig dest i) = i := by
    simp only [bendAt, l1] at h2 ⊢
    split_ifs <;> simp only <;> omega
  omega

/-- C141. Without diagonals and with costs of 1, if the way with one bend is free then the uniform-cost search returns it, or `Loop` if it has more steps than the square
of the number of columns. -/
theorem C141_ucs [Target] (T : PosTy) (hT : T.Searchable) (ucs) (hucs : Ucs.IsSearch T ucs)
    (go : Int × Int → Dir → Option (Int × Int)) (hgo : Adjacent T go) (orig dest : Int × Int) (ho : InGrid T orig) (hd : InGrid T dest)
    (hway : IsPath go false orig (bendWay orig dest) dest) (fuel : Nat) (hfuel : Ucs.steps T < (fuel : Int)) :
    (l1 orig dest ≤ cols T * cols T → ucs false (unitCost go) orig dest fuel = .ok (.ok (bendWay orig dest))) ∧
    (cols T * cols T < l1 orig dest → ucs false (unitCost go) orig dest fuel = .ok (.error .loop)) := by
  have hl := bend_length orig dest
  have hdist := bend_isDist hgo ho hway
  obtain ⟨h1, h2⟩ := C62_unit_exact T hT ucs hucs false go hgo orig dest ho hd fuel hfuel _ hdist
  refine ⟨fun h => ?_, fun h => h2 (by omega)⟩
  obtain ⟨path, h3, -⟩ := h1 (by omega)
  rw [h3, C140_ucs_exact T hT ucs hucs false (unitCost go) (unitCost_adjacent hgo) (unitCost_usize go) (unitCost_enter go)
    (fun p d q w hw => by have := (unitCost_some.1 hw).2; omega) orig dest (.inr (unitCost_below hT hgo ho).noOverflow) ho hd fuel path h3 (bendWay orig dest)
    (bendWay orig dest).length (isCostPath_unit.2 ⟨hway, rfl⟩) (isMinCost_unit.2 ⟨_, rfl, hdist⟩) ?_]
  intro as d bs q r k q' d' k' e hq hr hk hd' hq' hk'
  rw [dropCost_unitCost] at hq hr hq'
  have e1 : as = (bendWay orig dest).take as.length := by rw [e, List.take_left' rfl]
  have e2 : as ++ [d] = (bendWay orig dest).take (as.length + 1) := by
    rw [e, show as ++ d :: bs = (as ++ [d]) ++ bs by simp, List.take_left' (by simp)]
  have hlen : as.length < (bendWay orig dest).length := by rw [e]; simp
  have e3 : q = bendAt orig dest as.length := by
    rw [e1, bend_follow hgo ho hway.2] at hq
    simpa using hq.symm
  have e4 : r = bendAt orig dest (as.length + 1) := by
    have h5 : follow go orig (as ++ [d]) = some r := by
      rw [follow_append, hq]
      simp [follow, hr]
    rw [e2, bend_follow hgo ho hway.2] at h5
    simpa using h5.symm
  have e5 := isMinCost_unique hk (isMinCost_unit.2 ⟨_, rfl, by rw [e3]; exact bend_isDist_at hgo ho hway as.length (by omega)⟩)
  obtain ⟨ds, hds⟩ := hk'.1
  obtain ⟨h6, rfl⟩ := isCostPath_unit.1 hds
  have h7 := l1_le_path hgo ho h6
  have h8 := (hgo _ _ _ (follow_inGrid hgo.staysIn _ ho h6.2) hq').2
  subst e3
  have h9 : (neighbour q' d').1 = (bendAt orig dest (as.length + 1)).1 ∧ (neighbour q' d').2 = (bendAt orig dest (as.length + 1)).2 := by rw [← h8, e4]; exact ⟨rfl, rfl⟩
  rw [e5]
  generalize as.length = i at *
  generalize ds.length = j at *
  have h10 : (q' = bendAt orig dest i ∨ q'.1 < (bendAt orig dest i).1 ∨ q'.1 = (bendAt orig dest i).1 ∧ q'.2 < (bendAt orig dest i).2) ↔
      (q'.1 < (bendAt orig dest i).1 ∨ q'.1 = (bendAt orig dest i).1 ∧ q'.2 ≤ (bendAt orig dest i).2) := by
    constructor
    · rintro (rfl | h | h)
      · exact .inr ⟨rfl, Int.le_refl _⟩
      · exact .inl h
      · omega
    · intro h
      by_cases h' : q' = bendAt orig dest i
      · exact .inl h'
      · refine .inr ?_
        by_contra hno
        exact h' (Prod.ext (by omega) (by omega))
  rw [h10]
  clear h10 e1 e2 e5 hk hk' hq hr hq' h8 h1 h2 h3 hdist hfuel h hds h6 hT hucs hgo ho hd hway
  have a1 := bendAt_spec orig dest i (by omega)
  have a2 := bendAt_spec orig dest (i + 1) (by omega)
  generalize bendAt orig dest i = u at *
  generalize bendAt orig dest (i + 1) = v at *
  unfold l1 at *
  cases d' <;> first | (exfalso; simp [Allowed, unit] at hd'; done) | skip
  all_goals
    simp only [unit, neighbour, Int.add_zero] at h9
    rcases a1 with a1 | a1 | a1 | a1 <;> rcases a2 with a2 | a2 | a2 | a2 <;> first | (exfalso; omega) | omega

/-- To the east each position on the way ranks before what the positions before it lead to. -/
theorem bend_east [Target] {T : PosTy} (hT : T.Searchable) {astar} (hastar : Astar.IsSearch T astar) {go : GoFn} (hgo : Adjacent T go) {orig dest : P2} (ho : InGrid T orig)
    (hd : InGrid T dest) (hway : IsPath go false orig (bendWay orig dest) dest) (heast : orig.1 ≤ dest.1) (fuel : Nat) (hfuel : l1 orig dest < fuel)
    (hcols : l1 orig dest ≤ cols T * cols T) : astar false go orig dest fuel = .ok (.ok (bendWay orig dest)) := by
  have hl := bend_length orig dest
  refine (C139_astar T hT astar hastar false go hgo orig dest ho hd _ hway ?_ ?_ fuel (by omega)).1 (by omega)
  · intro i j hi hj he
    rw [bend_follow hgo ho hway.2, bend_follow hgo ho hway.2, Option.some.injEq] at he
    have a1 := bendAt_spec orig dest i (by omega)
    have a2 := bendAt_spec orig dest j (by omega)
    rw [he] at a1
    omega
  · intro i j p q d r hji hi hp hq hd' hnext hr _
    rw [bend_follow hgo ho hway.2, Option.some.injEq] at hp hq
    have a1 := bendAt_spec orig dest i (by omega)
    have a2 := bendAt_spec orig dest j (by omega)
    have hin : InGrid T q := by
      rw [← hq]
      exact follow_inGrid hgo.staysIn _ ho (bend_follow hgo ho hway.2 j)
    obtain ⟨-, rfl⟩ := hgo _ _ _ hin hr
    rw [bend_dir orig dest j (by omega), if_pos heast] at hnext
    rw [hp] at a1
    rw [hq] at a2
    clear hp hq hr hin hgo hT hastar ho hd hway hfuel hcols
    simp only [l1] at *
    cases d <;> first | (exfalso; simp [Allowed, unit] at hd'; done) | skip
    all_goals
      simp only [unit, neighbour, Int.add_zero] at *
      split_ifs at hnext <;> simp only [ne_eq, not_true_eq_false, reduceCtorEq, not_false_eq_true] at hnext <;>
        rcases a1 with a1 | a1 | a1 | a1 <;> rcases a2 with a2 | a2 | a2 | a2 <;> first | (exfalso; omega) | omega

theorem foldl_inj (ds : List Dir) : ∀ {p p' : P2}, ds.foldl neighbour p = ds.foldl neighbour p' → p = p' := by
  induction ds with
  | nil => intro p p' h; exact h
  | cons d ds ih =>
    intro p p' h
    have := ih h
    simp only [neighbour, Prod.mk.injEq] at this
    exact Prod.ext (by omega) (by omega)

/-- To the west each step comes from the position on the way, which was reached first. -/
theorem bend_west [Target] {T : PosTy} (hT : T.Searchable) {astar} (hastar : Astar.IsSearch T astar) {go : GoFn} (hgo : Adjacent T go) {orig dest : P2} (ho : InGrid T orig)
    (hd : InGrid T dest) (hway : IsPath go false orig (bendWay orig dest) dest) (hwest : dest.1 < orig.1) (fuel : Nat) (path : List Dir)
    (h : astar false go orig dest fuel = .ok (.ok path)) : path = bendWay orig dest := by
  have hl := bend_length orig dest
  have hpath := C55_valid_path T hT astar hastar false go hgo orig dest ho hd fuel _ h
  have hlen : path.length = (bendWay orig dest).length := by
    have h1 := C58_no_detour_partial T hT astar hastar go hgo orig dest ho hd fuel _ hway hl path h _ hway
    have h2 := l1_le_path hgo ho hpath
    omega
  suffices H : ∀ n m, n + m = path.length → path.drop m = (bendWay orig dest).drop m by simpa using H path.length 0 (by omega)
  intro n
  induction n with
  | zero =>
    intro m hm
    rw [List.drop_eq_nil_of_le (by omega), List.drop_eq_nil_of_le (by omega)]
  | succ n ih =>
    intro m hm
    have hbs := ih (m + 1) (by omega)
    have h1 : m < path.length := by omega
    have h2 : m < (bendWay orig dest).length := by omega
    rw [List.drop_eq_getElem_cons h1, List.drop_eq_getElem_cons h2, hbs]
    have e1 : path = path.take m ++ path[m] :: path.drop (m + 1) := by rw [← List.drop_eq_getElem_cons h1, List.take_append_drop]
    generalize path[m] = d at *
    have hq0 : ∃ q₀, follow go orig (path.take m) = some q₀ := by
      have h3 := hpath.2
      rw [e1, follow_append] at h3
      cases h4 : follow go orig (path.take m) with
      | none => rw [h4] at h3; cases h3
      | some q => exact ⟨q, rfl⟩
    obtain ⟨q₀, hq0⟩ := hq0
    have hin := follow_inGrid hgo.staysIn _ ho hq0
    have htail : IsPath go false q₀ (d :: path.drop (m + 1)) dest := by
      refine ⟨fun x hx => hpath.1 x (by rw [e1]; exact List.mem_append_right _ hx), ?_⟩
      have h3 := hpath.2
      rwa [e1, follow_append, hq0] at h3
    have hr : ∃ r, go q₀ d = some r := by
      have h3 := htail.2
      simp only [follow] at h3
      cases h4 : go q₀ d with
      | none => rw [h4] at h3; cases h3
      | some r => exact ⟨r, rfl⟩
    obtain ⟨r, hr⟩ := hr
    have hr1 := hgo _ _ _ hin hr
    have htail' : follow go r (path.drop (m + 1)) = some dest := by
      have h3 := htail.2
      simpa only [follow, hr] using h3
    have hb := bend_follow hgo ho hway.2
    have hwtail : follow go (bendAt orig dest (m + 1)) ((bendWay orig dest).drop (m + 1)) = some dest := by
      have h3 := hway.2
      rwa [← List.take_append_drop (m + 1) (bendWay orig dest), follow_append, hb] at h3
    have hrb : r = bendAt orig dest (m + 1) := by
      have h3 := follow_foldl hgo _ hr1.1 htail'
      have h4 := follow_foldl hgo _ (follow_inGrid hgo.staysIn _ ho (hb (m + 1))) hwtail
      rw [hbs] at h3
      exact (foldl_inj _ (h4.symm.trans h3)).symm
    have hstep : go (bendAt orig dest m) (bendWay orig dest)[m] = some (bendAt orig dest (m + 1)) := by
      have h3 := hb (m + 1)
      rw [← List.take_append_getElem h2, follow_append, hb] at h3
      simp only [Option.bind_some, follow] at h3
      cases h4 : go (bendAt orig dest m) (bendWay orig dest)[m] with
      | none => rw [h4] at h3; cases h3
      | some x => rw [h4] at h3; simpa using h3
    have hd' : Allowed false (bendWay orig dest)[m] := hway.1 _ (List.getElem_mem h2)
    have hw1 := (hgo _ _ _ (follow_inGrid hgo.staysIn _ ho (hb m)) hstep).2
    by_cases hne : bendAt orig dest m = q₀
    · subst hne
      rw [neighbour_inj (hr1.2.symm.trans (hrb.trans hw1))]
    · exfalso
      have hm0 : IsPath go false orig (path.take m) q₀ := take_isPath hpath hq0
      have hk : IsDist go false orig q₀ m := by
        refine ⟨⟨_, hm0, List.length_take_of_le (by omega)⟩, fun ds hds => ?_⟩
        have h3 := (bend_isDist hgo ho hway).2 _ (isPath_append hds htail)
        have h4 := congrArg List.length e1
        simp only [List.length_append, List.length_cons, List.length_take_of_le (Nat.le_of_lt h1)] at h3 h4
        omega
      have hzq : orig ≠ q₀ := by
        rintro rfl
        have : m = 0 := Nat.le_zero.1 (hk.2 [] isPath_nil)
        subst this
        have := hb 0
        simp only [List.take_zero, follow, Option.some.injEq] at this
        exact hne this.symm
      have l1' := l1_le_path hgo ho hm0
      rw [List.length_take_of_le (by omega)] at l1'
      have l2 := l1_le_path hgo hin htail
      simp only [List.length_cons, List.length_drop] at l2
      rw [e1] at h
      refine C140_astar T hT astar hastar go hgo orig dest ho hd fuel _ _ _ h q₀ r hq0 hr q₀ m hk orig hzq (fun _ _ => ⟨0, rfl⟩) 0
        ⟨⟨[], isPath_nil, rfl⟩, fun _ _ => Nat.zero_le _⟩ ((bendWay orig dest).take m) (bendAt orig dest m) hne (take_isPath hway (hb m)) (fun i p hi1 hi2 hp => ?_)
        (bendWay orig dest)[m] hd' (by rw [hstep, hrb]) (by
          rw [List.length_take_of_le (by omega), Nat.zero_add, hrb]; exact bend_isDist_at hgo ho hway (m + 1) (by omega)) rfl
      rw [List.length_take_of_le (by omega)] at hi2
      rw [List.take_take, Nat.min_eq_left hi2, hb, Option.some.injEq] at hp
      have a1 := bendAt_spec orig dest i (by omega)
      have a2 := bendAt_spec orig dest (m + 1) (by omega)
      have a3 := bendAt_spec orig dest m (by omega)
      have hne' : (bendAt orig dest m).1 ≠ q₀.1 ∨ (bendAt orig dest m).2 ≠ q₀.2 := by
        by_contra hno
        exact hne (Prod.ext (by omega) (by omega))
      have hdd : Allowed false d := htail.1 d (by simp)
      have hr2 := hr1.2
      rw [← hrb, hr2] at a2
      rw [hp] at a1
      generalize bendAt orig dest m = v at *
      clear hp hstep hw1 hd' hb htail htail' hwtail hrb hr1 hr2 hk hm0 hzq h e1 hpath hway hq0 hr hin hgo hT hastar ho hd ih hbs
      simp only [l1] at *
      cases d <;> first | (exfalso; simp [Allowed, unit] at hdd; done) | skip
      all_goals
        simp only [unit, neighbour, Int.add_zero] at *
        rcases a1 with a1 | a1 | a1 | a1 <;> rcases a2 with a2 | a2 | a2 | a2 <;> first | (exfalso; omega) | (rcases a3 with a3 | a3 | a3 | a3 <;> first | (exfalso; omega) | omega)

/-- C141. Without diagonals, if the way with one bend is free then A* returns it, or `Loop` if it has more steps than the square of the number of columns. -/
theorem C141_astar [Target] (T : PosTy) (hT : T.Searchable) (astar) (hastar : Astar.IsSearch T astar)
    (go : Int × Int → Dir → Option (Int × Int)) (hgo : Adjacent T go) (orig dest : Int × Int) (ho : InGrid T orig) (hd : InGrid T dest)
    (hway : IsPath go false orig (bendWay orig dest) dest) (fuel : Nat) (hfuel : Astar.steps T < (fuel : Int)) :
    (l1 orig dest ≤ cols T * cols T → astar false go orig dest fuel = .ok (.ok (bendWay orig dest))) ∧
    (cols T * cols T < l1 orig dest → astar false go orig dest fuel = .ok (.error .loop)) := by
  have hl := bend_length orig dest
  obtain ⟨h1, h2⟩ := C57_no_detour_exact T hT astar hastar go hgo orig dest ho hd fuel hfuel _ (bend_isDist hgo ho hway) hl
  refine ⟨fun h => ?_, fun h => h2 (by omega)⟩
  obtain ⟨path, h3, -⟩ := h1 (by omega)
  by_cases heast : orig.1 ≤ dest.1
  · obtain ⟨fuel', h4, h5⟩ := hastar.more (l1 orig dest) h3
    rw [bend_east hT hastar hgo ho hd hway heast fuel' h4 h] at h5
    rw [h3, h5]
  · rw [h3, bend_west hT hastar hgo ho hd hway (by omega) fuel path h3]

/-- Around walls the way is free if no position on it is a wall. -/
theorem bend_free (T : PosTy) (walls : List (Int × Int)) (orig dest : Int × Int) (ho : InGrid T orig) (hd : InGrid T dest)
    (hw : ∀ i, 1 ≤ i → i ≤ (bendWay orig dest).length → bendAt orig dest i ∉ walls) : IsPath (aroundWalls T walls) false orig (bendWay orig dest) dest := by
  have hl := bend_length orig dest
  have key : ∀ i, i ≤ (bendWay orig dest).length → follow (aroundWalls T walls) orig ((bendWay orig dest).take i) = some (bendAt orig dest i) := by
    intro i
    induction i with
    | zero => intro _; rw [← bend_foldl]; rfl
    | succ i ih =>
      intro hi
      have h1 := bend_foldl orig dest (i + 1)
      rw [← List.take_append_getElem (by omega : i < (bendWay orig dest).length), List.foldl_append, bend_foldl] at h1
      simp only [List.foldl_cons, List.foldl_nil] at h1
      rw [← List.take_append_getElem (by omega : i < (bendWay orig dest).length), follow_append, ih (by omega)]
      have hin : InGrid T (bendAt orig dest (i + 1)) := by
        have a1 := bendAt_spec orig dest (i + 1) (by omega)
        unfold InGrid at *
        unfold l1 at hl
        generalize bendAt orig dest (i + 1) = v at *
        omega
      have h2 : aroundWalls T walls (bendAt orig dest i) (bendWay orig dest)[i] = some (bendAt orig dest (i + 1)) := by
        unfold aroundWalls
        rw [h1, if_pos ⟨hin, hw (i + 1) (by omega) hi⟩]
      simp [follow, h2]
  refine ⟨fun d hd => ?_, ?_⟩
  · simp only [bendWay] at hd
    split_ifs at hd <;> simp only [List.mem_append, List.mem_replicate] at hd <;> rcases hd with ⟨-, rfl⟩ | ⟨-, rfl⟩ <;> simp [Allowed, unit]
  · have h1 := key _ (Nat.le_refl _)
    rw [List.take_length] at h1
    rw [h1, Option.some.injEq]
    have a1 := bendAt_spec orig dest (bendWay orig dest).length (by omega)
    unfold l1 at hl
    exact Prod.ext (by omega) (by omega)

/-- C141. In a grid without walls this is the path from everywhere to everywhere. -/
theorem C141_open [Target] (T : PosTy) (hT : T.Searchable) (astar) (hastar : Astar.IsSearch T astar) (ucs) (hucs : Ucs.IsSearch T ucs) (orig dest : Int × Int)
    (ho : InGrid T orig) (hd : InGrid T dest) (hcols : l1 orig dest ≤ cols T * cols T) (fuel : Nat) (hfuel : Astar.steps T < (fuel : Int)) :
    astar false (aroundWalls T []) orig dest fuel = .ok (.ok (bendWay orig dest)) ∧
    ucs false (unitCost (aroundWalls T [])) orig dest fuel = .ok (.ok (bendWay orig dest)) := by
  have hgo := aroundWalls_adjacent T []
  have hway := bend_free T [] orig dest ho hd (fun _ _ _ => by simp)
  have hpos : 0 ≤ cols T * rows T := by
    have h1 := hT.nx_eq
    have h2 := hT.ny_eq
    have h3 := hT.cells_eq
    omega
  have hsteps : Ucs.steps T ≤ Astar.steps T := by
    unfold Ucs.steps Astar.steps
    have := Int.mul_nonneg hpos hpos
    omega
  exact ⟨(C141_astar T hT astar hastar _ hgo orig dest ho hd hway fuel hfuel).1 hcols, (C141_ucs T hT ucs hucs _ hgo orig dest ho hd hway fuel (by omega)).1 hcols⟩

-- To the north west, beside walls.
example : bendWay (3, 2) (0, 0) = [.N, .N, .W, .W, .W] := by decide
example : IsPath (aroundWalls (PosTy.pos 3 3) [(2, 2), (1, 1), (0, 3)]) false (3, 2) (bendWay (3, 2) (0, 0)) (0, 0) := ⟨by unfold Allowed; decide +kernel, by decide +kernel⟩
example : Astar.pathHash (PosTy.pos 3 3) false (aroundWalls (PosTy.pos 3 3) [(2, 2), (1, 1), (0, 3)]) (3, 2) (0, 0) 700 = .ok (.ok [.N, .N, .W, .W, .W]) ∧
    Ucs.pathHash (PosTy.pos 3 3) false (unitCost (aroundWalls (PosTy.pos 3 3) [(2, 2), (1, 1), (0, 3)])) (3, 2) (0, 0) 700 = .ok (.ok [.N, .N, .W, .W, .W]) := by
  decide +kernel
-- In a tall grid the way to the north east is too long.
example : l1 (0, 9) (1, 0) = 10 ∧ cols (PosTy.pos 1 9) * cols (PosTy.pos 1 9) = 4 := by decide
example : Astar.pathHash (PosTy.pos 1 9) false (aroundWalls (PosTy.pos 1 9) []) (0, 9) (1, 0) 1000 = .ok (.error .loop) := by decide +kernel

end Sqrid
