import Verif.Proofs.BfOrder
import Verif.Props.Bf
/-!
# The order of the breadth-first traversal and the goal it finds: C80, C81

Together with C49 – C54 these determine the traversal and the search completely: not only which positions are in a layer, but their order, the direction
recorded for each, which of several goals at the same distance is chosen, and the path to it.
-/

namespace Sqrid

-- Statements that do not mention a target are about a debug build for a 64-bit machine.
attribute [local instance] debug64

open Spec

/-! ## C80 -/

/-- C80. The first layer has the positions one step from the origin, clockwise from north. Each further layer has the positions one step from the
positions of the layer before, in the order of that layer and clockwise from north at each, except those already seen; each with the direction that leads
back to where it was first reached from. The traversal ends when there are none. -/
theorem C80_order [Target] (T : PosTy) (hT : T.IsGrid) (iter) (hiter : Bf.IsIter T iter) (D : Bool) (go : Int × Int → Dir → Option (Int × Int))
    (hgo : StaysIn T go) (orig : Int × Int) (ho : InGrid T orig) (fuel : Nat) (hfuel : cols T * rows T < (fuel : Int)) :
    ∃ ls, iter D go orig fuel = .ok ls ∧ (∀ layer ∈ ls, layer ≠ []) ∧
      (ls[0]?).getD [] = firstOf [] (stepsOut go D [orig]) ∧
      ∀ (k : Nat) (prev : List ((Int × Int) × Dir)), ls[k]? = some prev →
        (ls[k + 1]?).getD [] = firstOf (orig :: (ls.take (k + 1)).flatten.map Prod.fst) (stepsOut go D (prev.map Prod.fst)) := by
  obtain ⟨ls, h1, h2, -, -⟩ := Bf.iterAll_layers D hgo ho fuel (by have := hT.cells_eq; omega)
  rw [hiter.eq hT hgo ho fuel]
  obtain ⟨st, h3, h4, h5⟩ := BfIter.new_order go D orig
  have hc : collectWith (BfIter.next SetImpl.ideal D go) fuel st = .ok ls := by
    have h := h1
    unfold Bf.iterAll at h
    rw [h3, Out.ok_bind] at h
    exact h
  obtain ⟨i1, i2⟩ := Bf.collect_order go D fuel h5 hc
  refine ⟨ls, h1, fun l hl => ?_, i1.trans h4, fun k prev hk => ?_⟩
  · obtain ⟨i, hi, rfl⟩ := List.mem_iff_getElem.1 hl
    exact (h2 i _ (List.getElem?_eq_getElem hi)).1
  · rw [i2 k prev hk]
    congr 2
    cases ls with
    | nil => simp at hk
    | cons r rs =>
      simp only [List.getElem?_cons_zero, Option.getD_some] at i1
      simp [i1]

/-- The order is not the one of the coordinates: from (1, 1) the first layer is north, east, south, west. -/
example : Bf.iterHash false (aroundWalls (PosTy.pos 2 2) []) (1, 1) 10 =
    .ok [[((1, 0), .S), ((2, 1), .W), ((1, 2), .N), ((0, 1), .E)], [((2, 0), .W), ((0, 0), .E), ((2, 2), .N), ((0, 2), .E)]] := by decide
example : firstOf [(1, 1), (1, 0), (2, 1), (1, 2), (0, 1)] (stepsOut (aroundWalls (PosTy.pos 2 2) []) false [(1, 0), (2, 1), (1, 2), (0, 1)]) =
    [((2, 0), .W), ((0, 0), .E), ((2, 2), .N), ((0, 2), .E)] := by decide

/-! ## C81 -/

/-- C81. If no position of the traversal is a goal, the destination is unreachable. Otherwise the destination is the goal that comes first in the traversal
and each step of the path is the reverse of the direction the traversal has for the position it arrives to; or the path is longer than the bound of C48. -/
theorem C81_first_goal [Target] (T : PosTy) (hT : T.Searchable) (iter) (hiter : Bf.IsIter T iter) (bfs) (hbfs : Bf.IsSearch T bfs) (D : Bool)
    (go : Int × Int → Dir → Option (Int × Int)) (hgo : Adjacent T go) (orig : Int × Int) (ho : InGrid T orig) (found : Int × Int → Bool)
    (fuel : Nat) (hfuel : cols T * rows T < (fuel : Int)) :
    ∃ ls, iter D go orig fuel = .ok ls ∧
      match ls.flatten.find? (fun m => found m.1) with
      | none => bfs D go orig found fuel = .ok (.error .destinationUnreachable)
      | some (dest, _) => bfs D go orig found fuel = .ok (.error .loop) ∨ ∃ path l, bfs D go orig found fuel = .ok (.ok (dest, path)) ∧
          walkPath T orig path = some l ∧ l.length = path.length ∧ l.getLast?.getD orig = dest ∧
          ∀ (i : Nat) (h : i < l.length) (h' : i < path.length), (l[i], opposite path[i]) ∈ ls.flatten := by
  obtain ⟨ls, h1, h2, -, -⟩ := Bf.iterAll_layers D hgo.staysIn ho fuel (by have := hT.cells_eq; omega)
  rw [hiter.eq hT.toIsGrid hgo.staysIn ho fuel, hbfs.eq hT hgo.staysIn ho]
  refine ⟨ls, h1, ?_⟩
  obtain ⟨st, h3, h4, h5⟩ := BfIter.new_order go D orig
  have hc : collectWith (BfIter.next SetImpl.ideal D go) fuel st = .ok ls := by
    have h := h1
    unfold Bf.iterAll at h
    rw [h3, Out.ok_bind] at h
    exact h
  have hmm : ∀ {r}, Bf.searchLoop SetImpl.ideal (MapImpl.ideal none) D go found fuel st (fun _ => none) = .ok r →
      Bf.searchMapmov SetImpl.ideal (MapImpl.ideal none) D go orig found fuel = .ok r := by
    intro r hr
    unfold Bf.searchMapmov
    rw [h3, Out.ok_bind]
    exact hr
  rcases Bf.searchLoop_flatten go D found fuel (fun _ => none) hc with ⟨a1, a2⟩ | ⟨pre, m, post, a1, a2, a3, a4⟩
  · have e : ls.flatten.find? (fun m => found m.1) = none := List.find?_eq_none.2 fun m hm => by rw [a1 m hm]; simp
    rw [e]
    simp only
    rw [Bf.searchPath_of_mapmov (hmm a2)]
  · have e : ls.flatten.find? (fun m => found m.1) = some m := by
      rw [a1, List.find?_append, List.find?_eq_none.2 fun m hm => by rw [a3 m hm]; simp]
      simp [a2]
    rw [e]
    obtain ⟨dest, d⟩ := m
    simp only
    rcases Bf.searchPath_spec hT D found hgo ho fuel (by have := hT.cells_eq; omega) with
      ⟨b1, b2⟩ | ⟨dest', n, b1, b2, b3, ⟨b4, path, b5, b6, b7⟩ | ⟨-, b7⟩⟩
    · exfalso
      rw [Bf.searchPath_of_mapmov (hmm a4)] at b2
      simp only at b2
      cases hcf : camefromIntoPath T (MapImpl.ideal none) (writeAll (pre ++ [(dest, d)]) fun _ => none) orig dest with
      | ok r =>
        rw [hcf, Out.ok_bind] at b2
        have hr : r = .error .destinationUnreachable := by
          cases r with
          | error e => injection b2 with b2; injection b2 with b2; rw [b2]
          | ok p => injection b2 with b2; cases b2
        have hin : InGrid T dest := by
          have hm : ((dest, d) : P2 × Dir) ∈ ls.flatten := by rw [a1]; simp
          obtain ⟨l, hl, hm⟩ := List.mem_flatten.1 hm
          obtain ⟨i, hi, rfl⟩ := List.mem_iff_getElem.1 hl
          exact isDist_inGrid hgo.staysIn ho ((inLayer_iff hgo ho).1 (((h2 i _ (List.getElem?_eq_getElem hi)).2.mem dest).1 ⟨d, hm⟩))
        rcases camefromIntoPath_spec hT (MapImpl.ideal none) (writeAll (pre ++ [(dest, d)]) fun _ => none) _ ho hin (fun p hp => rfl) with
          ⟨c, -⟩ | ⟨-, ⟨path', c1, c2, c3⟩ | ⟨m, c1, -, c3⟩ | ⟨c1, -, c3⟩⟩
        · rw [writeAll_append] at c
          simp [writeAll, upd_same] at c
        · rw [hcf, hr] at c3; injection c3 with c3; cases c3
        · rw [hcf, hr] at c3; injection c3 with c3; cases c3
        · rw [hcf, hr] at c3; injection c3 with c3; cases c3
      | panic => rw [hcf] at b2; cases b2
      | ub => rw [hcf] at b2; cases b2
      | timeout => rw [hcf] at b2; cases b2
    · right
      rw [b7]
      rw [Bf.searchPath_of_mapmov (hmm a4)] at b7
      simp only at b7
      have hin : InGrid T dest := by
        have hm : ((dest, d) : P2 × Dir) ∈ ls.flatten := by rw [a1]; simp
        obtain ⟨l, hl, hm⟩ := List.mem_flatten.1 hm
        obtain ⟨i, hi, rfl⟩ := List.mem_iff_getElem.1 hl
        exact isDist_inGrid hgo.staysIn ho ((inLayer_iff hgo ho).1 (((h2 i _ (List.getElem?_eq_getElem hi)).2.mem dest).1 ⟨d, hm⟩))
      rcases camefromIntoPath_spec hT (MapImpl.ideal none) (writeAll (pre ++ [(dest, d)]) fun _ => none) _ ho hin (fun p hp => rfl) with
          ⟨-, c3⟩ | ⟨-, ⟨path', c1, c2, c3⟩ | ⟨m, -, -, c3⟩ | ⟨-, -, c3⟩⟩ <;> rw [c3, Out.ok_bind] at b7 <;> injection b7 with b7
      · cases b7
      · injection b7 with b7
        injection b7 with e1 e2
        subst e1 e2
        obtain ⟨l, d1, d2, d3, d4⟩ := c1.walk hT.wf hin
        refine ⟨path', l, rfl, d1, d2, d3, fun i hi hi' => ?_⟩
        rcases writeAll_some (d4 i hi hi') with h | h
        · rw [a1]
          simp only [List.mem_append, List.mem_cons, List.not_mem_nil, or_false] at h ⊢
          tauto
        · cases h
      · cases b7
      · cases b7
    · left
      exact b7

/-- Of the two goals at distance 2 from (1, 1), the one first in the traversal is chosen, and reached through the position it was first reached from. -/
example : Bf.pathHash (PosTy.pos 2 2) false (aroundWalls (PosTy.pos 2 2) []) (1, 1) (fun p => p == (0, 0) || p == (2, 2)) 10 =
    .ok (.ok ((0, 0), [.N, .W])) := by decide +kernel

end Sqrid
