import Verif.Props.Around
/-!
# The arrays of all directions: C168
-/

namespace Sqrid

-- Statements that do not mention a target are about a debug build for a 64-bit machine.
attribute [local instance] debug64

open Spec

/-- C168. `ALL8` has each direction once, at the index that the cast to `usize` gives; `ALL4` has each direction along an axis once, and no other. -/
theorem C168_all : (∀ d : Dir, Dir.ALL8[d.toIdx]? = some d) ∧ (∀ d, d ∈ Dir.ALL8) ∧ Dir.ALL8.length = Dir.SIZE ∧ Dir.ALL8.Nodup ∧
    (∀ d, d ∈ Dir.ALL4 ↔ (unit d).1 = 0 ∨ (unit d).2 = 0) ∧ (∀ d, d ∈ Dir.ALL4 ↔ d.isDiagonal = false) ∧ Dir.ALL4.length = 4 ∧ Dir.ALL4.Nodup := by
  refine ⟨?_, ?_, rfl, by decide, ?_, ?_, rfl, by decide⟩ <;> intro d <;> cases d <;> decide

/-- C168. The iterators over the directions yield the items of the arrays, in the same order. -/
theorem C168_iter (D : Bool) : DirIter.toList D = .ok (if D then Dir.ALL8 else Dir.ALL4) := by
  cases D <;> rfl

/-- C168. In both arrays each item is the one before rotated clockwise by a full turn over the length, the first one is so from the last, and the item half the length
further on is the flipped one. -/
theorem C168_turn (D : Bool) (i : Nat) (d : Dir) (h : (if D then Dir.ALL8 else Dir.ALL4)[i]? = some d) :
    (∃ e, d.rotate (if D then .NE else .E) = .ok e ∧ (if D then Dir.ALL8 else Dir.ALL4)[(i + 1) % (if D then 8 else 4)]? = some e) ∧
    (∃ e, d.flip = .ok e ∧ (if D then Dir.ALL8 else Dir.ALL4)[(i + (if D then 4 else 2)) % (if D then 8 else 4)]? = some e) := by
  cases D
  · have hi : i < 4 := by
      obtain ⟨hi, -⟩ := List.getElem?_eq_some_iff.1 h
      exact hi
    obtain rfl | rfl | rfl | rfl : i = 0 ∨ i = 1 ∨ i = 2 ∨ i = 3 := by omega
    all_goals
      simp only [Bool.false_eq_true, if_false, Dir.ALL4] at h
      simp at h
      subst h
      exact ⟨⟨_, rfl, rfl⟩, _, rfl, rfl⟩
  · have hi : i < 8 := by
      obtain ⟨hi, -⟩ := List.getElem?_eq_some_iff.1 h
      exact hi
    obtain rfl | rfl | rfl | rfl | rfl | rfl | rfl | rfl : i = 0 ∨ i = 1 ∨ i = 2 ∨ i = 3 ∨ i = 4 ∨ i = 5 ∨ i = 6 ∨ i = 7 := by omega
    all_goals
      simp only [if_true, Dir.ALL8] at h
      simp at h
      subst h
      exact ⟨⟨_, rfl, rfl⟩, _, rfl, rfl⟩

example : Dir.ALL4[3]? = some .W ∧ (Dir.W).rotate .E = .ok .N ∧ (Dir.W).flip = .ok .E := by decide

/-- C168. Adding the items of an array to a position and keeping what is in the grid gives the positions at distance 1, each once. -/
theorem C168_around (T : PosTy) (hT : T.WF) (D : Bool) (p : Int × Int) (hp : InGrid T p) :
    ((if D then Dir.ALL8 else Dir.ALL4).filterMap (T.addDirOk p)).Nodup ∧
    ∀ q, q ∈ (if D then Dir.ALL8 else Dir.ALL4).filterMap (T.addDirOk p) ↔ InGrid T q ∧ (if D then linf p q else l1 p q) = 1 := by
  obtain ⟨l, h1, h2, h3, -⟩ := C153_around T hT D p hp
  unfold around at h1
  rw [C168_iter, Out.ok_bind] at h1
  injection h1 with h1
  subst h1
  exact ⟨h2, h3⟩

example : PosTy.WF (PosTy.pos 2 1) ∧ InGrid (PosTy.pos 2 1) (1, 0) ∧ Dir.ALL4.filterMap ((PosTy.pos 2 1).addDirOk (1, 0)) = [(2, 0), (1, 1), (0, 0)] := by decide

end Sqrid
