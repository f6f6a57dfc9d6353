import Verif.Spec.Release
import Verif.Model.Base
import Verif.Model.Display
import Verif.Model.Conv
import Verif.Model.Closure
import Verif.Proofs.Pos
/-!
# Debug and release builds: code without searches
-/

namespace Sqrid

open Spec

namespace Spec.SameInRelease

theorem of_eq {f : [Target] → Out α} (h : ∀ w, @f ⟨false, w⟩ = @f ⟨true, w⟩) : SameInRelease f := fun w => .inr (h w)

theorem bind {f : [Target] → Out α} {g : α → [Target] → Out β} (hf : SameInRelease f) (hg : ∀ a, SameInRelease (g a)) :
    SameInRelease (f >>= fun a => g a) := by
  intro w
  have hw := hf w
  beta_reduce at hw ⊢
  rcases hw with h | h
  · left; rw [h]; rfl
  · rw [h]
    cases @f ⟨true, w⟩ with
    | ok a => exact hg a w
    | panic => exact .inl rfl
    | ub => exact .inr rfl
    | timeout => exact .inr rfl

theorem arith (t : IntTy) (v : Int) : SameInRelease (t.arith v) := by
  intro w
  unfold IntTy.arith
  beta_reduce
  by_cases h : t.Has v
  · rw [if_pos h, if_pos h]; exact .inr rfl
  · rw [if_neg h]; exact .inl rfl

theorem usize_arith (v : Int) : SameInRelease (IntTy.usize.arith v) := by
  intro w
  cases w
  · exact arith IntTy.u32 v false
  · exact arith IntTy.u64 v true

theorem foldlM {f : β → α → [Target] → Out β} (h : ∀ b a, SameInRelease (f b a)) :
    ∀ (l : List α) (b : β), SameInRelease (l.foldlM (fun b a => f b a) b)
  | [], b => of_eq fun _ => rfl
  | a :: l, b => by
    simp only [List.foldlM_cons]
    exact bind (h b a) fun b => foldlM h l b

theorem mapM {f : α → [Target] → Out β} (h : ∀ a, SameInRelease (f a)) :
    ∀ (l : List α), SameInRelease (l.mapM (fun a => f a))
  | [] => of_eq fun _ => rfl
  | a :: l => by
    simp only [List.mapM_cons]
    exact bind (h a) fun b => bind (mapM h l) fun l => of_eq fun _ => rfl

theorem filterOut {f : (Int × Int) → [Target] → Out Bool} (h : ∀ a, SameInRelease (f a)) :
    ∀ (l : List (Int × Int)), SameInRelease (Gridbool.filterOut (fun a => f a) l)
  | [] => of_eq fun _ => rfl
  | a :: l => by
    simp only [Gridbool.filterOut]
    exact bind (h a) fun b => bind (filterOut h l) fun l => of_eq fun _ => rfl

theorem extendRow (T : PosTy) (y : Nat) (hset : ∀ (g : List α) p v, SameInRelease (Grid.set T g p v)) :
    ∀ (line : List α) (x : Nat) (g : List α), SameInRelease (Grid.extendRow T y x line g)
  | [], _, _ => of_eq fun _ => rfl
  | c :: line, x, g => by
    unfold Grid.extendRow
    split
    · exact of_eq fun _ => rfl
    · exact bind (hset _ _ _) fun _ => extendRow T y hset line _ _

theorem extendRows (T : PosTy) (hset : ∀ (g : List α) p v, SameInRelease (Grid.set T g p v)) :
    ∀ (v : List (List α)) (y : Nat) (g : List α), SameInRelease (Grid.extendRows T y v g)
  | [], _, _ => of_eq fun _ => rfl
  | line :: rest, y, g => by
    unfold Grid.extendRows
    refine bind (extendRow T y hset line 0 g) fun a => ?_
    obtain ⟨g, r⟩ := a
    cases r with
    | error e => exact of_eq fun _ => rfl
    | ok u => exact extendRows T hset rest _ _

theorem fromVecVecLoop (T : PosTy) (d : α) (h : ∀ (vec : List (List α)) i, SameInRelease (Grid.fromVecVecItem T d vec i)) :
    ∀ (n i : Nat) (vec : List (List α)), SameInRelease (Grid.fromVecVecLoop T d i n vec)
  | 0, _, _ => of_eq fun _ => rfl
  | n + 1, i, vec => by
    unfold Grid.fromVecVecLoop
    refine bind (h vec i) fun a => ?_
    obtain ⟨v, vec⟩ := a
    exact bind (fromVecVecLoop T d h n (i + 1) vec) fun _ => of_eq fun _ => rfl

theorem fromBoolsLoop (T : PosTy) (h : ∀ gb p b, SameInRelease (Gridbool.set T gb p b)) :
    ∀ (ps : List (Int × Int)) (items : List Bool) gb, SameInRelease (Gridbool.fromBoolsLoop T ps items gb)
  | [], _, _ => of_eq fun _ => rfl
  | _ :: _, [], _ => of_eq fun _ => rfl
  | p :: ps, b :: items, gb => by
    unfold Gridbool.fromBoolsLoop
    exact bind (h gb p b) fun gb => fromBoolsLoop T h ps items gb

/-- Splits code into its steps. -/
macro "same" "[" ts:term,* "]" : tactic => `(tactic| (
  repeat' first
    | exact of_eq fun _ => rfl
    | exact usize_arith _
    | exact arith _ _
    | assumption
    $[| exact $ts]*
    | refine bind ?_ fun _ => ?_
    | refine foldlM (fun _ _ => ?_) _ _
    | refine mapM (fun _ => ?_) _
    | refine filterOut (fun _ => ?_) _
    | split))

section
variable (T : PosTy)

theorem width : SameInRelease T.width := by unfold PosTy.width; same []
theorem height : SameInRelease T.height := by unfold PosTy.height; same []
theorem dimensions : SameInRelease T.dimensions := by unfold PosTy.dimensions; same [width T, height T]
theorem manhattan (p q : Int × Int) : SameInRelease (T.manhattan p q) := by unfold PosTy.manhattan; same []
theorem toUsize (p : Int × Int) : SameInRelease (T.toUsize p) := by unfold PosTy.toUsize; same [width T]
theorem tryFromUsize (i : Int) : SameInRelease (T.tryFromUsize i) := by unfold PosTy.tryFromUsize; same [width T]
theorem rotateCw (p : Int × Int) : SameInRelease (T.rotateCw p) := by unfold PosTy.rotateCw; same []
theorem rotateCc (p : Int × Int) : SameInRelease (T.rotateCc p) := by unfold PosTy.rotateCc; same []
theorem iterSizeHint (s : PosIter) : SameInRelease (s.sizeHint T) := by unfold PosIter.sizeHint; same [dimensions T]
theorem rangeSizeHint (s : PosIterRange) : SameInRelease (s.sizeHint T) := by unfold PosIterRange.sizeHint; same [width T, height T]
theorem inXSizeHint (s : Option (Int × Int)) : SameInRelease (PosIterInX.sizeHint T s) := by unfold PosIterInX.sizeHint; same [height T]
theorem inYSizeHint (s : Option (Int × Int)) : SameInRelease (PosIterInY.sizeHint T s) := by unfold PosIterInY.sizeHint; same [width T]

variable {α : Type} (g : List α)

theorem gridGet (p : Int × Int) : SameInRelease (Grid.get T g p) := by unfold Grid.get; same [toUsize T _]
theorem gridSet (p : Int × Int) (v : α) : SameInRelease (Grid.set T g p v) := by unfold Grid.set; same [toUsize T _]
theorem gridIterPos : SameInRelease (Grid.iterPos T g) := by unfold Grid.iterPos; same [gridGet T _ _]
theorem gridLine (y : Int) : SameInRelease (Grid.line T g y) := by unfold Grid.line; same [width T]
theorem gridLineMut (y : Int) (x : Nat) (v : α) : SameInRelease (Grid.lineMutSet T g y x v) := by
  unfold Grid.lineMutSet; same [width T]
theorem gridFlipH : SameInRelease (Grid.flipH T g) := by
  unfold Grid.flipH Grid.flipHStep; same [width T, toUsize T _]
theorem gridFlipV : SameInRelease (Grid.flipV T g) := by
  unfold Grid.flipV Grid.flipVStep; same [height T, toUsize T _]
theorem gridRotateCw (W : Int) : SameInRelease (Grid.rotateCw W g) := by
  unfold Grid.rotateCw Grid.rotateCwStep; same [height _, toUsize _ _, rotateCw _ _]
theorem gridRotateCc (W : Int) : SameInRelease (Grid.rotateCc W g) := by
  unfold Grid.rotateCc Grid.rotateCcStep; same [height _, toUsize _ _, rotateCw _ _]
theorem gridExtend (items : List ((Int × Int) × α)) : SameInRelease (Grid.extend T g items) := by
  unfold Grid.extend; same [gridSet T _ _ _]
theorem gridExtendVV (v : List (List α)) : SameInRelease (Grid.extendFromVecVec T g v) := by
  unfold Grid.extendFromVecVec
  exact extendRows T (gridSet T) v 0 g
theorem gridFromVVItem (d : α) (vec : List (List α)) (i : Nat) : SameInRelease (Grid.fromVecVecItem T d vec i) := by
  unfold Grid.fromVecVecItem
  refine bind (tryFromUsize T _) fun r => bind (of_eq fun _ => rfl) fun pos => of_eq fun w => rfl
theorem gridAnyLonger (vec : List (List α)) : SameInRelease (Grid.anyLonger T vec) := by
  induction vec with
  | nil => exact of_eq fun _ => rfl
  | cons v vs ih => unfold Grid.anyLonger; same [width T, ih]
theorem gridTooBig (vec : List (List α)) : SameInRelease (Grid.tooBig T vec) := by
  unfold Grid.tooBig; same [height T, gridAnyLonger T _]
theorem gridFromVV (SIZE : Nat) (d : α) (vec : List (List α)) : SameInRelease (Grid.tryFromVecVec T SIZE d vec) := by
  unfold Grid.tryFromVecVec; same [gridTooBig T _, fromVecVecLoop T d (gridFromVVItem T d) _ _ _]

theorem helper (f : Fmt) (w h : Int) (items : List (List Char)) : SameInRelease (Display.helper f w h items) := by
  unfold Display.helper; same []
theorem gridDisplay (f : Fmt) (shw : α → List Char) : SameInRelease (Grid.display T f shw g) := by
  unfold Grid.display; same [width T, height T, helper _ _ _ _]

variable (gb : List (BitVec 32))

theorem gbGet (p : Int × Int) : SameInRelease (Gridbool.get T gb p) := by unfold Gridbool.get; same [toUsize T _]
theorem gbSetT (p : Int × Int) : SameInRelease (Gridbool.setT T gb p) := by unfold Gridbool.setT; same [toUsize T _]
theorem gbSetF (p : Int × Int) : SameInRelease (Gridbool.setF T gb p) := by unfold Gridbool.setF; same [toUsize T _]
theorem gbSet (p : Int × Int) (v : Bool) : SameInRelease (Gridbool.set T gb p v) := by
  unfold Gridbool.set; same [gbSetT T _ _, gbSetF T _ _]
theorem gbIter : SameInRelease (Gridbool.iter T gb) := by unfold Gridbool.iter; same [gbGet T _ _]
theorem gbIterPos : SameInRelease (Gridbool.iterPos T gb) := by unfold Gridbool.iterPos; same [gbGet T _ _]
theorem gbIterT : SameInRelease (Gridbool.iterT T gb) := by unfold Gridbool.iterT; same [gbGet T _ _]
theorem gbIterF : SameInRelease (Gridbool.iterF T gb) := by unfold Gridbool.iterF; same [gbGet T _ _]
theorem gbSetIterT (ps : List (Int × Int)) : SameInRelease (Gridbool.setIterT T gb ps) := by unfold Gridbool.setIterT; same [gbSetT T _ _]
theorem gbSetIterF (ps : List (Int × Int)) : SameInRelease (Gridbool.setIterF T gb ps) := by unfold Gridbool.setIterF; same [gbSetF T _ _]
theorem gbFlipH : SameInRelease (Gridbool.flipH T gb) := by
  unfold Gridbool.flipH Gridbool.flipHStep; same [width T, gbGet T _ _, gbSet T _ _ _]
theorem gbFlipV : SameInRelease (Gridbool.flipV T gb) := by
  unfold Gridbool.flipV Gridbool.flipVStep; same [height T, gbGet T _ _, gbSet T _ _ _]
theorem gbRotateCw (M : Int) : SameInRelease (Gridbool.rotateCw M gb) := by
  unfold Gridbool.rotateCw Gridbool.rotateCwStep; same [rotateCw _ _, gbGet _ _ _, gbSet _ _ _ _]
theorem gbRotateCc (M : Int) : SameInRelease (Gridbool.rotateCc M gb) := by
  unfold Gridbool.rotateCc Gridbool.rotateCcStep; same [rotateCw _ _, gbGet _ _ _, gbSet _ _ _ _]
theorem gbFromPositions (WORDS : Nat) (ps : List (Int × Int)) : SameInRelease (Gridbool.fromPositions T WORDS ps) := by
  unfold Gridbool.fromPositions; same [gbSetIterT T _ _]
theorem gbFromBools (WORDS : Nat) (items : List Bool) : SameInRelease (Gridbool.fromBools T WORDS items) := by
  unfold Gridbool.fromBools; same [fromBoolsLoop T (gbSet T) _ _ _]
theorem gbDisplay (f : Fmt) : SameInRelease (Gridbool.display T f gb) := by
  unfold Gridbool.display; same [width T, height T, gbIter T _, helper _ _ _ _]

end

end Spec.SameInRelease

end Sqrid
