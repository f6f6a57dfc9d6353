import Verif.Model.Bf
import Verif.Model.Astar
import Verif.Model.Ucs
/-! The step limits of the model do not matter: a run that ends within a limit ends in the same way within every larger one. -/

namespace Sqrid

/-- `a` is `b`, or ran into its limit. -/
def Out.Below (a b : Out α) : Prop := a = .timeout ∨ b = a

namespace Out.Below

theorem refl (a : Out α) : Out.Below a a := .inr rfl

theorem timeout (b : Out α) : Out.Below .timeout b := .inl rfl

theorem bind {a b : Out α} {f g : α → Out β} (h : Out.Below a b) (hf : ∀ x, Out.Below (f x) (g x)) : Out.Below (a >>= f) (b >>= g) := by
  rcases h with rfl | rfl
  · exact .inl rfl
  · cases b with
    | ok x => exact hf x
    | panic => exact .inr rfl
    | ub => exact .inr rfl
    | timeout => exact .inl rfl

theorem ok {a b : Out α} (h : Out.Below a b) {x : α} (ha : a = .ok x) : b = .ok x := by
  rcases h with h | h
  · rw [ha] at h; cases h
  · rw [h, ha]

end Out.Below

theorem Bf.searchLoop_below (S : SetImpl) (M : MapImpl (Option Dir)) (D : Bool) (go : Int × Int → Dir → Option (Int × Int)) (found : Int × Int → Bool)
    {m n : Nat} (h : m ≤ n) (it : BfIter S) (s : M.σ) : Out.Below (searchLoop S M D go found m it s) (searchLoop S M D go found n it s) := by
  induction m generalizing n it s with
  | zero => exact .timeout _
  | succ m ih =>
    obtain ⟨n, rfl⟩ : ∃ k, n = k + 1 := ⟨n - 1, by omega⟩
    refine .bind (.refl _) fun ⟨layer, it⟩ => ?_
    cases layer with
    | none => exact .refl _
    | some layer =>
      refine .bind (.refl _) fun ⟨s, hit⟩ => ?_
      cases hit with
      | some p => exact .refl _
      | none => exact ih (by omega) it s

theorem Bf.searchPath_below [Target] (T : PosTy) (S : SetImpl) (M : MapImpl (Option Dir)) (D : Bool) (go : Int × Int → Dir → Option (Int × Int)) (orig : Int × Int)
    (found : Int × Int → Bool) {m n : Nat} (h : m ≤ n) : Out.Below (searchPath T S M D go orig found m) (searchPath T S M D go orig found n) :=
  .bind (.bind (.refl _) fun it => searchLoop_below S M D go found h it _) fun _ => .refl _

theorem Astar.searchLoop_below [Target] (T : PosTy) (M : MapImpl (Option Dir)) (C : MapImpl Int) (D : Bool) (go : Int × Int → Dir → Option (Int × Int))
    (dest : Int × Int) {m n : Nat} (h : m ≤ n) (it : AstarIter C) (s : M.σ) :
    Out.Below (searchLoop T M C D go dest m it s) (searchLoop T M C D go dest n it s) := by
  induction m generalizing n it s with
  | zero => exact .timeout _
  | succ m ih =>
    obtain ⟨n, rfl⟩ : ∃ k, n = k + 1 := ⟨n - 1, by omega⟩
    refine .bind (.refl _) fun ⟨mov, it⟩ => ?_
    cases mov with
    | none => exact .refl _
    | some pd =>
      refine .bind (.refl _) fun s => ?_
      split
      · exact .refl _
      · exact ih (by omega) it s

theorem Astar.searchPath_below [Target] (T : PosTy) (M : MapImpl (Option Dir)) (C : MapImpl Int) (D : Bool) (go : Int × Int → Dir → Option (Int × Int))
    (orig dest : Int × Int) {m n : Nat} (h : m ≤ n) : Out.Below (searchPath T M C D go orig dest m) (searchPath T M C D go orig dest n) :=
  .bind (.bind (.refl _) fun it => searchLoop_below T M C D go dest h it _) fun _ => .refl _

theorem Ucs.searchLoop_below [Target] (M : MapImpl (Option Dir)) (C : MapImpl Int) (D : Bool) (go : Int × Int → Dir → Option ((Int × Int) × Int))
    (dest : Int × Int) {m n : Nat} (h : m ≤ n) (it : UcsIter C) (s : M.σ) :
    Out.Below (searchLoop M C D go dest m it s) (searchLoop M C D go dest n it s) := by
  induction m generalizing n it s with
  | zero => exact .timeout _
  | succ m ih =>
    obtain ⟨n, rfl⟩ : ∃ k, n = k + 1 := ⟨n - 1, by omega⟩
    refine .bind (.refl _) fun ⟨mov, it⟩ => ?_
    cases mov with
    | none => exact .refl _
    | some pd =>
      refine .bind (.refl _) fun s => ?_
      split
      · exact .refl _
      · exact ih (by omega) it s

theorem Ucs.searchPath_below [Target] (T : PosTy) (M : MapImpl (Option Dir)) (C : MapImpl Int) (D : Bool) (go : Int × Int → Dir → Option ((Int × Int) × Int))
    (orig dest : Int × Int) {m n : Nat} (h : m ≤ n) : Out.Below (searchPath T M C D go orig dest m) (searchPath T M C D go orig dest n) :=
  .bind (.bind (.refl _) fun it => searchLoop_below M C D go dest h it _) fun _ => .refl _

end Sqrid
