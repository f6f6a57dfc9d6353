import Verif.Spec.Target
import Verif.Model.Base
/-!
# Computations without undefined behaviour
-/

namespace Sqrid

/-- The outcome is not undefined behaviour. -/
def Out.NoUb (x : Out α) : Prop := x ≠ .ub

namespace Out.NoUb

theorem ok (a : α) : (Out.ok a).NoUb := by intro h; cases h
theorem panic : (Out.panic : Out α).NoUb := by intro h; cases h
theorem timeout : (Out.timeout : Out α).NoUb := by intro h; cases h

theorem bind {x : Out α} {f : α → Out β} (hx : x.NoUb) (hf : ∀ a, (f a).NoUb) : (x >>= f).NoUb := by
  cases x with
  | ok a => exact hf a
  | panic => exact panic
  | ub => exact absurd rfl hx
  | timeout => exact timeout

theorem unwrap (x : Option α) : (Out.unwrap x).NoUb := by
  cases x
  · exact panic
  · exact ok _

theorem unwrapRes (x : Res α) : (Out.unwrapRes x).NoUb := by
  cases x
  · exact panic
  · exact ok _

theorem foldlM {f : σ → α → Out σ} (hf : ∀ s a, (f s a).NoUb) : ∀ (l : List α) (s : σ), (l.foldlM f s).NoUb
  | [], s => ok s
  | a :: l, s => by
    rw [List.foldlM_cons]
    exact (hf s a).bind (foldlM hf l)

theorem arith [Target] (t : IntTy) (v : Int) : (t.arith v).NoUb := by
  unfold IntTy.arith
  split
  · exact ok _
  · split
    · exact panic
    · exact ok _

theorem add [Target] (t : IntTy) (a b : Int) : (t.add a b).NoUb := arith _ _
theorem sub [Target] (t : IntTy) (a b : Int) : (t.sub a b).NoUb := arith _ _
theorem mul [Target] (t : IntTy) (a b : Int) : (t.mul a b).NoUb := arith _ _

theorem flip (d : Dir) : d.flip.NoUb := unwrap _

theorem dirs (D : Bool) : (DirIter.toList D).NoUb := by unfold Out.NoUb; cases D <;> decide

theorem intoUsize [Target] (T : BTy) (v : Int) : (PosTy.intoUsize T v).NoUb := unwrapRes _

theorem width [Target] (T : PosTy) : T.width.NoUb := (intoUsize _ _).bind fun _ => add _ _ _

theorem manhattan [Target] (T : PosTy) (p q : Int × Int) : (T.manhattan p q).NoUb :=
  (unwrap _).bind fun _ => (unwrap _).bind fun _ => (intoUsize _ _).bind fun _ => (intoUsize _ _).bind fun _ => add _ _ _

theorem collectWith {next : σ → Out (Option α × σ)} (h : ∀ s, (next s).NoUb) : ∀ (fuel : Nat) (s : σ), (Sqrid.collectWith next fuel s).NoUb
  | 0, _ => timeout
  | fuel + 1, s => by
    refine (h s).bind fun r => ?_
    obtain ⟨v, s'⟩ := r
    cases v with
    | none => exact ok _
    | some a => exact (collectWith h fuel s').bind fun _ => ok _

end Out.NoUb

open Out.NoUb

/-- No operation of the set has undefined behaviour. -/
structure SetImpl.Safe (S : SetImpl) : Prop where
  contains : ∀ s p, (S.contains s p).NoUb
  insert : ∀ s p, (S.insert s p).NoUb

/-- No operation of the map has undefined behaviour. -/
structure MapImpl.Safe {Item : Type} (M : MapImpl Item) : Prop where
  get : ∀ s p, (M.get s p).NoUb
  set : ∀ s p v, (M.set s p v).NoUb

theorem SetImpl.hash_safe : SetImpl.hash.Safe := ⟨fun _ _ => ok _, fun _ _ => ok _⟩
theorem SetImpl.btree_safe : SetImpl.btree.Safe := ⟨fun _ _ => ok _, fun _ _ => ok _⟩
theorem MapImpl.hash_safe (dflt : Item) : (MapImpl.hash dflt).Safe := ⟨fun _ _ => ok _, fun _ _ _ => ok _⟩
theorem MapImpl.btree_safe (dflt : Item) : (MapImpl.btree dflt).Safe := ⟨fun _ _ => ok _, fun _ _ _ => ok _⟩

theorem camefromLoop_noUb (T : PosTy) {M : MapImpl (Option Dir)} (hM : M.Safe) (map : M.σ) (orig : Int × Int) :
    ∀ (n : Nat) (pos : Int × Int) (ret : List Dir), (camefromLoop T M map orig n pos ret).NoUb
  | 0, _, _ => ok _
  | n + 1, pos, ret => by
    rw [camefromLoop]
    split
    · exact ok _
    · refine (hM.get _ _).bind fun d => ?_
      cases d with
      | none => exact ok _
      | some d =>
        refine (Out.NoUb.flip d).bind fun neg => ?_
        cases T.addDir pos d with
        | error e => exact ok _
        | ok pos' => exact camefromLoop_noUb T hM map orig n pos' _

theorem withCapacity_noUb [Target] (n : Int) : (withCapacity n).NoUb := by
  unfold withCapacity
  split
  · exact ok _
  · exact fun h => by cases h

theorem camefromIntoPath_noUb [Target] (T : PosTy) {M : MapImpl (Option Dir)} (hM : M.Safe) (map : M.σ) (orig dest : Int × Int) :
    (camefromIntoPath T M map orig dest).NoUb := by
  refine (manhattan T orig dest).bind fun _ => (mul _ _ _).bind fun _ => (withCapacity_noUb _).bind fun _ => (hM.get _ _).bind fun d => ?_
  cases d with
  | none => exact ok _
  | some d =>
    exact (width T).bind fun _ => (width T).bind fun _ => (mul _ _ _).bind fun _ => (add _ _ _).bind fun _ => camefromLoop_noUb T hM _ _ _ _ _

theorem BfIter.next_noUb {S : SetImpl} (hS : S.Safe) (D : Bool) (go) (s : BfIter S) : (s.next S D go).NoUb := by
  rw [BfIter.next]
  split
  · exact ok _
  · refine (Out.NoUb.foldlM (fun st mov => ?_) _ _).bind fun _ => ok _
    refine (dirs D).bind fun ds => (Out.NoUb.foldlM (fun st d => ?_) _ _).bind fun _ => (hS.insert _ _).bind fun _ => ok _
    rw [BfIter.visitDir]
    split
    · exact ok _
    · refine (hS.contains _ _).bind fun b => ?_
      cases b with
      | true => exact ok _
      | false => exact (Out.NoUb.flip d).bind fun _ => (hS.insert _ _).bind fun _ => ok _

theorem BfIter.new_noUb {S : SetImpl} (hS : S.Safe) (D : Bool) (go) (orig : Int × Int) : (BfIter.new S D go orig).NoUb :=
  (BfIter.next_noUb hS D go _).bind fun _ => ok _

theorem Bf.scanLayer_noUb {M : MapImpl (Option Dir)} (hM : M.Safe) (found) : ∀ (l : List ((Int × Int) × Dir)) (m : M.σ), (Bf.scanLayer M found l m).NoUb
  | [], _ => ok _
  | (p, d) :: l, m => by
    rw [Bf.scanLayer]
    refine (hM.set _ _ _).bind fun m => ?_
    split
    · exact ok _
    · exact Bf.scanLayer_noUb hM found l m

theorem Bf.searchLoop_noUb {S : SetImpl} {M : MapImpl (Option Dir)} (hS : S.Safe) (hM : M.Safe) (D : Bool) (go) (found) :
    ∀ (fuel : Nat) (it : BfIter S) (m : M.σ), (Bf.searchLoop S M D go found fuel it m).NoUb
  | 0, _, _ => timeout
  | fuel + 1, it, m => by
    rw [Bf.searchLoop]
    refine (BfIter.next_noUb hS D go it).bind fun r => ?_
    obtain ⟨layer, it'⟩ := r
    cases layer with
    | none => exact ok _
    | some layer =>
      refine (Bf.scanLayer_noUb hM found layer m).bind fun r => ?_
      obtain ⟨m', hit⟩ := r
      cases hit with
      | some pos => exact ok _
      | none => exact Bf.searchLoop_noUb hS hM D go found fuel it' m'

theorem Bf.searchPath_noUb [Target] (T : PosTy) {S : SetImpl} {M : MapImpl (Option Dir)} (hS : S.Safe) (hM : M.Safe) (D : Bool) (go) (orig : Int × Int)
    (found) (fuel : Nat) : (Bf.searchPath T S M D go orig found fuel).NoUb := by
  refine ((BfIter.new_noUb hS D go orig).bind fun it => Bf.searchLoop_noUb hS hM D go found fuel it M.default).bind fun r => ?_
  cases r with
  | error e => exact ok _
  | ok r =>
    refine (camefromIntoPath_noUb T hM _ _ _).bind fun r => ?_
    cases r <;> exact ok _

theorem Bf.iterAll_noUb {S : SetImpl} (hS : S.Safe) (D : Bool) (go) (orig : Int × Int) (fuel : Nat) : (Bf.iterAll S D go orig fuel).NoUb :=
  (BfIter.new_noUb hS D go orig).bind fun _ => Out.NoUb.collectWith (BfIter.next_noUb hS D go) _ _

theorem AstarIter.next_noUb [Target] (T : PosTy) {C : MapImpl Int} (hC : C.Safe) (D : Bool) (go) (dest : Int × Int) (s : AstarIter C) :
    (s.next T C D go dest).NoUb := by
  rw [AstarIter.next]
  split
  · refine (dirs D).bind fun ds => (Out.NoUb.foldlM (fun st d => ?_) _ _).bind fun _ => ok _
    refine (hC.get _ _).bind fun c => (add _ _ _).bind fun nc => ?_
    split
    · exact ok _
    · refine (hC.get _ _).bind fun old => ?_
      split
      · exact (hC.set _ _ _).bind fun _ => (manhattan T _ _).bind fun _ => (add _ _ _).bind fun _ => (Out.NoUb.flip d).bind fun _ => ok _
      · exact ok _
  · exact ok _

theorem Astar.searchLoop_noUb [Target] (T : PosTy) {M : MapImpl (Option Dir)} {C : MapImpl Int} (hM : M.Safe) (hC : C.Safe) (D : Bool) (go) (dest : Int × Int) :
    ∀ (fuel : Nat) (it : AstarIter C) (m : M.σ), (Astar.searchLoop T M C D go dest fuel it m).NoUb
  | 0, _, _ => timeout
  | fuel + 1, it, m => by
    rw [Astar.searchLoop]
    refine (AstarIter.next_noUb T hC D go dest it).bind fun r => ?_
    obtain ⟨mov, it'⟩ := r
    cases mov with
    | none => exact ok _
    | some mov =>
      refine (hM.set _ _ _).bind fun m' => ?_
      split
      · exact ok _
      · exact Astar.searchLoop_noUb T hM hC D go dest fuel it' m'

theorem Astar.searchPath_noUb [Target] (T : PosTy) {M : MapImpl (Option Dir)} {C : MapImpl Int} (hM : M.Safe) (hC : C.Safe) (D : Bool) (go)
    (orig dest : Int × Int) (fuel : Nat) : (Astar.searchPath T M C D go orig dest fuel).NoUb := by
  refine (((hC.set _ _ _).bind fun _ => ok _).bind fun it => Astar.searchLoop_noUb T hM hC D go dest fuel it M.default).bind fun r => ?_
  cases r with
  | error e => exact ok _
  | ok m => exact camefromIntoPath_noUb T hM _ _ _

theorem UcsIter.next_noUb [Target] {C : MapImpl Int} (hC : C.Safe) (D : Bool) (go) (s : UcsIter C) : (s.next C D go).NoUb := by
  rw [UcsIter.next]
  split
  · refine (dirs D).bind fun ds => (Out.NoUb.foldlM (fun st d => ?_) _ _).bind fun _ => ok _
    rw [UcsIter.relax]
    split
    · exact ok _
    · refine (hC.get _ _).bind fun c => (add _ _ _).bind fun nc => (hC.get _ _).bind fun old => ?_
      split
      · exact (hC.set _ _ _).bind fun _ => (Out.NoUb.flip d).bind fun _ => ok _
      · exact ok _
  · exact ok _

theorem Ucs.searchLoop_noUb [Target] {M : MapImpl (Option Dir)} {C : MapImpl Int} (hM : M.Safe) (hC : C.Safe) (D : Bool) (go) (dest : Int × Int) :
    ∀ (fuel : Nat) (it : UcsIter C) (m : M.σ), (Ucs.searchLoop M C D go dest fuel it m).NoUb
  | 0, _, _ => timeout
  | fuel + 1, it, m => by
    rw [Ucs.searchLoop]
    refine (UcsIter.next_noUb hC D go it).bind fun r => ?_
    obtain ⟨mov, it'⟩ := r
    cases mov with
    | none => exact ok _
    | some mov =>
      refine (hM.set _ _ _).bind fun m' => ?_
      split
      · exact ok _
      · exact Ucs.searchLoop_noUb hM hC D go dest fuel it' m'

theorem Ucs.searchPath_noUb [Target] (T : PosTy) {M : MapImpl (Option Dir)} {C : MapImpl Int} (hM : M.Safe) (hC : C.Safe) (D : Bool) (go)
    (orig dest : Int × Int) (fuel : Nat) : (Ucs.searchPath T M C D go orig dest fuel).NoUb := by
  refine (((hC.set _ _ _).bind fun _ => ok _).bind fun it => Ucs.searchLoop_noUb hM hC D go dest fuel it M.default).bind fun r => ?_
  cases r with
  | error e => exact ok _
  | ok m => exact camefromIntoPath_noUb T hM _ _ _

end Sqrid
