import Verif.Proofs.Release
/-!
# Debug and release builds: traversals and searches
-/

namespace Sqrid

open Spec

/-- The first outcome is a panic, or both are of the same kind, with related values. -/
def Out.LeR (R : α → β → Prop) : Out α → Out β → Prop
  | .panic, _ => True
  | .ok a, .ok b => R a b
  | .ub, .ub => True
  | .timeout, .timeout => True
  | _, _ => False

namespace Out.LeR

theorem bind {R : α → β → Prop} {Q : γ → δ → Prop} {x : Out α} {y : Out β} {f : α → Out γ} {g : β → Out δ} (h : LeR R x y)
    (hf : ∀ a b, R a b → LeR Q (f a) (g b)) : LeR Q (x >>= f) (y >>= g) := by
  cases x <;> cases y <;> simp_all [LeR]

theorem of_same {f : [Target] → Out α} (h : SameInRelease f) (w : Bool) : LeR Eq (@f ⟨true, w⟩) (@f ⟨false, w⟩) := by
  have h := h w
  beta_reduce at h
  rcases h with h | h
  · rw [h]; trivial
  · rw [h]
    cases @f ⟨true, w⟩ <;> trivial

theorem same {f : [Target] → Out α} (h : ∀ w, LeR Eq (@f ⟨true, w⟩) (@f ⟨false, w⟩)) : SameInRelease f := by
  intro w
  have := h w
  clear h
  beta_reduce
  revert this
  generalize @f ⟨true, w⟩ = x
  generalize @f ⟨false, w⟩ = y
  intro this
  cases x <;> cases y <;> simp_all [LeR]

theorem refl {R : α → α → Prop} (h : ∀ a, R a a) (x : Out α) : LeR R x x := by
  cases x <;> first | exact h _ | trivial

end Out.LeR

variable {W : Type}

/-- Computations with closures related for every state of the world. -/
def EffLe {α β : Type} (R : α → β → Prop) (x : Eff W α) (y : Eff W β) : Prop :=
  ∀ w, Out.LeR (fun a b => R a.1 b.1 ∧ a.2 = b.2) (x w) (y w)

namespace EffLe

theorem bind {α β γ δ : Type} {R : α → β → Prop} {Q : γ → δ → Prop} {x : Eff W α} {y : Eff W β} {f : α → Eff W γ} {g : β → Eff W δ}
    (h : EffLe R x y) (hf : ∀ a b, R a b → EffLe Q (f a) (g b)) : EffLe Q (x >>= f) (y >>= g) := by
  intro w
  refine Out.LeR.bind (h w) fun a b hab => ?_
  obtain ⟨a, w1⟩ := a
  obtain ⟨b, w2⟩ := b
  obtain ⟨hab, rfl⟩ := hab
  exact hf a b hab w1

theorem pure {α β : Type} {R : α → β → Prop} {a : α} {b : β} (h : R a b) : EffLe (W := W) R (Pure.pure a) (Pure.pure b) := fun _ => ⟨h, rfl⟩

theorem code {α β : Type} {R : α → β → Prop} {x : Out α} {y : Out β} (h : Out.LeR R x y) : EffLe (W := W) R (Eff.code x) (Eff.code y) := fun _ =>
  Out.LeR.bind h fun _ _ hab => ⟨hab, rfl⟩

theorem refl {α : Type} (x : Eff W α) : EffLe Eq x x := fun w => Out.LeR.refl (fun _ => ⟨rfl, rfl⟩) (x w)

theorem foldlM {α σ σ' : Type} {R : σ → σ' → Prop} {f : σ → α → Eff W σ} {g : σ' → α → Eff W σ'} (h : ∀ a s s', R s s' → EffLe R (f s a) (g s' a)) :
    ∀ (l : List α) (s s'), R s s' → EffLe R (l.foldlM f s) (l.foldlM g s')
  | [], _, _, hs => pure hs
  | a :: l, s, s', hs => by
    simp only [List.foldlM_cons]
    exact bind (h a s s' hs) fun _ _ h' => foldlM h l _ _ h'

theorem takeM {σ σ' α : Type} {R : σ → σ' → Prop} {f : σ → Eff W (Option α × σ)} {g : σ' → Eff W (Option α × σ')}
    (h : ∀ s s', R s s' → EffLe (fun a b => a.1 = b.1 ∧ R a.2 b.2) (f s) (g s')) :
    ∀ (n : Nat) (s s'), R s s' → EffLe (fun a b => a.1 = b.1 ∧ R a.2 b.2) (Sqrid.takeM f n s) (Sqrid.takeM g n s')
  | 0, _, _, hs => pure ⟨rfl, hs⟩
  | n + 1, s, s', hs => by
    unfold Sqrid.takeM
    refine bind (h s s' hs) fun a b hab => ?_
    obtain ⟨o, s⟩ := a
    obtain ⟨o', s'⟩ := b
    obtain ⟨ho, hs⟩ := hab
    dsimp only at ho hs
    subst ho
    cases o with
    | none => exact pure ⟨rfl, hs⟩
    | some a =>
      refine bind (takeM h n s s' hs) fun x y hxy => ?_
      exact pure ⟨by rw [hxy.1], hxy.2⟩

theorem collectM {σ σ' α : Type} {R : σ → σ' → Prop} {f : σ → Eff W (Option α × σ)} {g : σ' → Eff W (Option α × σ')}
    (h : ∀ s s', R s s' → EffLe (fun a b => a.1 = b.1 ∧ R a.2 b.2) (f s) (g s')) :
    ∀ (n : Nat) (s s'), R s s' → EffLe Eq (Sqrid.collectM f n s) (Sqrid.collectM g n s')
  | 0, _, _, hs => refl _
  | n + 1, s, s', hs => by
    unfold Sqrid.collectM
    refine bind (h s s' hs) fun a b hab => ?_
    obtain ⟨o, s⟩ := a
    obtain ⟨o', s'⟩ := b
    obtain ⟨ho, hs⟩ := hab
    dsimp only at ho hs
    subst ho
    cases o with
    | none => exact refl _
    | some a =>
      refine bind (collectM h n s s' hs) fun x y hxy => ?_
      subst hxy
      exact refl _

end EffLe

/-- Two implementations of sets, related by `R`. -/
structure SetLe (S S' : SetImpl) (R : S.σ → S'.σ → Prop) : Prop where
  default : R S.default S'.default
  contains : ∀ s s' p, R s s' → Out.LeR Eq (S.contains s p) (S'.contains s' p)
  insert : ∀ s s' p, R s s' → Out.LeR R (S.insert s p) (S'.insert s' p)

theorem SetLe.refl (S : SetImpl) : SetLe S S Eq where
  default := rfl
  contains := fun s s' p h => by subst h; exact .refl (fun _ => rfl) _
  insert := fun s s' p h => by subst h; exact .refl (fun _ => rfl) _

theorem SetLe.gridbool (T : PosTy) (WORDS : Nat) (w : Bool) :
    SetLe (@SetImpl.gridbool ⟨true, w⟩ T WORDS) (@SetImpl.gridbool ⟨false, w⟩ T WORDS) (fun a b => a = b) where
  default := rfl
  contains := fun s s' p h => by subst h; exact .of_same (SameInRelease.gbGet T s p) w
  insert := fun s s' p h => by subst h; exact .of_same (SameInRelease.gbSetT T s p) w

/-- Two implementations of maps, related by `R`. -/
structure MapLe {Item : Type} (M M' : MapImpl Item) (R : M.σ → M'.σ → Prop) : Prop where
  default : R M.default M'.default
  new : ∀ v, R (M.new v) (M'.new v)
  get : ∀ s s' p, R s s' → Out.LeR Eq (M.get s p) (M'.get s' p)
  set : ∀ s s' p v, R s s' → Out.LeR R (M.set s p v) (M'.set s' p v)

theorem MapLe.refl {Item : Type} (M : MapImpl Item) : MapLe M M Eq where
  default := rfl
  new := fun _ => rfl
  get := fun s s' p h => by subst h; exact .refl (fun _ => rfl) _
  set := fun s s' p v h => by subst h; exact .refl (fun _ => rfl) _

theorem MapLe.grid {Item : Type} (T : PosTy) (SIZE : Nat) (d : Item) (w : Bool) :
    MapLe (@MapImpl.grid Item ⟨true, w⟩ T SIZE d) (@MapImpl.grid Item ⟨false, w⟩ T SIZE d) (fun a b => a = b) where
  default := rfl
  new := fun _ => rfl
  get := fun s s' p h => by subst h; exact .of_same (SameInRelease.gridGet T s p) w
  set := fun s s' p v h => by subst h; exact .of_same (SameInRelease.gridSet T s p v) w

section Bf

variable {S S' : SetImpl} {R : S.σ → S'.σ → Prop} (hS : SetLe S S' R)

/-- The states of the traversal are related. -/
def BfLe (R : S.σ → S'.σ → Prop) (s : BfIter S) (s' : BfIter S') : Prop := R s.visited s'.visited ∧ s.nextfront = s'.nextfront

include hS

theorem BfLe.visitDir (go : Int × Int → Dir → Eff W (Option (Int × Int))) (p : Int × Int) (d : Dir) (s : BfIter S) (s' : BfIter S') (h : BfLe R s s') :
    EffLe (BfLe R) (BfIter.visitDirM S go p s d) (BfIter.visitDirM S' go p s' d) := by
  unfold BfIter.visitDirM
  refine .bind (.refl (go p d)) fun o o' ho => ?_
  subst ho
  cases o with
  | none => exact .pure h
  | some q =>
    refine .bind (.code (hS.contains _ _ q h.1)) fun b b' hb => ?_
    subst hb
    cases b with
    | true => exact .pure h
    | false =>
      refine .bind (.refl _) fun n n' hn => ?_
      subst hn
      refine .bind (.code (hS.insert _ _ q h.1)) fun v v' hv => ?_
      refine .pure ⟨hv, ?_⟩
      simp [h.2]

theorem BfLe.visitPos (D : Bool) (go : Int × Int → Dir → Eff W (Option (Int × Int))) (m : (Int × Int) × Dir) (s : BfIter S) (s' : BfIter S')
    (h : BfLe R s s') : EffLe (BfLe R) (BfIter.visitPosM S D go s m) (BfIter.visitPosM S' D go s' m) := by
  unfold BfIter.visitPosM
  refine .bind (.refl _) fun ds ds' hd => ?_
  subst hd
  refine .bind (.foldlM (fun d s s' h => BfLe.visitDir hS go m.1 d s s' h) ds s s' h) fun s s' h => ?_
  exact .bind (.code (hS.insert _ _ m.1 h.1)) fun v v' hv => .pure ⟨hv, h.2⟩

theorem BfLe.next (D : Bool) (go : Int × Int → Dir → Eff W (Option (Int × Int))) (s : BfIter S) (s' : BfIter S') (h : BfLe R s s') :
    EffLe (fun a b => a.1 = b.1 ∧ BfLe R a.2 b.2) (BfIter.nextM S D go s) (BfIter.nextM S' D go s') := by
  obtain ⟨v, f⟩ := s
  obtain ⟨v', f'⟩ := s'
  obtain ⟨hv, hf⟩ := h
  dsimp only at hv hf
  subst hf
  unfold BfIter.nextM
  dsimp only
  split
  · exact .pure ⟨rfl, hv, rfl⟩
  · exact .bind (.foldlM (fun d s s' h => BfLe.visitPos hS D go d s s' h) f _ _ ⟨hv, rfl⟩) fun s s' h => .pure ⟨rfl, h⟩

theorem BfLe.new (D : Bool) (go : Int × Int → Dir → Eff W (Option (Int × Int))) (orig : Int × Int) :
    EffLe (BfLe R) (BfIter.newM S D go orig) (BfIter.newM S' D go orig) := by
  unfold BfIter.newM
  exact .bind (BfLe.next hS D go _ _ ⟨hS.default, rfl⟩) fun a b h => .pure h.2

theorem Bf.iterTake_le (D : Bool) (go : Int × Int → Dir → Eff W (Option (Int × Int))) (orig : Int × Int) (n : Nat) :
    EffLe Eq (Bf.iterTakeM S D go orig n) (Bf.iterTakeM S' D go orig n) := by
  unfold Bf.iterTakeM
  exact .bind (BfLe.new hS D go orig) fun s s' h => .bind (.takeM (BfLe.next hS D go) n s s' h) fun a b h => .pure h.1

theorem Bf.iterAll_le (D : Bool) (go : Int × Int → Dir → Eff W (Option (Int × Int))) (orig : Int × Int) (n : Nat) :
    EffLe Eq (Bf.iterAllM S D go orig n) (Bf.iterAllM S' D go orig n) := by
  unfold Bf.iterAllM
  exact .bind (BfLe.new hS D go orig) fun s s' h => .collectM (BfLe.next hS D go) n s s' h

end Bf

section Path

variable {M M' : MapImpl (Option Dir)} {Q : M.σ → M'.σ → Prop} (hM : MapLe M M' Q)

include hM

theorem camefromLoop_le (T : PosTy) (m : M.σ) (m' : M'.σ) (h : Q m m') (orig : Int × Int) :
    ∀ (n : Nat) (p : Int × Int) (ret : List Dir), Out.LeR Eq (camefromLoop T M m orig n p ret) (camefromLoop T M' m' orig n p ret)
  | 0, _, _ => .refl (fun _ => rfl) _
  | n + 1, p, ret => by
    unfold camefromLoop
    by_cases hp : p = orig
    · rw [if_pos hp, if_pos hp]; exact .refl (fun _ => rfl) _
    · rw [if_neg hp, if_neg hp]
      refine .bind (hM.get m m' p h) fun o o' ho => ?_
      subst ho
      cases o with
      | none => exact .refl (fun _ => rfl) _
      | some d =>
        refine .bind (R := Eq) (.refl (fun _ => rfl) _) fun e e' he => ?_
        subst he
        cases T.addDir p d with
        | error e => exact .refl (fun _ => rfl) _
        | ok q => exact camefromLoop_le T m m' h orig n q _

theorem camefromIntoPath_le (T : PosTy) (w : Bool) (m : M.σ) (m' : M'.σ) (h : Q m m') (orig dest : Int × Int) :
    Out.LeR Eq (@camefromIntoPath ⟨true, w⟩ T M m orig dest) (@camefromIntoPath ⟨false, w⟩ T M' m' orig dest) := by
  unfold camefromIntoPath
  refine .bind (.of_same (SameInRelease.manhattan T orig dest) w) fun a b e => ?_
  subst e
  refine .bind (.of_same (SameInRelease.usize_arith (2 * a)) w) fun b b' e => ?_
  subst e
  refine .bind (x := @withCapacity ⟨true, w⟩ b) (y := @withCapacity ⟨false, w⟩ b) (.refl (fun _ => rfl) _) fun _ _ _ => ?_
  refine .bind (hM.get m m' dest h) fun o o' ho => ?_
  subst ho
  cases o with
  | none => exact .refl (fun _ => rfl) _
  | some d =>
    refine .bind (.of_same (SameInRelease.width T) w) fun a b e => ?_
    subst e
    refine .bind (.of_same (SameInRelease.width T) w) fun b b' e => ?_
    subst e
    refine .bind (.of_same (SameInRelease.usize_arith (a * b)) w) fun c c' e => ?_
    subst e
    refine .bind (.of_same (SameInRelease.usize_arith (c + 1)) w) fun k k' e => ?_
    subst e
    exact camefromLoop_le hM T m m' h orig _ _ _

theorem Bf.scanLayer_le (found : Int × Int → Eff W Bool) :
    ∀ (l : List ((Int × Int) × Dir)) (m : M.σ) (m' : M'.σ), Q m m' →
      EffLe (fun a b => Q a.1 b.1 ∧ a.2 = b.2) (Bf.scanLayerM M found l m) (Bf.scanLayerM M' found l m')
  | [], _, _, h => .pure ⟨h, rfl⟩
  | (p, d) :: l, m, m', h => by
    unfold Bf.scanLayerM
    refine .bind (.code (hM.set m m' p (some d) h)) fun m m' h => ?_
    refine .bind (.refl (found p)) fun b b' hb => ?_
    subst hb
    cases b with
    | true => exact .pure ⟨h, rfl⟩
    | false => exact scanLayer_le found l m m' h

theorem Bf.searchLoop_le {S S' : SetImpl} {R : S.σ → S'.σ → Prop} (hS : SetLe S S' R) (D : Bool) (go : Int × Int → Dir → Eff W (Option (Int × Int)))
    (found : Int × Int → Eff W Bool) : ∀ (n : Nat) (s : BfIter S) (s' : BfIter S') (m : M.σ) (m' : M'.σ), BfLe R s s' → Q m m' →
      EffLe (fun a b => match a, b with | .ok a, .ok b => a.1 = b.1 ∧ Q a.2 b.2 | .error e, .error e' => e = e' | _, _ => False)
        (Bf.searchLoopM S M D go found n s m) (Bf.searchLoopM S' M' D go found n s' m')
  | 0, _, _, _, _, _, _ => .code trivial
  | n + 1, s, s', m, m', hs, hm => by
    unfold Bf.searchLoopM
    refine .bind (BfLe.next hS D go s s' hs) fun a b hab => ?_
    obtain ⟨l, s⟩ := a
    obtain ⟨l', s'⟩ := b
    obtain ⟨hl, hs⟩ := hab
    dsimp only at hl hs
    subst hl
    cases l with
    | none => exact .pure rfl
    | some l =>
      refine .bind (Bf.scanLayer_le hM found l m m' hm) fun a b hab => ?_
      obtain ⟨m, o⟩ := a
      obtain ⟨m', o'⟩ := b
      obtain ⟨hm, ho⟩ := hab
      dsimp only at hm ho
      subst ho
      cases o with
      | some p => exact .pure ⟨rfl, hm⟩
      | none => exact searchLoop_le hS D go found n s s' m m' hs hm

theorem Bf.searchPath_le {S S' : SetImpl} {R : S.σ → S'.σ → Prop} (hS : SetLe S S' R) (T : PosTy) (w : Bool) (D : Bool)
    (go : Int × Int → Dir → Eff W (Option (Int × Int))) (orig : Int × Int) (found : Int × Int → Eff W Bool) (n : Nat) :
    EffLe Eq (@Bf.searchPathM W ⟨true, w⟩ T S M D go orig found n) (@Bf.searchPathM W ⟨false, w⟩ T S' M' D go orig found n) := by
  unfold Bf.searchPathM Bf.searchMapmovM
  refine .bind (.bind (BfLe.new hS D go orig) fun s s' hs => Bf.searchLoop_le hM hS D go found n s s' _ _ hs hM.default) fun a b hab => ?_
  cases a with
  | error e =>
    cases b with
    | error e' => cases hab; exact .pure rfl
    | ok b => exact hab.elim
  | ok a =>
    cases b with
    | error e' => exact hab.elim
    | ok b =>
      obtain ⟨p, m⟩ := a
      obtain ⟨p', m'⟩ := b
      obtain ⟨hp, hm⟩ := hab
      dsimp only at hp hm
      subst hp
      refine .bind (.code (camefromIntoPath_le hM T w m m' hm orig p)) fun r r' hr => ?_
      subst hr
      exact .refl _

variable {C C' : MapImpl Int} {K : C.σ → C'.σ → Prop} (hC : MapLe C C' K)

/-- The states of A* are related. -/
def AstarLe {C C' : MapImpl Int} (K : C.σ → C'.σ → Prop) (s : AstarIter C) (s' : AstarIter C') : Prop := K s.cost s'.cost ∧ s.frontier = s'.frontier

/-- The states of uniform cost search are related. -/
def UcsLe {C C' : MapImpl Int} (K : C.σ → C'.σ → Prop) (s : UcsIter C) (s' : UcsIter C') : Prop := K s.cost s'.cost ∧ s.frontier = s'.frontier

omit hM
include hC

theorem AstarLe.new (w : Bool) (orig : Int × Int) : Out.LeR (AstarLe K) (@AstarIter.new ⟨true, w⟩ C orig) (@AstarIter.new ⟨false, w⟩ C' orig) := by
  unfold AstarIter.new
  refine .bind (hC.set _ _ orig 0 (hC.new _)) fun c c' h => ?_
  exact ⟨h, rfl⟩

theorem AstarLe.relax (T : PosTy) (w : Bool) (go : Int × Int → Dir → Eff W (Option (Int × Int))) (dest p : Int × Int) (d : Dir) (s : AstarIter C)
    (s' : AstarIter C') (h : AstarLe K s s') :
    EffLe (AstarLe K) (@AstarIter.relaxM W ⟨true, w⟩ T C go dest p s d) (@AstarIter.relaxM W ⟨false, w⟩ T C' go dest p s' d) := by
  unfold AstarIter.relaxM
  refine .bind (.code (hC.get _ _ p h.1)) fun c c' e => ?_
  subst e
  refine .bind (.code (.of_same (SameInRelease.usize_arith (c + 1)) w)) fun n n' e => ?_
  subst e
  refine .bind (.refl (go p d)) fun o o' e => ?_
  subst e
  cases o with
  | none => exact .pure h
  | some q =>
    refine .bind (.code (hC.get _ _ q h.1)) fun c1 c1' e => ?_
    subst e
    split
    · refine .bind (.code (hC.set _ _ q n h.1)) fun m m' hm => ?_
      refine .bind (.code (.of_same (SameInRelease.manhattan T q dest) w)) fun x x' e => ?_
      subst e
      refine .bind (.code (.of_same (SameInRelease.usize_arith (n + x)) w)) fun y y' e => ?_
      subst e
      refine .bind (.refl _) fun y y' e => ?_
      subst e
      refine .pure ⟨hm, ?_⟩
      simp [h.2]
    · exact .pure h

theorem AstarLe.next (T : PosTy) (w : Bool) (D : Bool) (go : Int × Int → Dir → Eff W (Option (Int × Int))) (dest : Int × Int) (s : AstarIter C)
    (s' : AstarIter C') (h : AstarLe K s s') :
    EffLe (fun a b => a.1 = b.1 ∧ AstarLe K a.2 b.2) (@AstarIter.nextM W ⟨true, w⟩ T C D go dest s) (@AstarIter.nextM W ⟨false, w⟩ T C' D go dest s') := by
  unfold AstarIter.nextM
  rw [← h.2]
  cases Heap.pop s.frontier with
  | none => exact .pure ⟨rfl, h⟩
  | some e =>
    obtain ⟨⟨_, m⟩, f⟩ := e
    refine .bind (.refl _) fun ds ds' hd => ?_
    subst hd
    exact .bind (.foldlM (fun d s s' h => AstarLe.relax hC T w go dest m.1 d s s' h) ds _ _ ⟨h.1, rfl⟩) fun s s' h => .pure ⟨rfl, h⟩

theorem AstarIter.takeFrom_le (T : PosTy) (w : Bool) (D : Bool) (go : Int × Int → Dir → Eff W (Option (Int × Int))) (orig dest : Int × Int) (n : Nat) :
    EffLe Eq (@AstarIter.takeFromM W ⟨true, w⟩ T C D go orig dest n) (@AstarIter.takeFromM W ⟨false, w⟩ T C' D go orig dest n) := by
  unfold AstarIter.takeFromM
  exact .bind (.code (AstarLe.new hC w orig)) fun s s' h => .bind (.takeM (AstarLe.next hC T w D go dest) n s s' h) fun a b h => .pure h.1

theorem UcsLe.new (w : Bool) (orig : Int × Int) : Out.LeR (UcsLe K) (@UcsIter.new ⟨true, w⟩ C orig) (@UcsIter.new ⟨false, w⟩ C' orig) := by
  unfold UcsIter.new
  refine .bind (hC.set _ _ orig 0 (hC.new _)) fun c c' h => ?_
  exact ⟨h, rfl⟩

theorem UcsLe.relax (w : Bool) (go : Int × Int → Dir → Eff W (Option ((Int × Int) × Int))) (p : Int × Int) (d : Dir) (s : UcsIter C)
    (s' : UcsIter C') (h : UcsLe K s s') :
    EffLe (UcsLe K) (@UcsIter.relaxM W ⟨true, w⟩ C go p s d) (@UcsIter.relaxM W ⟨false, w⟩ C' go p s' d) := by
  unfold UcsIter.relaxM
  refine .bind (.refl (go p d)) fun o o' e => ?_
  subst e
  cases o with
  | none => exact .pure h
  | some q =>
    obtain ⟨q, i⟩ := q
    refine .bind (.code (hC.get _ _ p h.1)) fun c c' e => ?_
    subst e
    refine .bind (.code (.of_same (SameInRelease.usize_arith (c + i)) w)) fun n n' e => ?_
    subst e
    refine .bind (.code (hC.get _ _ q h.1)) fun c1 c1' e => ?_
    subst e
    dsimp only
    split
    · refine .bind (.code (hC.set _ _ q n h.1)) fun m m' hm => ?_
      refine .bind (.refl _) fun y y' e => ?_
      subst e
      refine .pure ⟨hm, ?_⟩
      simp [h.2]
    · exact .pure h

theorem UcsLe.next (w : Bool) (D : Bool) (go : Int × Int → Dir → Eff W (Option ((Int × Int) × Int))) (s : UcsIter C)
    (s' : UcsIter C') (h : UcsLe K s s') :
    EffLe (fun a b => a.1 = b.1 ∧ UcsLe K a.2 b.2) (@UcsIter.nextM W ⟨true, w⟩ C D go s) (@UcsIter.nextM W ⟨false, w⟩ C' D go s') := by
  unfold UcsIter.nextM
  rw [← h.2]
  cases Heap.pop s.frontier with
  | none => exact .pure ⟨rfl, h⟩
  | some e =>
    obtain ⟨⟨_, m⟩, f⟩ := e
    refine .bind (.refl _) fun ds ds' hd => ?_
    subst hd
    exact .bind (.foldlM (fun d s s' h => UcsLe.relax hC w go m.1 d s s' h) ds _ _ ⟨h.1, rfl⟩) fun s s' h => .pure ⟨rfl, h⟩

theorem UcsIter.takeFrom_le (w : Bool) (D : Bool) (go : Int × Int → Dir → Eff W (Option ((Int × Int) × Int))) (orig : Int × Int) (n : Nat) :
    EffLe Eq (@UcsIter.takeFromM W ⟨true, w⟩ C D go orig n) (@UcsIter.takeFromM W ⟨false, w⟩ C' D go orig n) := by
  unfold UcsIter.takeFromM
  exact .bind (.code (UcsLe.new hC w orig)) fun s s' h => .bind (.takeM (UcsLe.next hC w D go) n s s' h) fun a b h => .pure h.1

include hM

/-- Both results are the same error, or related values. -/
def ResLe (Q : α → β → Prop) : Res α → Res β → Prop
  | .ok a, .ok b => Q a b
  | .error e, .error e' => e = e'
  | _, _ => False

theorem Astar.searchLoop_le (T : PosTy) (w : Bool) (D : Bool) (go : Int × Int → Dir → Eff W (Option (Int × Int))) (dest : Int × Int) :
    ∀ (n : Nat) (s : AstarIter C) (s' : AstarIter C') (m : M.σ) (m' : M'.σ), AstarLe K s s' → Q m m' →
      EffLe (ResLe Q) (@Astar.searchLoopM W ⟨true, w⟩ T M C D go dest n s m) (@Astar.searchLoopM W ⟨false, w⟩ T M' C' D go dest n s' m')
  | 0, _, _, _, _, _, _ => .code trivial
  | n + 1, s, s', m, m', hs, hm => by
    unfold Astar.searchLoopM
    refine .bind (AstarLe.next hC T w D go dest s s' hs) fun a b hab => ?_
    obtain ⟨l, s⟩ := a
    obtain ⟨l', s'⟩ := b
    obtain ⟨hl, hs⟩ := hab
    dsimp only at hl hs
    subst hl
    cases l with
    | none => exact .pure rfl
    | some l =>
      obtain ⟨p, d⟩ := l
      refine .bind (.code (hM.set m m' p (some d) hm)) fun m m' hm => ?_
      split
      · exact .pure hm
      · exact Astar.searchLoop_le T w D go dest n s s' m m' hs hm

theorem Astar.searchPath_le (T : PosTy) (w : Bool) (D : Bool) (go : Int × Int → Dir → Eff W (Option (Int × Int))) (orig dest : Int × Int) (n : Nat) :
    EffLe Eq (@Astar.searchPathM W ⟨true, w⟩ T M C D go orig dest n) (@Astar.searchPathM W ⟨false, w⟩ T M' C' D go orig dest n) := by
  unfold Astar.searchPathM
  refine .bind (.code (AstarLe.new hC w orig)) fun s s' hs => ?_
  refine .bind (Astar.searchLoop_le hM hC T w D go dest n s s' _ _ hs hM.default) fun a b hab => ?_
  cases a with
  | error e =>
    cases b with
    | error e' => cases hab; exact .pure rfl
    | ok b => exact hab.elim
  | ok a =>
    cases b with
    | error e' => exact hab.elim
    | ok b => exact .code (camefromIntoPath_le hM T w a b hab orig dest)

theorem Ucs.searchLoop_le (w : Bool) (D : Bool) (go : Int × Int → Dir → Eff W (Option ((Int × Int) × Int))) (dest : Int × Int) :
    ∀ (n : Nat) (s : UcsIter C) (s' : UcsIter C') (m : M.σ) (m' : M'.σ), UcsLe K s s' → Q m m' →
      EffLe (ResLe Q) (@Ucs.searchLoopM W ⟨true, w⟩ M C D go dest n s m) (@Ucs.searchLoopM W ⟨false, w⟩ M' C' D go dest n s' m')
  | 0, _, _, _, _, _, _ => .code trivial
  | n + 1, s, s', m, m', hs, hm => by
    unfold Ucs.searchLoopM
    refine .bind (UcsLe.next hC w D go s s' hs) fun a b hab => ?_
    obtain ⟨l, s⟩ := a
    obtain ⟨l', s'⟩ := b
    obtain ⟨hl, hs⟩ := hab
    dsimp only at hl hs
    subst hl
    cases l with
    | none => exact .pure rfl
    | some l =>
      obtain ⟨p, d⟩ := l
      refine .bind (.code (hM.set m m' p (some d) hm)) fun m m' hm => ?_
      split
      · exact .pure hm
      · exact Ucs.searchLoop_le w D go dest n s s' m m' hs hm

theorem Ucs.searchPath_le (T : PosTy) (w : Bool) (D : Bool) (go : Int × Int → Dir → Eff W (Option ((Int × Int) × Int))) (orig dest : Int × Int) (n : Nat) :
    EffLe Eq (@Ucs.searchPathM W ⟨true, w⟩ T M C D go orig dest n) (@Ucs.searchPathM W ⟨false, w⟩ T M' C' D go orig dest n) := by
  unfold Ucs.searchPathM
  refine .bind (.code (UcsLe.new hC w orig)) fun s s' hs => ?_
  refine .bind (Ucs.searchLoop_le hM hC w D go dest n s s' _ _ hs hM.default) fun a b hab => ?_
  cases a with
  | error e =>
    cases b with
    | error e' => cases hab; exact .pure rfl
    | ok b => exact hab.elim
  | ok a =>
    cases b with
    | error e' => exact hab.elim
    | ok b => exact .code (camefromIntoPath_le hM T w a b hab orig dest)

end Path

end Sqrid
