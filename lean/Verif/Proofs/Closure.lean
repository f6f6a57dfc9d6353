import Verif.Spec.Closure
import Verif.Proofs.Bf
/-! Closures with effects: reasoning rules, and closures that are functions. -/

namespace Sqrid

open Spec

variable {W W' α β σ : Type}

/-! ### The same answers -/

/-- Both computations have the same outcome, and keep the relation of the worlds. -/
def Eff.Same (B : W → W' → Prop) (m : Eff W α) (m' : Eff W' α) : Prop :=
  ∀ w w', B w w' → Out.Rel (fun a b => a.1 = b.1 ∧ B a.2 b.2) (m w) (m' w')

namespace Eff.Same

variable {B : W → W' → Prop}

theorem pure (a : α) : Eff.Same B (Pure.pure a) (Pure.pure a) := fun _ _ h => ⟨rfl, h⟩

theorem bind {m : Eff W α} {m' : Eff W' α} {f : α → Eff W β} {f' : α → Eff W' β} (h : Eff.Same B m m') (hf : ∀ a, Eff.Same B (f a) (f' a)) :
    Eff.Same B (m >>= f) (m' >>= f') := by
  intro w w' hw
  refine (h w w' hw).bind fun a b hab => ?_
  obtain ⟨a, w1⟩ := a
  obtain ⟨b, w2⟩ := b
  obtain ⟨h1, h2⟩ := hab
  simp only at h1 h2
  subst h1
  exact hf a w1 w2 h2

theorem code (x : Out α) : Eff.Same B (Eff.code x) (Eff.code x) := by
  intro w w' hw
  exact Out.Rel.bind_same x fun a => ⟨rfl, hw⟩

theorem foldlM {f : σ → α → Eff W σ} {f' : σ → α → Eff W' σ} (h : ∀ s a, Eff.Same B (f s a) (f' s a)) (l : List α) :
    ∀ s, Eff.Same B (l.foldlM f s) (l.foldlM f' s) := by
  induction l with
  | nil => intro s; exact pure s
  | cons a l ih =>
    intro s
    rw [List.foldlM_cons, List.foldlM_cons]
    exact (h s a).bind ih

theorem ite {c : Prop} [Decidable c] {m n : Eff W α} {m' n' : Eff W' α} (h : Eff.Same B m m') (h' : Eff.Same B n n') :
    Eff.Same B (if c then m else n) (if c then m' else n') := by
  split
  · exact h
  · exact h'

end Eff.Same

section
variable {B : W → W' → Prop} {go : P2 → Dir → Eff W (Option P2)} {go' : P2 → Dir → Eff W' (Option P2)}

theorem BfIter.same_visitDir (h : ∀ p d, Eff.Same B (go p d) (go' p d)) (S : SetImpl) (p : P2) (st : BfIter S) (d : Dir) :
    Eff.Same B (BfIter.visitDirM S go p st d) (BfIter.visitDirM S go' p st d) := by
  unfold BfIter.visitDirM
  refine (h p d).bind fun a => ?_
  cases a with
  | none => exact .pure _
  | some q =>
    refine (Eff.Same.code _).bind fun seen => ?_
    cases seen with
    | true => exact .pure _
    | false => exact (Eff.Same.code _).bind fun neg => (Eff.Same.code _).bind fun v => .pure _

theorem BfIter.same_next (h : ∀ p d, Eff.Same B (go p d) (go' p d)) (S : SetImpl) (D : Bool) (st : BfIter S) :
    Eff.Same B (BfIter.nextM S D go st) (BfIter.nextM S D go' st) := by
  unfold BfIter.nextM
  refine Eff.Same.ite (.pure _) ?_
  refine Eff.Same.bind (Eff.Same.foldlM (fun s m => ?_) _ _) fun s => .pure _
  unfold BfIter.visitPosM
  refine (Eff.Same.code _).bind fun dirs => ?_
  refine (Eff.Same.foldlM (fun s d => BfIter.same_visitDir h S m.1 s d) _ _).bind fun s => ?_
  exact (Eff.Same.code _).bind fun v => .pure _

theorem BfIter.same_new (h : ∀ p d, Eff.Same B (go p d) (go' p d)) (S : SetImpl) (D : Bool) (orig : P2) :
    Eff.Same B (BfIter.newM S D go orig) (BfIter.newM S D go' orig) :=
  (BfIter.same_next h S D _).bind fun _ => .pure _

theorem same_collect {next : σ → Eff W (Option α × σ)} {next' : σ → Eff W' (Option α × σ)} (h : ∀ s, Eff.Same B (next s) (next' s)) (fuel : Nat) :
    ∀ s, Eff.Same B (collectM next fuel s) (collectM next' fuel s) := by
  induction fuel with
  | zero => intro s; exact .code _
  | succ n ih =>
    intro s
    refine (h s).bind fun a => ?_
    obtain ⟨o, s'⟩ := a
    cases o with
    | none => exact .pure _
    | some a => exact (ih s').bind fun l => .pure _

theorem same_take {next : σ → Eff W (Option α × σ)} {next' : σ → Eff W' (Option α × σ)} (h : ∀ s, Eff.Same B (next s) (next' s)) (fuel : Nat) :
    ∀ s, Eff.Same B (takeM next fuel s) (takeM next' fuel s) := by
  induction fuel with
  | zero => intro s; exact .pure _
  | succ n ih =>
    intro s
    refine (h s).bind fun a => ?_
    obtain ⟨o, s'⟩ := a
    cases o with
    | none => exact .pure _
    | some a => exact (ih s').bind fun l => .pure _

theorem Bf.same_iterAll (h : ∀ p d, Eff.Same B (go p d) (go' p d)) (S : SetImpl) (D : Bool) (orig : P2) (fuel : Nat) :
    Eff.Same B (Bf.iterAllM S D go orig fuel) (Bf.iterAllM S D go' orig fuel) :=
  (BfIter.same_new h S D orig).bind fun st => same_collect (BfIter.same_next h S D) fuel st

variable {found : P2 → Eff W Bool} {found' : P2 → Eff W' Bool}

theorem Bf.same_scanLayer (hf : ∀ p, Eff.Same B (found p) (found' p)) (M : MapImpl (Option Dir)) (l : List (P2 × Dir)) :
    ∀ s, Eff.Same B (Bf.scanLayerM M found l s) (Bf.scanLayerM M found' l s) := by
  induction l with
  | nil => intro s; exact .pure _
  | cons m l ih =>
    intro s
    obtain ⟨p, d⟩ := m
    refine (Eff.Same.code _).bind fun s' => (hf p).bind fun hit => ?_
    cases hit with
    | true => exact .pure _
    | false => exact ih s'

theorem Bf.same_searchLoop (h : ∀ p d, Eff.Same B (go p d) (go' p d)) (hf : ∀ p, Eff.Same B (found p) (found' p)) (S : SetImpl)
    (M : MapImpl (Option Dir)) (D : Bool) (fuel : Nat) :
    ∀ it c, Eff.Same B (Bf.searchLoopM S M D go found fuel it c) (Bf.searchLoopM S M D go' found' fuel it c) := by
  induction fuel with
  | zero => intro it c; exact .code _
  | succ n ih =>
    intro it c
    refine (BfIter.same_next h S D it).bind fun a => ?_
    obtain ⟨o, it'⟩ := a
    cases o with
    | none => exact .pure _
    | some l =>
      refine (Bf.same_scanLayer hf M l c).bind fun b => ?_
      obtain ⟨c', hit⟩ := b
      cases hit with
      | none => exact ih it' c'
      | some p => exact .pure _

theorem Bf.same_searchPath [Target] (h : ∀ p d, Eff.Same B (go p d) (go' p d)) (hf : ∀ p, Eff.Same B (found p) (found' p)) (T : PosTy) (S : SetImpl)
    (M : MapImpl (Option Dir)) (D : Bool) (orig : P2) (fuel : Nat) :
    Eff.Same B (Bf.searchPathM T S M D go orig found fuel) (Bf.searchPathM T S M D go' orig found' fuel) := by
  unfold Bf.searchPathM Bf.searchMapmovM
  refine Eff.Same.bind ((BfIter.same_new h S D orig).bind fun it => Bf.same_searchLoop h hf S M D fuel it _) fun r => ?_
  cases r with
  | error e => exact .pure _
  | ok x =>
    obtain ⟨dest, map⟩ := x
    refine (Eff.Same.code _).bind fun r => ?_
    cases r with
    | error e => exact .pure _
    | ok path => exact .pure _

theorem AstarIter.same_relax [Target] (h : ∀ p d, Eff.Same B (go p d) (go' p d)) (T : PosTy) (C : MapImpl Int) (dest p : P2) (st : AstarIter C) (d : Dir) :
    Eff.Same B (AstarIter.relaxM T C go dest p st d) (AstarIter.relaxM T C go' dest p st d) := by
  unfold AstarIter.relaxM
  refine (Eff.Same.code _).bind fun c => (Eff.Same.code _).bind fun nc => (h p d).bind fun a => ?_
  cases a with
  | none => exact .pure _
  | some q =>
    refine (Eff.Same.code _).bind fun old => .ite ?_ (.pure _)
    exact (Eff.Same.code _).bind fun _ => (Eff.Same.code _).bind fun _ => (Eff.Same.code _).bind fun _ => (Eff.Same.code _).bind fun _ => .pure _

theorem AstarIter.same_next [Target] (h : ∀ p d, Eff.Same B (go p d) (go' p d)) (T : PosTy) (C : MapImpl Int) (D : Bool) (dest : P2) (st : AstarIter C) :
    Eff.Same B (AstarIter.nextM T C D go dest st) (AstarIter.nextM T C D go' dest st) := by
  unfold AstarIter.nextM
  cases Heap.pop st.frontier with
  | none => exact .pure _
  | some e =>
    obtain ⟨⟨pr, mov⟩, fr⟩ := e
    refine (Eff.Same.code _).bind fun dirs => ?_
    exact (Eff.Same.foldlM (fun s d => AstarIter.same_relax h T C dest mov.1 s d) _ _).bind fun s => .pure _

theorem Astar.same_searchLoop [Target] (h : ∀ p d, Eff.Same B (go p d) (go' p d)) (T : PosTy) (M : MapImpl (Option Dir)) (C : MapImpl Int) (D : Bool) (dest : P2)
    (fuel : Nat) : ∀ it c, Eff.Same B (Astar.searchLoopM T M C D go dest fuel it c) (Astar.searchLoopM T M C D go' dest fuel it c) := by
  induction fuel with
  | zero => intro it c; exact .code _
  | succ n ih =>
    intro it c
    refine (AstarIter.same_next h T C D dest it).bind fun a => ?_
    obtain ⟨o, it'⟩ := a
    cases o with
    | none => exact .pure _
    | some m => exact (Eff.Same.code _).bind fun c' => .ite (.pure _) (ih it' c')

theorem Astar.same_searchPath [Target] (h : ∀ p d, Eff.Same B (go p d) (go' p d)) (T : PosTy) (M : MapImpl (Option Dir)) (C : MapImpl Int) (D : Bool)
    (orig dest : P2) (fuel : Nat) : Eff.Same B (Astar.searchPathM T M C D go orig dest fuel) (Astar.searchPathM T M C D go' orig dest fuel) := by
  unfold Astar.searchPathM
  refine (Eff.Same.code _).bind fun it => (Astar.same_searchLoop h T M C D dest fuel it _).bind fun r => ?_
  cases r with
  | error e => exact .pure _
  | ok x => exact .code _

end

section
variable {B : W → W' → Prop} {go : P2 → Dir → Eff W (Option (P2 × Int))} {go' : P2 → Dir → Eff W' (Option (P2 × Int))}

theorem UcsIter.same_relax [Target] (h : ∀ p d, Eff.Same B (go p d) (go' p d)) (C : MapImpl Int) (p : P2) (st : UcsIter C) (d : Dir) :
    Eff.Same B (UcsIter.relaxM C go p st d) (UcsIter.relaxM C go' p st d) := by
  unfold UcsIter.relaxM
  refine (h p d).bind fun a => ?_
  cases a with
  | none => exact .pure _
  | some q =>
    refine (Eff.Same.code _).bind fun _ => (Eff.Same.code _).bind fun _ => (Eff.Same.code _).bind fun _ => .ite ?_ (.pure _)
    exact (Eff.Same.code _).bind fun _ => (Eff.Same.code _).bind fun _ => .pure _

theorem UcsIter.same_next [Target] (h : ∀ p d, Eff.Same B (go p d) (go' p d)) (C : MapImpl Int) (D : Bool) (st : UcsIter C) :
    Eff.Same B (UcsIter.nextM C D go st) (UcsIter.nextM C D go' st) := by
  unfold UcsIter.nextM
  cases Heap.pop st.frontier with
  | none => exact .pure _
  | some e =>
    obtain ⟨⟨pr, mov⟩, fr⟩ := e
    refine (Eff.Same.code _).bind fun dirs => ?_
    exact (Eff.Same.foldlM (fun s d => UcsIter.same_relax h C mov.1 s d) _ _).bind fun s => .pure _

theorem Ucs.same_searchLoop [Target] (h : ∀ p d, Eff.Same B (go p d) (go' p d)) (M : MapImpl (Option Dir)) (C : MapImpl Int) (D : Bool) (dest : P2)
    (fuel : Nat) : ∀ it c, Eff.Same B (Ucs.searchLoopM M C D go dest fuel it c) (Ucs.searchLoopM M C D go' dest fuel it c) := by
  induction fuel with
  | zero => intro it c; exact .code _
  | succ n ih =>
    intro it c
    refine (UcsIter.same_next h C D it).bind fun a => ?_
    obtain ⟨o, it'⟩ := a
    cases o with
    | none => exact .pure _
    | some m => exact (Eff.Same.code _).bind fun c' => .ite (.pure _) (ih it' c')

theorem Ucs.same_searchPath [Target] (h : ∀ p d, Eff.Same B (go p d) (go' p d)) (T : PosTy) (M : MapImpl (Option Dir)) (C : MapImpl Int) (D : Bool)
    (orig dest : P2) (fuel : Nat) : Eff.Same B (Ucs.searchPathM T M C D go orig dest fuel) (Ucs.searchPathM T M C D go' orig dest fuel) := by
  unfold Ucs.searchPathM
  refine (Eff.Same.code _).bind fun it => (Ucs.same_searchLoop h M C D dest fuel it _).bind fun r => ?_
  cases r with
  | error e => exact .pure _
  | ok x => exact .code _

end

/-! ### Functions -/

/-- A computation that does not touch the world. -/
def Eff.Runs (m : Eff Unit α) (x : Out α) : Prop := m () = x >>= fun a => .ok (a, ())

namespace Eff.Runs

theorem pure (a : α) : Eff.Runs (Pure.pure a) (.ok a) := rfl

theorem code (x : Out α) : Eff.Runs (Eff.code x) x := rfl

theorem bind {m : Eff Unit α} {x : Out α} {f : α → Eff Unit β} {g : α → Out β} (h : Eff.Runs m x) (hf : ∀ a, Eff.Runs (f a) (g a)) :
    Eff.Runs (m >>= f) (x >>= g) := by
  show (m () >>= fun s => f s.1 s.2) = _
  rw [h]
  cases x with
  | ok a => exact hf a
  | panic => rfl
  | ub => rfl
  | timeout => rfl

theorem foldlM {f : σ → α → Eff Unit σ} {g : σ → α → Out σ} (h : ∀ s a, Eff.Runs (f s a) (g s a)) (l : List α) :
    ∀ s, Eff.Runs (l.foldlM f s) (l.foldlM g s) := by
  induction l with
  | nil => intro s; exact pure s
  | cons a l ih =>
    intro s
    rw [List.foldlM_cons, List.foldlM_cons]
    exact (h s a).bind ih

theorem ite {c : Prop} [Decidable c] {m n : Eff Unit α} {x y : Out α} (h : Eff.Runs m x) (h' : Eff.Runs n y) :
    Eff.Runs (if c then m else n) (if c then x else y) := by
  split
  · exact h
  · exact h'

end Eff.Runs

section
variable (f : GoFn)

theorem BfIter.runs_next (S : SetImpl) (D : Bool) (st : BfIter S) :
    Eff.Runs (BfIter.nextM S D (fun p d => pure (f p d)) st) (BfIter.next S D f st) := by
  unfold BfIter.nextM BfIter.next
  refine Eff.Runs.ite (.pure _) ?_
  refine Eff.Runs.bind (Eff.Runs.foldlM (fun s m => ?_) _ _) fun s => .pure _
  unfold BfIter.visitPosM BfIter.visitPos
  refine (Eff.Runs.code _).bind fun dirs => ?_
  refine (Eff.Runs.foldlM (fun s d => ?_) _ _).bind fun s => (Eff.Runs.code _).bind fun v => .pure _
  unfold BfIter.visitDirM BfIter.visitDir
  rw [pure_bind]
  cases f m.1 d with
  | none => exact .pure _
  | some q =>
    refine (Eff.Runs.code _).bind fun seen => ?_
    cases seen with
    | true => exact .pure _
    | false => exact (Eff.Runs.code _).bind fun neg => (Eff.Runs.code _).bind fun v => .pure _

theorem BfIter.runs_new (S : SetImpl) (D : Bool) (orig : P2) :
    Eff.Runs (BfIter.newM S D (fun p d => pure (f p d)) orig) (BfIter.new S D f orig) :=
  (BfIter.runs_next f S D _).bind fun _ => .pure _

theorem runs_collect {next : σ → Eff Unit (Option α × σ)} {next' : σ → Out (Option α × σ)} (h : ∀ s, Eff.Runs (next s) (next' s)) (fuel : Nat) :
    ∀ s, Eff.Runs (collectM next fuel s) (collectWith next' fuel s) := by
  induction fuel with
  | zero => intro s; exact .code _
  | succ n ih =>
    intro s
    refine (h s).bind fun a => ?_
    obtain ⟨o, s'⟩ := a
    cases o with
    | none => exact .pure _
    | some a => exact (ih s').bind fun l => .pure _

theorem Bf.runs_iterAll (S : SetImpl) (D : Bool) (orig : P2) (fuel : Nat) :
    Eff.Runs (Bf.iterAllM S D (fun p d => pure (f p d)) orig fuel) (Bf.iterAll S D f orig fuel) :=
  (BfIter.runs_new f S D orig).bind fun st => runs_collect (BfIter.runs_next f S D) fuel st

theorem Bf.runs_scanLayer (g : P2 → Bool) (M : MapImpl (Option Dir)) (l : List (P2 × Dir)) :
    ∀ s, Eff.Runs (Bf.scanLayerM M (fun p => pure (g p)) l s) (Bf.scanLayer M g l s) := by
  induction l with
  | nil => intro s; exact .pure _
  | cons m l ih =>
    intro s
    obtain ⟨p, d⟩ := m
    unfold Bf.scanLayerM Bf.scanLayer
    refine (Eff.Runs.code _).bind fun s' => ?_
    rw [pure_bind]
    exact .ite (.pure _) (ih s')

theorem Bf.runs_searchPath [Target] (g : P2 → Bool) (T : PosTy) (S : SetImpl) (M : MapImpl (Option Dir)) (D : Bool) (orig : P2) (fuel : Nat) :
    Eff.Runs (Bf.searchPathM T S M D (fun p d => pure (f p d)) orig (fun p => pure (g p)) fuel) (Bf.searchPath T S M D f orig g fuel) := by
  have loop : ∀ fuel it c, Eff.Runs (Bf.searchLoopM S M D (fun p d => pure (f p d)) (fun p => pure (g p)) fuel it c)
      (Bf.searchLoop S M D f g fuel it c) := by
    intro fuel
    induction fuel with
    | zero => intro it c; exact .code _
    | succ n ih =>
      intro it c
      refine (BfIter.runs_next f S D it).bind fun a => ?_
      obtain ⟨o, it'⟩ := a
      cases o with
      | none => exact .pure _
      | some l =>
        refine (Bf.runs_scanLayer g M l c).bind fun b => ?_
        obtain ⟨c', hit⟩ := b
        cases hit with
        | none => exact ih it' c'
        | some p => exact .pure _
  unfold Bf.searchPathM Bf.searchPath Bf.searchMapmovM Bf.searchMapmov
  refine Eff.Runs.bind ((BfIter.runs_new f S D orig).bind fun it => loop fuel it _) fun r => ?_
  cases r with
  | error e => exact .pure _
  | ok x =>
    obtain ⟨dest, map⟩ := x
    refine (Eff.Runs.code _).bind fun r => ?_
    cases r with
    | error e => exact .pure _
    | ok path => exact .pure _

theorem AstarIter.runs_next [Target] (T : PosTy) (C : MapImpl Int) (D : Bool) (dest : P2) (st : AstarIter C) :
    Eff.Runs (AstarIter.nextM T C D (fun p d => pure (f p d)) dest st) (AstarIter.next T C D f dest st) := by
  unfold AstarIter.nextM AstarIter.next
  cases Heap.pop st.frontier with
  | none => exact .pure _
  | some e =>
    obtain ⟨⟨pr, mov⟩, fr⟩ := e
    refine (Eff.Runs.code _).bind fun dirs => ?_
    refine (Eff.Runs.foldlM (fun s d => ?_) _ _).bind fun s => .pure _
    unfold AstarIter.relaxM AstarIter.relax
    refine (Eff.Runs.code _).bind fun c => (Eff.Runs.code _).bind fun nc => ?_
    rw [pure_bind]
    cases f mov.1 d with
    | none => exact .pure _
    | some q =>
      refine (Eff.Runs.code _).bind fun old => .ite ?_ (.pure _)
      exact (Eff.Runs.code _).bind fun _ => (Eff.Runs.code _).bind fun _ => (Eff.Runs.code _).bind fun _ => (Eff.Runs.code _).bind fun _ => .pure _

theorem Astar.runs_searchPath [Target] (T : PosTy) (M : MapImpl (Option Dir)) (C : MapImpl Int) (D : Bool) (orig dest : P2) (fuel : Nat) :
    Eff.Runs (Astar.searchPathM T M C D (fun p d => pure (f p d)) orig dest fuel) (Astar.searchPath T M C D f orig dest fuel) := by
  have loop : ∀ fuel it c, Eff.Runs (Astar.searchLoopM T M C D (fun p d => pure (f p d)) dest fuel it c) (Astar.searchLoop T M C D f dest fuel it c) := by
    intro fuel
    induction fuel with
    | zero => intro it c; exact .code _
    | succ n ih =>
      intro it c
      refine (AstarIter.runs_next f T C D dest it).bind fun a => ?_
      obtain ⟨o, it'⟩ := a
      cases o with
      | none => exact .pure _
      | some m => exact (Eff.Runs.code _).bind fun c' => .ite (.pure _) (ih it' c')
  unfold Astar.searchPathM Astar.searchPath Astar.searchMapmov
  rw [bind_assoc]
  refine (Eff.Runs.code _).bind fun it => (loop fuel it _).bind fun r => ?_
  cases r with
  | error e => exact .pure _
  | ok x => exact .code _

end

section
variable (f : P2 → Dir → Option (P2 × Int))

theorem UcsIter.runs_next [Target] (C : MapImpl Int) (D : Bool) (st : UcsIter C) :
    Eff.Runs (UcsIter.nextM C D (fun p d => pure (f p d)) st) (UcsIter.next C D f st) := by
  unfold UcsIter.nextM UcsIter.next
  cases Heap.pop st.frontier with
  | none => exact .pure _
  | some e =>
    obtain ⟨⟨pr, mov⟩, fr⟩ := e
    refine (Eff.Runs.code _).bind fun dirs => ?_
    refine (Eff.Runs.foldlM (fun s d => ?_) _ _).bind fun s => .pure _
    unfold UcsIter.relaxM UcsIter.relax
    rw [pure_bind]
    cases f mov.1 d with
    | none => exact .pure _
    | some q =>
      refine (Eff.Runs.code _).bind fun _ => (Eff.Runs.code _).bind fun _ => (Eff.Runs.code _).bind fun _ => .ite ?_ (.pure _)
      exact (Eff.Runs.code _).bind fun _ => (Eff.Runs.code _).bind fun _ => .pure _

theorem Ucs.runs_searchPath [Target] (T : PosTy) (M : MapImpl (Option Dir)) (C : MapImpl Int) (D : Bool) (orig dest : P2) (fuel : Nat) :
    Eff.Runs (Ucs.searchPathM T M C D (fun p d => pure (f p d)) orig dest fuel) (Ucs.searchPath T M C D f orig dest fuel) := by
  have loop : ∀ fuel it c, Eff.Runs (Ucs.searchLoopM M C D (fun p d => pure (f p d)) dest fuel it c) (Ucs.searchLoop M C D f dest fuel it c) := by
    intro fuel
    induction fuel with
    | zero => intro it c; exact .code _
    | succ n ih =>
      intro it c
      refine (UcsIter.runs_next f C D it).bind fun a => ?_
      obtain ⟨o, it'⟩ := a
      cases o with
      | none => exact .pure _
      | some m => exact (Eff.Runs.code _).bind fun c' => .ite (.pure _) (ih it' c')
  unfold Ucs.searchPathM Ucs.searchPath Ucs.searchMapmov
  rw [bind_assoc]
  refine (Eff.Runs.code _).bind fun it => (loop fuel it _).bind fun r => ?_
  cases r with
  | error e => exact .pure _
  | ok x => exact .code _

end

/-- The outcome of a computation that gives the same answers as one that does not touch the world. -/
theorem Eff.Same.outcome {m : Eff W α} {m' : Eff Unit α} {x : Out α} (h : Eff.Same (fun _ _ => True) m m') (hr : Eff.Runs m' x) (w : W) :
    (m w >>= fun s => .ok s.1) = x := by
  have := h w () trivial
  rw [hr] at this
  revert this
  cases m w <;> cases x <;> intro h <;> first | exact h.elim | rfl | skip
  rename_i a b
  exact congrArg Out.ok h.1

theorem Spec.Answers.same {go : P2 → Dir → Eff W α} {f : P2 → Dir → α} (h : Answers go f) (p : P2) (d : Dir) :
    Eff.Same (W' := Unit) (fun _ _ => True) (go p d) (Pure.pure (f p d)) := by
  intro w w' _
  obtain ⟨w1, h1⟩ := h p d w
  rw [h1]
  exact ⟨rfl, trivial⟩

theorem Spec.Decides.same {found : P2 → Eff W Bool} {f : P2 → Bool} (h : Decides found f) (p : P2) :
    Eff.Same (W' := Unit) (fun _ _ => True) (found p) (Pure.pure (f p)) := by
  intro w w' _
  obtain ⟨w1, h1⟩ := h p w
  rw [h1]
  exact ⟨rfl, trivial⟩

end Sqrid
