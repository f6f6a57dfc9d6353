import Verif.Spec.Mirror
import Verif.Proofs.Shift
import Verif.Proofs.UcsSearch
/-! The paths of mirrored, transposed and turned problems. -/

namespace Sqrid

open Spec

theorem Spec.Symmetry.injective {f : P2 → P2} {g : Dir → Dir} (h : Symmetry f g) : Function.Injective f := by
  induction h with
  | shift v => exact shift_injective v
  | mirror c => rintro ⟨a, b⟩ ⟨a', b'⟩ h; simp only [Spec.mirror, Prod.mk.injEq] at h ⊢; omega
  | transpose => rintro ⟨a, b⟩ ⟨a', b'⟩ h; simp only [Spec.transpose, Prod.mk.injEq] at h ⊢; omega
  | comp _ _ h1 h2 => exact h2.comp h1

theorem Spec.Symmetry.surjective {f : P2 → P2} {g : Dir → Dir} (h : Symmetry f g) : Function.Surjective g := by
  induction h with
  | shift v => exact fun d => ⟨d, rfl⟩
  | mirror c => intro d; cases d <;> first | exact ⟨.N, rfl⟩ | exact ⟨.NE, rfl⟩ | exact ⟨.E, rfl⟩ | exact ⟨.SE, rfl⟩ | exact ⟨.S, rfl⟩ | exact ⟨.SW, rfl⟩ | exact ⟨.W, rfl⟩ | exact ⟨.NW, rfl⟩
  | transpose => intro d; cases d <;> first | exact ⟨.N, rfl⟩ | exact ⟨.NE, rfl⟩ | exact ⟨.E, rfl⟩ | exact ⟨.SE, rfl⟩ | exact ⟨.S, rfl⟩ | exact ⟨.SW, rfl⟩ | exact ⟨.W, rfl⟩ | exact ⟨.NW, rfl⟩
  | comp _ _ h1 h2 => exact h2.comp h1

theorem Spec.Symmetry.allowed {f : P2 → P2} {g : Dir → Dir} (h : Symmetry f g) (D : Bool) (d : Dir) : Allowed D (g d) ↔ Allowed D d := by
  induction h generalizing d with
  | shift v => exact Iff.rfl
  | mirror c => cases d <;> simp [Allowed, mirrorDir, unit]
  | transpose => cases d <;> simp [Allowed, transposeDir, unit]
  | comp _ _ h1 h2 => exact (h2 _).trans (h1 d)

theorem Spec.Symmetry.neighbour {f : P2 → P2} {g : Dir → Dir} (h : Symmetry f g) (p : P2) (d : Dir) : f (neighbour p d) = Spec.neighbour (f p) (g d) := by
  induction h generalizing p d with
  | shift v => simp only [Spec.neighbour, Spec.shift, id, Prod.mk.injEq]; omega
  | mirror c => cases d <;> simp [Spec.neighbour, Spec.mirror, mirrorDir, unit] <;> omega
  | transpose => cases d <;> simp only [Spec.neighbour, Spec.transpose, transposeDir, unit]
  | comp _ _ h1 h2 => simp only [Function.comp_apply]; rw [h1, h2]

theorem Spec.Symmetry.l1 {f : P2 → P2} {g : Dir → Dir} (h : Symmetry f g) (p q : P2) : Spec.l1 (f p) (f q) = Spec.l1 p q := by
  induction h generalizing p q with
  | shift v => simp only [Spec.l1, Spec.shift]; omega
  | mirror c => simp only [Spec.l1, Spec.mirror]; omega
  | transpose => simp only [Spec.l1, Spec.transpose]; omega
  | comp _ _ h1 h2 => simp only [Function.comp_apply]; rw [h2, h1]

section
variable {T : PosTy} {f : P2 → P2} {g : Dir → Dir} (h : Symmetry f g)
include h

theorem exists_map_dir (ds' : List Dir) : ∃ ds : List Dir, ds' = ds.map g := by
  induction ds' with
  | nil => exact ⟨[], rfl⟩
  | cons d ds ih =>
    obtain ⟨e, rfl⟩ := h.surjective d
    obtain ⟨es, rfl⟩ := ih
    exact ⟨e :: es, rfl⟩

section
variable {go go' : GoFn} {D : Bool} (hgo : StaysIn T go) (hi : ImageGo T f g go go')
include hgo hi

omit h in
theorem follow_image (ds : List Dir) {p : P2} (hp : InGrid T p) : follow go' (f p) (ds.map g) = (follow go p ds).map f := by
  induction ds generalizing p with
  | nil => rfl
  | cons d ds ih =>
    simp only [List.map_cons, follow, hi p d hp]
    cases hg : go p d with
    | none => rfl
    | some q => exact ih (hgo _ _ _ hp hg)

theorem isPath_image {ds : List Dir} {p q : P2} (hp : InGrid T p) : IsPath go' D (f p) (ds.map g) (f q) ↔ IsPath go D p ds q := by
  unfold IsPath
  rw [follow_image hgo hi ds hp, Option.map_eq_some_iff]
  simp only [List.forall_mem_map, h.allowed]
  constructor
  · rintro ⟨h1, q', h2, h3⟩
    cases h.injective h3
    exact ⟨h1, h2⟩
  · rintro ⟨h1, h2⟩
    exact ⟨h1, q, h2, rfl⟩

theorem isPath_of_image {ds' : List Dir} {p q' : P2} (hp : InGrid T p) (h1 : IsPath go' D (f p) ds' q') : ∃ ds q, ds' = ds.map g ∧ q' = f q ∧ IsPath go D p ds q := by
  obtain ⟨ds, rfl⟩ := exists_map_dir h ds'
  have h2 := h1.2
  rw [follow_image hgo hi ds hp, Option.map_eq_some_iff] at h2
  obtain ⟨q, -, rfl⟩ := h2
  exact ⟨ds, q, rfl, rfl, (isPath_image h hgo hi hp).1 h1⟩

theorem reachable_image {p q : P2} (hp : InGrid T p) : Reachable go' D (f p) (f q) ↔ Reachable go D p q := by
  constructor
  · rintro ⟨ds, hds⟩
    obtain ⟨ds, q', rfl, -, -⟩ := isPath_of_image h hgo hi hp hds
    exact ⟨ds, (isPath_image h hgo hi hp).1 hds⟩
  · rintro ⟨ds, hds⟩
    exact ⟨_, (isPath_image h hgo hi hp).2 hds⟩

theorem isDist_image {p q : P2} {n : Nat} (hp : InGrid T p) : IsDist go' D (f p) (f q) n ↔ IsDist go D p q n := by
  constructor
  · rintro ⟨⟨ds', h1, h2⟩, h3⟩
    obtain ⟨ds, rfl⟩ := exists_map_dir h ds'
    refine ⟨⟨ds, (isPath_image h hgo hi hp).1 h1, by simpa using h2⟩, fun es hes => ?_⟩
    have := h3 _ ((isPath_image h hgo hi hp).2 hes)
    simpa using this
  · rintro ⟨⟨ds, h1, h2⟩, h3⟩
    refine ⟨⟨ds.map g, (isPath_image h hgo hi hp).2 h1, by simpa using h2⟩, fun es' hes => ?_⟩
    obtain ⟨es, rfl⟩ := exists_map_dir h es'
    have := h3 _ ((isPath_image h hgo hi hp).1 hes)
    simpa using this

end

section
variable {go go' : WGo} {D : Bool} (hgo : StaysIn T (dropCost go)) (hi : ImageCosts T f g go go')
include hi

omit h in
theorem Spec.ImageCosts.drop : ImageGo T f g (dropCost go) (dropCost go') := by
  intro p d hp
  simp only [dropCost, hi p d hp, Option.map_map]
  rfl

include hgo

omit h in
theorem pathCost_image (ds : List Dir) {p : P2} (hp : InGrid T p) : pathCost go' (f p) (ds.map g) = pathCost go p ds := by
  induction ds generalizing p with
  | nil => rfl
  | cons d ds ih =>
    simp only [List.map_cons, pathCost, hi p d hp]
    cases hg : go p d with
    | none => rfl
    | some qw =>
      obtain ⟨q, w⟩ := qw
      simp only [Option.map_some]
      rw [ih (hgo p d q hp (by simp only [dropCost, hg, Option.map_some]))]

theorem isCostPath_image {ds : List Dir} {p q : P2} {n : Int} (hp : InGrid T p) : IsCostPath go' D (f p) (ds.map g) (f q) n ↔ IsCostPath go D p ds q n := by
  unfold IsCostPath
  rw [isPath_image h hgo (ImageCosts.drop hi) hp, pathCost_image hgo hi ds hp]

theorem isMinCost_image {p q : P2} {n : Int} (hp : InGrid T p) : IsMinCost go' D (f p) (f q) n ↔ IsMinCost go D p q n := by
  constructor
  · rintro ⟨⟨ds', h1⟩, h3⟩
    obtain ⟨ds, rfl⟩ := exists_map_dir h ds'
    exact ⟨⟨ds, (isCostPath_image h hgo hi hp).1 h1⟩, fun es m hes => h3 _ m ((isCostPath_image h hgo hi hp).2 hes)⟩
  · rintro ⟨⟨ds, h1⟩, h3⟩
    refine ⟨⟨ds.map g, (isCostPath_image h hgo hi hp).2 h1⟩, fun es' m hes => ?_⟩
    obtain ⟨es, rfl⟩ := exists_map_dir h es'
    exact h3 _ m ((isCostPath_image h hgo hi hp).1 hes)

theorem belowLimit_image [Target] {p : P2} (hp : InGrid T p) (hb : BelowLimit go D p) : BelowLimit go' D (f p) := by
  intro r' n d' q' w h1 h2 h3
  obtain ⟨ds', hds⟩ := h1.1
  obtain ⟨ds, r, -, rfl, hr⟩ := isPath_of_image h hgo (ImageCosts.drop hi) hp hds.1
  obtain ⟨d, rfl⟩ := h.surjective d'
  have hrG : InGrid T r := isPath_inGrid hgo hp hr
  rw [hi r d hrG, Option.map_eq_some_iff] at h3
  obtain ⟨⟨q, w'⟩, h4, h5⟩ := h3
  simp only [Prod.mk.injEq] at h5
  obtain ⟨-, rfl⟩ := h5
  exact hb r n d q w' ((isMinCost_image h hgo hi hp).1 h1) ((h.allowed D d).1 h2) h4

end

/-- Around walls. -/
theorem aroundWalls_image {T' : PosTy} (hf : ∀ p, InGrid T' (f p) ↔ InGrid T p) (walls : List P2) :
    ImageGo T f g (aroundWalls T walls) (aroundWalls T' (walls.map f)) := by
  intro p d _
  have hw : f (neighbour p d) ∈ walls.map f ↔ neighbour p d ∈ walls := List.mem_map_of_injective h.injective
  simp only [aroundWalls, ← h.neighbour, hf, hw]
  split <;> rfl

end

end Sqrid
