import Verif.Sdf.Views
import Verif.Sdf.PictureProps

/-!
# C136: ambient occlusion and debug views of distance functions
-/

set_option linter.unusedSectionVars false
set_option linter.unusedVariables false
set_option linter.unusedSimpArgs false

namespace Feign.Sdf

open Integrators Sampling MeasureTheory Camera Image Warp
open _root_.Filter Topology
open scoped ENNReal

/-! ## Specification -/

/-- What ambient occlusion should show along a ray: black where nothing is hit, otherwise the part of the hemisphere around the
normal of the hit from which nothing is hit, directions weighted with the cosine. -/
noncomputable def openAt (hit : Integrators.Ray → Option Hit) (r : Integrators.Ray) : ℝ≥0∞ :=
  match hit r with
  | none => 0
  | some a => openness (fun q => (hit q).isSome) a.p a.normal

/-- A value read off the normal of the hit, zero where nothing is hit. -/
noncomputable def readNormal (f : V3 ℝ → ℝ) (hit : Integrators.Ray → Option Hit) (r : Integrators.Ray) : ℝ≥0∞ :=
  match hit r with
  | none => 0
  | some a => ENNReal.ofReal (f a.normal)

/-- The pixels of the pictures drawn by `L` tend, with probability one, to `value` averaged over the lens and the filter. -/
def TendsTo (c : Persp) (t : Xf ℝ) (ray : ℝ × ℝ → ℝ × ℝ → Integrators.Ray) (L : Integrators.Ray → Stream → V3 ℝ × Stream)
    (value : Fin 3 → Integrators.Ray → ℝ≥0∞) : Prop :=
  ∀ᵐ ω ∂uniform, ∃ img : ℕ → Int → Int → Fin 3 → ℝ,
    (∀ spp, renderWith apiDefaultFilter c.width c.height spp ray L ω = .ok (img spp)) ∧
    ∀ (x y : ℕ) (k : Fin 3), x < c.width → y < c.height → Tendsto (fun spp => img spp x y k) atTop
      (𝓝 (filtered apiDefaultFilter c.width c.height x y (c.throughLens t fun s => value k (s.1, s.2.1))).toReal)

/-! ## Lemmas -/

variable {fs : List (V3 ℝ → Option ℝ)}

theorem skyOf_lawful (hf : ∀ f ∈ fs, OM f) (box : Option (B3 ℝ)) : (skyOf fs box).Lawful := by
  have h := sdf_room_lawful (looks := fun _ => ⟨.diffuse, 0, 1, 1, fun _ => 0⟩) (env := fun _ => 0) hf box
    (fun _ => ⟨NonNeg.zero, fun _ => NonNeg.zero, measurable_const⟩) measurable_const fun _ => NonNeg.zero
  exact ⟨h.seen, h.point, h.frame_s, h.frame_t, h.frame_n, h.frame, h.seen⟩

theorem seenIn_lawful (hf : ∀ f ∈ fs, OM f) (box : Option (B3 ℝ)) : (seenIn fs box).Lawful := by
  have h := skyOf_lawful hf box
  have e : (seenIn fs box).normal = fun r => ((skyOf fs box).geom r).n := by
    funext r
    show ((hitOf fs box r).map fun h => (frameOf h.normal).n).getD _ =
      (((hitOf fs box r).map fun h => frameOf h.normal).getD _).n
    cases hitOf fs box r <;> rfl
  refine ⟨h.seen, ?_, measurable_const, fun r => ?_⟩
  · rw [e]; exact h.geom_n
  · rw [e]
    have := (h.geom r).nn
    simp only [V3.dot] at this
    simp only [V3.sqrNorm]
    linarith

/-! ## Pictures -/

variable {ss : List Shape} {box : Option (B3 ℝ)} {c : Persp} (hc : c.Ok) (hf : 0 < c.focal) {t : Xf ℝ} (ht : t.Aff)
  {ray : ℝ × ℝ → ℝ × ℝ → Integrators.Ray} (hray : c.Shows t (fun s => (s.1, s.2.1)) ray)
include hc hf ht hray

/-- **C136, ambient occlusion of distance functions.** -/
theorem sdf_ambient {L : Integrators.Ray → Stream → V3 ℝ × Stream} (hL : (skyOf (evals ss) box).Renders L) :
    TendsTo c t ray L fun _ => openAt (hitOf (evals ss) box) := by
  have hS := skyOf_lawful (om_evals ss) box
  have hsee : Measurable fun s : Sight => ((s.1, s.2.1) : Integrators.Ray) := by fun_prop
  have e : (skyOf (evals ss) box).shown = openAt (hitOf (evals ss) box) := by
    funext r
    unfold Sky.shown openAt
    show (if (hitOf (evals ss) box r).isSome = true then openness _ (((hitOf (evals ss) box r).map (·.p)).getD r.1)
      (((hitOf (evals ss) box r).map fun h => frameOf h.normal).getD _).n else 0) = _
    cases hitOf (evals ss) box r with
    | none => rfl
    | some a =>
      refine (if_pos rfl).trans ?_
      rw [Option.map_some, Option.getD_some, Option.map_some, Option.getD_some, (frameOf_parts a.normal).2.2]
      rfl
  have hm : Measurable (openAt (hitOf (evals ss) box)) := by
    rw [← e, show (skyOf (evals ss) box).shown = fun r => ∫⁻ ω, ENNReal.ofReal ((L r ω).1.get 0) ∂uniform from
      funext fun r => (ambient_mean hS hL 0 r).symm]
    rw [hL.eq]
    exact Measurable.lintegral_prod_right' (f := fun q : Integrators.Ray × Stream => ENNReal.ofReal (((skyOf (evals ss) box).value q.1 q.2).1.get 0))
      ((measurable_get 0).comp (measurable_fst.comp (Sky.measurable_value hS))).ennreal_ofReal
  have := ambient_image hS hL (persp_measurable hc hf ht hsee hray) c.width c.height
  rw [e, lens_light hc hf ht hsee hray _ hm] at this
  exact this

omit hc hf ht hray in
theorem readNormal_eq (f : V3 ℝ → ℝ) : readNormal f (hitOf fs box) = fun r => if (seenIn fs box).hit r = true then
      ENNReal.ofReal (f ((seenIn fs box).normal r)) else 0 := by
  funext r
  unfold readNormal
  show _ = if (hitOf fs box r).isSome = true then
    ENNReal.ofReal (f (((hitOf fs box r).map fun h => (frameOf h.normal).n).getD _)) else 0
  cases hitOf fs box r with
  | none => rfl
  | some a =>
    refine Eq.symm ((if_pos rfl).trans ?_)
    rw [Option.map_some, Option.getD_some, (frameOf_parts a.normal).2.2]

omit hc hf ht hray in
theorem measurable_readNormal (hfs : ∀ f ∈ fs, OM f) (f : V3 ℝ → ℝ) (hfm : Measurable f) :
    Measurable (readNormal f (hitOf fs box)) := by
  have hS := seenIn_lawful hfs box
  rw [readNormal_eq]
  exact Measurable.ite (hS.hit (measurableSet_singleton true)) (hfm.comp hS.normal).ennreal_ofReal measurable_const

/-- **C136, the view `normal` of distance functions.** -/
theorem sdf_normals {L : Integrators.Ray → Stream → V3 ℝ × Stream}
    (hL : IsView (fun q r => normalLi q ((seenIn (evals ss) box).answer (seenIn (evals ss) box).normal r)) L) :
    TendsTo c t ray L fun k => readNormal (fun n => |n.get k|) (hitOf (evals ss) box) := by
  have hS := seenIn_lawful (om_evals ss) box
  have hsee : Measurable fun s : Sight => ((s.1, s.2.1) : Integrators.Ray) := by fun_prop
  filter_upwards [normal_image (persp_measurable hc hf ht hsee hray) hS hL c.width c.height] with ω ⟨img, h1, h2⟩
  refine ⟨img, h1, fun x y k hx hy => ?_⟩
  have := h2 x y k hx hy
  have hm : Measurable fun n : V3 ℝ => |n.get k| := continuous_abs.measurable.comp (measurable_get k)
  rwa [← readNormal_eq (fun n => |n.get k|), lens_light hc hf ht hsee hray _ (measurable_readNormal (om_evals ss) _ hm)] at this

/-- **C136, the view `nice_normal` of distance functions.** -/
theorem sdf_nice_normals {L : Integrators.Ray → Stream → V3 ℝ × Stream}
    (hL : IsView (fun q r => niceNormalLi q ((seenIn (evals ss) box).answer (seenIn (evals ss) box).normal r)) L) :
    TendsTo c t ray L fun k => readNormal (fun n => (1 + n.get k) / 2) (hitOf (evals ss) box) := by
  have hS := seenIn_lawful (om_evals ss) box
  have hsee : Measurable fun s : Sight => ((s.1, s.2.1) : Integrators.Ray) := by fun_prop
  filter_upwards [nice_normal_image (persp_measurable hc hf ht hsee hray) hS hL c.width c.height] with ω ⟨img, h1, h2⟩
  refine ⟨img, h1, fun x y k hx hy => ?_⟩
  have := h2 x y k hx hy
  have hm : Measurable fun n : V3 ℝ => (1 + n.get k) / 2 := (measurable_const.add (measurable_get k)).div_const 2
  rwa [← readNormal_eq (fun n => (1 + n.get k) / 2),
    lens_light hc hf ht hsee hray _ (measurable_readNormal (om_evals ss) _ hm)] at this

end Feign.Sdf
