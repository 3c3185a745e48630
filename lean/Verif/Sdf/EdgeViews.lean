import Verif.Sdf.ViewsProps
import Verif.Camera.TargetProps
import Verif.Sdf.Clear

/-!
# C141: the views `cosine_term` and `barycentric` of distance functions
-/

set_option linter.unusedSectionVars false
set_option linter.unusedVariables false
set_option linter.unusedSimpArgs false

namespace Feign.Sdf

open Integrators Sampling MeasureTheory Camera Image Warp
open _root_.Filter Topology
open scoped ENNReal

/-! ## Specification -/

/-- Two minus the cosine between the normal of the hit and the direction towards the viewer, zero where nothing is hit. -/
noncomputable def facing (hit : Integrators.Ray → Option Hit) (r : Integrators.Ray) : ℝ≥0∞ :=
  match hit r with
  | none => 0
  | some a => ENNReal.ofReal (2 - viewerCosine r.2 a.normal)

/-- Three where something is hit, zero elsewhere. -/
noncomputable def marked (hit : Integrators.Ray → Option Hit) (r : Integrators.Ray) : ℝ≥0∞ :=
  match hit r with
  | none => 0
  | some _ => 3

/-- The pixels of the pictures drawn by `L`, each plus two, tend with probability one to `value` averaged over the lens and the
filter. -/
def TendsAbove (c : Persp) (t : Xf ℝ) (ray : ℝ × ℝ → ℝ × ℝ → Integrators.Ray) (L : Integrators.Ray → Stream → V3 ℝ × Stream)
    (value : Integrators.Ray → ℝ≥0∞) : Prop :=
  ∀ᵐ ω ∂uniform, ∃ img : ℕ → Int → Int → Fin 3 → ℝ,
    (∀ spp, renderWith apiDefaultFilter c.width c.height spp ray L ω = .ok (img spp)) ∧
    ∀ (x y : ℕ) (k : Fin 3), x < c.width → y < c.height → Tendsto (fun spp => img spp x y k + 2) atTop
      (𝓝 (filtered apiDefaultFilter c.width c.height x y (c.throughLens t fun s => value (s.1, s.2.1))).toReal)

/-- A placement that changes no lengths. -/
def Rigid (t : Xf ℝ) : Prop := ∀ v, (t.vec v).sqrNorm = v.sqrNorm

/-! ## Lemmas -/

/-- Rays with a direction of length one. -/
abbrev Straight := {r : Integrators.Ray // r.2.sqrNorm = 1}

theorem camera_straight {c : Persp} (hc : c.Ok) (hf : 0 < c.focal) {t : Xf ℝ} (ht : t.Aff) (hrig : Rigid t)
    {ray : ℝ × ℝ → ℝ × ℝ → Integrators.Ray} (hray : c.Shows t (fun s => (s.1, s.2.1)) ray) (p a : ℝ × ℝ) :
    (ray p a).2.sqrNorm = 1 := by
  obtain ⟨o, d, n, f, h1, h2⟩ := hray p a
  obtain ⟨ap, r, hr, -, -, ⟨hd, hn⟩, -⟩ := sampleRay_spec c hc hf t ht ⟨p.1, p.2⟩ ⟨a.1, a.2⟩
  rw [h1] at hr
  obtain rfl := Option.some.inj hr
  rw [h2]
  show d.sqrNorm = 1
  have hd' : d = _ := hd
  rw [hd', hrig]
  have e : ∀ (v : V3 ℝ) (k : ℝ), (v.smul k).sqrNorm = k ^ 2 * v.sqrNorm := by
    intro v k; simp only [V3.sqrNorm, V3.smul_x, V3.smul_y, V3.smul_z]; ring
  have e2 : ∀ v : V3 ℝ, v.sqrNorm = v.norm ^ 2 := by
    intro v
    rw [V3.norm_eq, Real.sq_sqrt]
    simp only [V3.sqrNorm]; nlinarith [mul_self_nonneg v.x, mul_self_nonneg v.y, mul_self_nonneg v.z]
  rw [e, e2]
  field_simp

theorem facing_eq {fs : List (V3 ℝ → Option ℝ)} {box : Option (B3 ℝ)} : facing (hitOf fs box) = fun r =>
    if (seenIn fs box).hit r = true then ENNReal.ofReal (2 - viewerCosine r.2 ((seenIn fs box).normal r)) else 0 := by
  funext r
  unfold facing
  show _ = if (hitOf fs box r).isSome = true then
    ENNReal.ofReal (2 - viewerCosine r.2 (((hitOf fs box r).map fun h => (frameOf h.normal).n).getD _)) else 0
  cases hitOf fs box r with
  | none => rfl
  | some a =>
    refine Eq.symm ((if_pos rfl).trans ?_)
    rw [Option.map_some, Option.getD_some, (frameOf_parts a.normal).2.2]

theorem measurable_facing {fs : List (V3 ℝ → Option ℝ)} {box : Option (B3 ℝ)} (hfs : ∀ f ∈ fs, OM f) :
    Measurable (facing (hitOf fs box)) := by
  have hS := seenIn_lawful hfs box
  rw [facing_eq]
  refine Measurable.ite (hS.hit (measurableSet_singleton true)) ?_ measurable_const
  refine Measurable.ennreal_ofReal ?_
  have md : Measurable fun r : Integrators.Ray => r.2 := measurable_snd
  simp only [viewerCosine, V3.dot, V3.smul_x, V3.smul_y, V3.smul_z]
  exact measurable_const.sub (((((measurable_x.comp md).mul_const _).mul (measurable_x.comp hS.normal)).add
    (((measurable_y.comp md).mul_const _).mul (measurable_y.comp hS.normal))).add
    (((measurable_z.comp md).mul_const _).mul (measurable_z.comp hS.normal)))

theorem marked_eq {fs : List (V3 ℝ → Option ℝ)} {box : Option (B3 ℝ)} : marked (hitOf fs box) = fun r =>
    if (seenIn fs box).hit r = true then (if ∃ i, ((seenIn fs box).bary r).get i < 1 / 100 then (3 : ℝ≥0∞) else 2) else 0 := by
  funext r
  unfold marked
  have hb : ∃ i, ((seenIn fs box).bary r).get i < 1 / 100 := ⟨0, by show (0 : ℝ) < _; norm_num⟩
  rw [if_pos hb]
  show _ = if (hitOf fs box r).isSome = true then _ else _
  cases hitOf fs box r <;> simp

theorem measurable_marked {fs : List (V3 ℝ → Option ℝ)} {box : Option (B3 ℝ)} (hfs : ∀ f ∈ fs, OM f) :
    Measurable (marked (hitOf fs box)) := by
  have hS := seenIn_lawful hfs box
  have e : marked (hitOf fs box) = fun r => if (seenIn fs box).hit r = true then (3 : ℝ≥0∞) else 0 := by
    funext r
    unfold marked
    show _ = if (hitOf fs box r).isSome = true then _ else _
    cases hitOf fs box r <;> simp
  rw [e]
  exact Measurable.ite (hS.hit (measurableSet_singleton true)) measurable_const measurable_const

/-! ## Pictures -/

variable {ss : List Shape} {box : Option (B3 ℝ)} {c : Persp} (hc : c.Ok) (hf : 0 < c.focal) {t : Xf ℝ} (ht : t.Aff)
  {ray : ℝ × ℝ → ℝ × ℝ → Integrators.Ray} (hray : c.Shows t (fun s => (s.1, s.2.1)) ray)
include hc hf ht hray

/-- **C141, the view `cosine_term` of distance functions.** The picture shows minus the cosine towards the viewer, and minus two for
the background. -/
theorem sdf_cosine_partial (hrig : Rigid t) {L : Integrators.Ray → Stream → V3 ℝ × Stream}
    (hL : IsView (fun q r => cosineLi q r.2 ((seenIn (evals ss) box).answer (seenIn (evals ss) box).normal r)) L) :
    TendsAbove c t ray L (facing (hitOf (evals ss) box)) := by
  have hS := seenIn_lawful (om_evals ss) box
  have hsee : Measurable fun s : Sight => ((s.1, s.2.1) : Integrators.Ray) := by fun_prop
  have hu := camera_straight hc hf ht hrig hray
  let S' : Seen Straight := ⟨fun r => (seenIn (evals ss) box).hit r.1, fun r => (seenIn (evals ss) box).normal r.1,
    fun r => (seenIn (evals ss) box).bary r.1⟩
  have hS' : S'.Lawful := ⟨hS.hit.comp measurable_subtype_coe, hS.normal.comp measurable_subtype_coe,
    hS.bary.comp measurable_subtype_coe, fun r => hS.unit r.1⟩
  let ray' : ℝ × ℝ → ℝ × ℝ → Straight := fun p a => ⟨ray p a, hu p a⟩
  have hcam : Measurable fun q : (ℝ × ℝ) × (ℝ × ℝ) => ray' q.1 q.2 :=
    (persp_measurable hc hf ht hsee hray).subtype_mk
  let L' : Straight → Stream → V3 ℝ × Stream := fun r ω => L r.1 ω
  have hL' : IsView (fun q r => cosineLi q r.1.2 (S'.answer S'.normal r)) L' := fun r ω => hL r.1 ω
  filter_upwards [cosine_image_partial hcam hS' (fun r => r.1.2) (measurable_snd.comp measurable_subtype_coe) (fun r => r.2) hL'
    c.width c.height] with ω ⟨img, h1, h2⟩
  refine ⟨img, fun spp => (h1 spp), fun x y k hx hy => ?_⟩
  have := h2 x y k hx hy
  have e : (Image.lightAt ray' fun r => if S'.hit r then ENNReal.ofReal (2 - viewerCosine r.1.2 (S'.normal r)) else 0) =
      Image.lightAt ray (facing (hitOf (evals ss) box)) := by
    rw [facing_eq]; rfl
  rwa [e, lens_light hc hf ht hsee hray _ (measurable_facing (om_evals ss))] at this

/-- **C141, the view `barycentric` of distance functions.** Every point hit is marked as the edge of a triangle. -/
theorem sdf_barycentric {L : Integrators.Ray → Stream → V3 ℝ × Stream}
    (hL : IsView (fun q r => barycentricLi q ((seenIn (evals ss) box).answer (seenIn (evals ss) box).bary r)) L) :
    TendsAbove c t ray L (marked (hitOf (evals ss) box)) := by
  have hS := seenIn_lawful (om_evals ss) box
  have hsee : Measurable fun s : Sight => ((s.1, s.2.1) : Integrators.Ray) := by fun_prop
  filter_upwards [barycentric_image (persp_measurable hc hf ht hsee hray) hS hL c.width c.height] with ω ⟨img, h1, h2⟩
  refine ⟨img, h1, fun x y k hx hy => ?_⟩
  have := h2 x y k hx hy
  rwa [← marked_eq, lens_light hc hf ht hsee hray _ (measurable_marked (om_evals ss))] at this

/-! ## What these views get wrong -/

omit hc hf ht hray in
/-- **C141 refuted, cosines.** The ray along `z` meets the ball head on, so the cosine towards the viewer is one. The view shows minus one
there, and minus two beside the ball. -/
theorem cosine_ball_refuted {L : Integrators.Ray → Stream → V3 ℝ × Stream} (hL : IsView (fun q r =>
      cosineLi q r.2 ((seenIn ballScene ballBox).answer (seenIn ballScene ballBox).normal r)) L) (ω : Stream) :
    (∃ a, hitOf ballScene ballBox (0, ⟨0, 0, 1⟩) = some a ∧ viewerCosine ⟨0, 0, 1⟩ a.normal = 1) ∧
    (L (0, ⟨0, 0, 1⟩) ω).1 = ⟨-1, -1, -1⟩ ∧ hitOf ballScene ballBox (⟨0, 0, 1 - eps⟩, ⟨0, 0, -1⟩) = none ∧
    (L (⟨0, 0, 1 - eps⟩, ⟨0, 0, -1⟩) ω).1 = ⟨-2, -2, -2⟩ := by
  have hidle : ∃ t, Idle t := ⟨fun _ => false, fun _ _ => rfl⟩
  obtain ⟨t, ht⟩ := hidle
  have val : ∀ r v, (Shows (cosineLi 0 r.2 ((seenIn ballScene ballBox).answer (seenIn ballScene ballBox).normal r)) v) →
      (L r ω).1 = v := by
    intro r v hv
    have h2 := ((hL r ω).1 0 t ht).symm.trans (hv t ht)
    simpa using h2
  refine ⟨⟨_, ball_first, ?_⟩, ?_, ball_back, ?_⟩
  · simp [viewerCosine, V3.dot]
  · apply val
    have := shows_cosine 0 (⟨0, 0, 1⟩ : V3 ℝ) ((seenIn ballScene ballBox).answer (seenIn ballScene ballBox).normal (0, ⟨0, 0, 1⟩))
    have e : (seenIn ballScene ballBox).answer (seenIn ballScene ballBox).normal (0, ⟨0, 0, 1⟩) = some ⟨0, 0, -1⟩ := by
      simp [Seen.answer, seenIn, ball_first, (frameOf_parts _).2.2]
    rw [e] at this ⊢
    simpa [V3.dot] using this
  · apply val
    have := shows_cosine 0 (⟨0, 0, -1⟩ : V3 ℝ)
      ((seenIn ballScene ballBox).answer (seenIn ballScene ballBox).normal (⟨0, 0, 1 - eps⟩, ⟨0, 0, -1⟩))
    have e : (seenIn ballScene ballBox).answer (seenIn ballScene ballBox).normal (⟨0, 0, 1 - eps⟩, ⟨0, 0, -1⟩) = none := by
      simp [Seen.answer, seenIn, ball_back]
    rw [e] at this ⊢
    exact this

omit hc hf ht hray in
/-- **C141 refuted, edges.** No solid has triangles, and the view marks every point of every solid as the edge of one. -/
theorem edges_refuted {fs : List (V3 ℝ → Option ℝ)} {L : Integrators.Ray → Stream → V3 ℝ × Stream}
    (hL : IsView (fun q r => barycentricLi q ((seenIn fs box).answer (seenIn fs box).bary r)) L) (r : Integrators.Ray) (ω : Stream)
    {a : Hit} (ha : hitOf fs box r = some a) : (L r ω).1 = white := by
  obtain ⟨t, ht⟩ : ∃ t, Idle t := ⟨fun _ => false, fun _ _ => rfl⟩
  have h2 := ((hL r ω).1 0 t ht).symm.trans (shows_barycentric 0 ((seenIn fs box).answer (seenIn fs box).bary r) t ht)
  have e : (seenIn fs box).answer (seenIn fs box).bary r = some ⟨0, 0, 0⟩ := by
    simp [Seen.answer, seenIn, ha, Shaders.sdfBary]
  rw [e] at h2
  simpa using h2

/-- The ball is hit. -/
example {L : Integrators.Ray → Stream → V3 ℝ × Stream} (hL : IsView (fun q r => barycentricLi q
    ((seenIn ballScene ballBox).answer (seenIn ballScene ballBox).bary r)) L) (ω : Stream) :
    (L (0, ⟨0, 0, 1⟩) ω).1 = white := edges_refuted hL _ ω ball_first

end Feign.Sdf
