import Verif.Camera.LensSpec
import Verif.Camera.PerspectiveProps
import Verif.Sampling.PlaneLaws
import Verif.Integrators.Picture

/-!
# C106: images seen through the perspective camera
-/

set_option linter.unusedSectionVars false
set_option linter.unusedVariables false

namespace Feign.Camera

open MeasureTheory Warp Image Sampling Integrators _root_.Filter Topology
open scoped ENNReal

variable {R : Type} [MeasurableSpace R]

/-! ## Helper lemmas -/

theorem fin_inj {a b : ℝ} (h : Ext.fin a = Ext.fin b) : a = b :=
  WithTop.coe_injective (WithBot.coe_injective h)

/-- The rays of the camera are the rays of the specification. -/
theorem Persp.Shows.eq {c : Persp} (h : c.Ok) (hf : 0 < c.focal) {t : Xf ℝ} (ht : t.Aff) {see : Sight → R}
    {ray : ℝ × ℝ → ℝ × ℝ → R} (hs : c.Shows t see ray) (p a : ℝ × ℝ) :
    ray p a = see (c.lensRay t p (pair (uniDisk ⟨a.1, a.2⟩))) := by
  obtain ⟨o, d, n, f, h1, h2⟩ := hs p a
  obtain ⟨ap, r, h3, h4, h5, ⟨h6, -⟩, h7, h8⟩ := sampleRay_spec c h hf t ht ⟨p.1, p.2⟩ ⟨a.1, a.2⟩
  rw [h1] at h3
  have e := (Option.some.inj h3).symm
  subst e
  rw [Xf.point_affine t ht.1] at h5
  have ho := (Option.some.inj h5).symm
  have hap : ap = c.lensPoint (pair (uniDisk ⟨a.1, a.2⟩)) := by rw [h4]; rfl
  simp only at ho h6 h7 h8
  have hn := fin_inj h7
  have hfar := fin_inj h8
  rw [h2, ho, h6, hn, hfar, hap]
  rfl

/-- There is such a camera. -/
theorem shows_exists {c : Persp} (h : c.Ok) (hf : 0 < c.focal) {t : Xf ℝ} (ht : t.Aff) (see : Sight → R) :
    ∃ ray, c.Shows t see ray := by
  have : ∀ p a : ℝ × ℝ, ∃ x, ∃ o d n f, c.sampleRay t ⟨p.1, p.2⟩ ⟨a.1, a.2⟩ = some ⟨o, d, Ext.fin n, Ext.fin f⟩ ∧
      x = see (o, d, n, f) := by
    intro p a
    obtain ⟨ap, r, h3, -, -, -, h7, h8⟩ := sampleRay_spec c h hf t ht ⟨p.1, p.2⟩ ⟨a.1, a.2⟩
    refine ⟨_, r.origin, r.dir, c.near * (c.filmPoint ⟨p.1, p.2⟩).norm, c.far * (c.filmPoint ⟨p.1, p.2⟩).norm, ?_, rfl⟩
    rw [h3, ← h7, ← h8]
  choose ray hray using this
  exact ⟨ray, hray⟩

theorem measurable_norm : Measurable V3.norm := by
  unfold V3.norm; fun_prop

theorem measurable_xfVec (t : Xf ℝ) : Measurable t.vec := by
  apply measurable_of <;> simp only [Xf.vec, M4.topLeft, M3.mulVec] <;> fun_prop

theorem measurable_place3 (t : Xf ℝ) : Measurable (place3 t) := by
  have h := measurable_xfVec t
  have hx := measurable_x.comp h
  have hy := measurable_y.comp h
  have hz := measurable_z.comp h
  simp only [Function.comp_def] at hx hy hz
  apply measurable_of <;> simp only [place3, V3.add_x, V3.add_y, V3.add_z] <;> fun_prop

theorem measurable_filmPoint (c : Persp) : Measurable fun p : ℝ × ℝ => c.filmPoint ⟨p.1, p.2⟩ := by
  apply measurable_of <;> simp only [Persp.filmPoint] <;> fun_prop

theorem measurable_lensPoint (c : Persp) : Measurable c.lensPoint := by
  apply measurable_of <;> simp only [Persp.lensPoint] <;> fun_prop

theorem measurable_lensRay (c : Persp) (t : Xf ℝ) :
    Measurable fun q : (ℝ × ℝ) × (ℝ × ℝ) => c.lensRay t q.1 q.2 := by
  have hl : Measurable fun q : (ℝ × ℝ) × (ℝ × ℝ) => c.lensPoint q.2 := (measurable_lensPoint c).comp measurable_snd
  have hfp : Measurable fun q : (ℝ × ℝ) × (ℝ × ℝ) => c.filmPoint ⟨q.1.1, q.1.2⟩ :=
    (measurable_filmPoint c).comp measurable_fst
  have hn : Measurable fun q : (ℝ × ℝ) × (ℝ × ℝ) => (c.filmPoint ⟨q.1.1, q.1.2⟩).norm := measurable_norm.comp hfp
  have hv : Measurable fun q : (ℝ × ℝ) × (ℝ × ℝ) => c.focus q.1 - c.lensPoint q.2 := by
    have x1 := measurable_x.comp hfp
    have y1 := measurable_y.comp hfp
    have z1 := measurable_z.comp hfp
    have x2 := measurable_x.comp hl
    have y2 := measurable_y.comp hl
    have z2 := measurable_z.comp hl
    simp only [Function.comp_def] at x1 y1 z1 x2 y2 z2
    apply measurable_of <;> simp only [Persp.focus, V3.sub_x, V3.sub_y, V3.sub_z, V3.smul_x, V3.smul_y, V3.smul_z] <;>
      fun_prop
  have hvn : Measurable fun q : (ℝ × ℝ) × (ℝ × ℝ) => (c.focus q.1 - c.lensPoint q.2).norm := measurable_norm.comp hv
  have hd : Measurable fun q : (ℝ × ℝ) × (ℝ × ℝ) =>
      (c.focus q.1 - c.lensPoint q.2).smul (1 / (c.focus q.1 - c.lensPoint q.2).norm) :=
    measurable_smul.comp (hv.prodMk (measurable_const.div hvn))
  exact ((measurable_place3 t).comp hl).prodMk (((measurable_xfVec t).comp hd).prodMk
    ((measurable_const.mul hn).prodMk (measurable_const.mul hn)))

/-! ## The camera -/

/-- A camera that shows what `sampleRay` gives is measurable. -/
theorem persp_measurable {c : Persp} (h : c.Ok) (hf : 0 < c.focal) {t : Xf ℝ} (ht : t.Aff) {see : Sight → R}
    (hsee : Measurable see) {ray : ℝ × ℝ → ℝ × ℝ → R} (hs : c.Shows t see ray) :
    Measurable fun q : (ℝ × ℝ) × (ℝ × ℝ) => ray q.1 q.2 := by
  have e : (fun q : (ℝ × ℝ) × (ℝ × ℝ) => ray q.1 q.2) =
      fun q => see (c.lensRay t q.1 (pair (uniDisk ⟨q.2.1, q.2.2⟩))) := by
    funext q; exact hs.eq h hf ht q.1 q.2
  rw [e]
  have h1 : Measurable fun q : (ℝ × ℝ) × (ℝ × ℝ) => (q.1, pair (uniDisk ⟨q.2.1, q.2.2⟩)) :=
    measurable_fst.prodMk (measurable_uniDisk.comp measurable_snd)
  exact hsee.comp ((measurable_lensRay c t).comp h1)

/-- **C106.** The mean light at a film position is the mean over the lens, uniform in area, of the light along the lines
to the point in focus. -/
theorem lens_light {c : Persp} (h : c.Ok) (hf : 0 < c.focal) {t : Xf ℝ} (ht : t.Aff) {see : Sight → R}
    (hsee : Measurable see) {ray : ℝ × ℝ → ℝ × ℝ → R} (hs : c.Shows t see ray) (mean : R → ℝ≥0∞)
    (hmean : Measurable mean) : Image.lightAt ray mean = c.throughLens t fun s => mean (see s) := by
  funext p
  have hg : Measurable fun a : ℝ × ℝ => mean (see (c.lensRay t p a)) :=
    hmean.comp (hsee.comp ((measurable_lensRay c t).comp (measurable_const.prodMk measurable_id)))
  have e : Image.lightAt ray mean p = ∫⁻ a, mean (see (c.lensRay t p (pair (uniDisk ⟨a.1, a.2⟩)))) ∂square := by
    unfold Image.lightAt
    exact lintegral_congr fun a => by rw [hs.eq h hf ht p a]
  have hdisk : MeasurableSet disk := measurableSet_le (by fun_prop) measurable_const
  rw [e, uniDisk_lintegral _ hg, Persp.throughLens, ENNReal.div_eq_inv_mul,
    ← lintegral_const_mul _ hg, ← lintegral_indicator hdisk]
  apply lintegral_congr
  intro a
  by_cases ha : a ∈ disk
  · rw [Set.indicator_of_mem ha, uniDiskPdf, if_pos (show a.1 * a.1 + a.2 * a.2 ≤ 1 from ha), one_div,
      ENNReal.ofReal_inv_of_pos Real.pi_pos]
  · rw [Set.indicator_of_notMem ha, uniDiskPdf, if_neg (show ¬ a.1 * a.1 + a.2 * a.2 ≤ 1 from ha)]
    simp

/-- The area of the unit disk. -/
theorem disk_area : volume disk = ENNReal.ofReal Real.pi := by
  have h := uniDisk_lintegral (fun _ => 1) measurable_const
  rw [lintegral_const, measure_univ, mul_one] at h
  have hdisk : MeasurableSet disk := measurableSet_le (by fun_prop) measurable_const
  have e : ∀ p : ℝ × ℝ, ENNReal.ofReal (uniDiskPdf ⟨p.1, p.2⟩) * 1 = disk.indicator (fun _ => (ENNReal.ofReal Real.pi)⁻¹) p := by
    intro a
    by_cases ha : a ∈ disk
    · rw [Set.indicator_of_mem ha, uniDiskPdf, if_pos (show a.1 * a.1 + a.2 * a.2 ≤ 1 from ha), one_div,
        ENNReal.ofReal_inv_of_pos Real.pi_pos, mul_one]
    · rw [Set.indicator_of_notMem ha, uniDiskPdf, if_neg (show ¬ a.1 * a.1 + a.2 * a.2 ≤ 1 from ha)]
      simp
  rw [lintegral_congr e, lintegral_indicator hdisk, lintegral_const, Measure.restrict_apply_univ] at h
  have h0 : ENNReal.ofReal Real.pi ≠ 0 := (ENNReal.ofReal_pos.2 Real.pi_pos).ne'
  calc volume disk = ENNReal.ofReal Real.pi * ((ENNReal.ofReal Real.pi)⁻¹ * volume disk) := by
        rw [← mul_assoc, ENNReal.mul_inv_cancel h0 ENNReal.ofReal_ne_top, one_mul]
    _ = _ := by rw [← h, mul_one]

/-- **C106, in focus.** If the light is the same along all lines from the lens to the point in focus, that is the light
at the film position, whatever the size of the lens: what lies at the focal distance is sharp. -/
theorem in_focus (c : Persp) (t : Xf ℝ) (light : Sight → ℝ≥0∞) (p : ℝ × ℝ) (m : ℝ≥0∞)
    (hm : ∀ a ∈ disk, light (c.lensRay t p a) = m) : c.throughLens t light p = m := by
  have hdisk : MeasurableSet disk := measurableSet_le (by fun_prop) measurable_const
  rw [Persp.throughLens, setLIntegral_congr_fun hdisk hm, setLIntegral_const, disk_area,
    ENNReal.mul_div_cancel_right (ENNReal.ofReal_pos.2 Real.pi_pos).ne' ENNReal.ofReal_ne_top]

/-- Each line of the specification starts on the lens and runs through the point in focus. -/
theorem lensRay_line (c : Persp) (hf : 0 < c.focal) (hr : 0 ≤ c.radius) (t : Xf ℝ) (p a : ℝ × ℝ) (ha : a ∈ disk) :
    (c.lensRay t p a).1 = place3 t (c.lensPoint a) ∧ (c.lensPoint a).norm ≤ c.radius ∧
      (c.focus p).z = c.focal ∧
      ∃ s, 0 < s ∧ (c.lensRay t p a).1 + (c.lensRay t p a).2.1.smul s = place3 t (c.focus p) := by
  have hz : (c.focus p).z = c.focal := by simp [Persp.focus, Persp.filmPoint]
  have hv : c.focus p - c.lensPoint a ≠ 0 := fun e => by
    have := congrArg V3.z e
    simp only [V3.sub_z, hz, Persp.lensPoint, V3.zero_z, sub_zero] at this
    linarith
  have hn := V3.norm_pos _ hv
  refine ⟨rfl, ?_, hz, _, hn, ?_⟩
  · have ha : a.1 * a.1 + a.2 * a.2 ≤ 1 := ha
    rw [V3.norm_eq, Real.sqrt_le_left hr]
    simp only [V3.sqrNorm, Persp.lensPoint]
    nlinarith [mul_self_nonneg c.radius]
  · have hk : (c.focus p - c.lensPoint a).norm ≠ 0 := hn.ne'
    simp only [Persp.lensRay]
    generalize (c.focus p - c.lensPoint a).norm = k at *
    generalize c.focus p = F at *
    generalize c.lensPoint a = A at *
    ext <;> simp only [place3, Xf.vec, M4.topLeft, M3.mulVec, V3.add_x, V3.add_y, V3.add_z, V3.smul_x, V3.smul_y,
      V3.smul_z, V3.sub_x, V3.sub_y, V3.sub_z] <;> field_simp <;> ring

/-- **C106, pinhole.** With aperture 0 the light at a film position is the light along the one line from the eye. -/
theorem pinhole_light (c : Persp) (h0 : c.radius = 0) (t : Xf ℝ) (light : Sight → ℝ≥0∞) (p : ℝ × ℝ) :
    c.throughLens t light p = light (c.lensRay t p (0, 0)) := by
  refine in_focus c t light p _ fun a _ => ?_
  have e : c.lensPoint a = c.lensPoint (0, 0) := by simp [Persp.lensPoint, h0]
  simp only [Persp.lensRay, e]

/-- **C106, image.** For every integrator that meets the assumptions of `render_converges`: seen through the camera, for
almost every stream of random numbers the image is defined for every number of samples per pixel, and each pixel tends
to the filtered mean over the lens of the mean light. -/
theorem lens_image {c : Persp} (h : c.Ok) (hf : 0 < c.focal) {t : Xf ℝ} (ht : t.Aff) {see : Sight → R}
    (hsee : Measurable see) {ray : ℝ × ℝ → ℝ × ℝ → R} (hs : c.Shows t see ray) {Li : R → Stream → V3 ℝ × Stream}
    (meas : Measurable fun q : R × Stream => Li q.1 q.2) (fresh : ∀ r, Fresh (Li r))
    (nonneg : ∀ r ω, NonNeg (Li r ω).1)
    (bounded : ∃ B : ℝ≥0∞, B ≠ ∞ ∧ ∀ r c, ∫⁻ ω, ENNReal.ofReal ((Li r ω).1.get c) ∂uniform ≤ B) :
    ∀ᵐ ω ∂uniform, ∃ img : ℕ → Int → Int → Fin 3 → ℝ,
      (∀ spp, renderWith apiDefaultFilter c.width c.height spp ray Li ω = .ok (img spp)) ∧
      ∀ (x y : ℕ) (k : Fin 3), x < c.width → y < c.height →
        Tendsto (fun spp => img spp x y k) atTop
          (𝓝 (filtered apiDefaultFilter c.width c.height x y
            (c.throughLens t fun s => ∫⁻ ω, ENNReal.ofReal ((Li (see s) ω).1.get k) ∂uniform)).toReal) := by
  have hL : Image.Lawful ray Li := ⟨persp_measurable h hf ht hsee hs, meas, fresh, nonneg, bounded⟩
  filter_upwards [default_filter_converges hL c.width c.height] with ω ⟨img, h1, h2⟩
  refine ⟨img, h1, fun x y k hx hy => ?_⟩
  have hm : Measurable fun r => ∫⁻ ω, ENNReal.ofReal ((Li r ω).1.get k) ∂uniform := by
    refine Measurable.lintegral_prod_right' (f := fun q : R × Stream => ENNReal.ofReal ((Li q.1 q.2).1.get k)) ?_
    exact ((measurable_get k).comp (measurable_fst.comp meas)).ennreal_ofReal
  have := h2 x y k hx hy
  rwa [lens_light h hf ht hsee hs _ hm] at this

end Feign.Camera
