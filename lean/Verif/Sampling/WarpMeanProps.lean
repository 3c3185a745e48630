import Verif.Sampling.WarpCharts
import Mathlib.Analysis.SpecialFunctions.Integrals.Basic

/-!
# Averages over warped samples are integrals against the density (C98)

For every function of the sample: averaging it over the random numbers is integrating it, times the companion
density, over the target. No regularity of the function is assumed.
-/

set_option linter.unusedSectionVars false

namespace Feign.Warp

open MeasureTheory Set

/-- **C98, disk.** -/
theorem uniDisk_mean (f : V2 ℝ → ℝ) :
    average (fun s => f (uniDisk s)) = overDisk fun p => f p * uniDiskPdf p := by
  have hp := Real.pi_pos
  refine both 0 1 zero_le_one (fun r => r ^ 2) (fun r => 2 * r) (fun t _ => by simpa using hasDerivAt_pow 2 t)
    (fun s hs t ht h => (pow_left_inj₀ hs.1.le ht.1.le two_ne_zero).mp h) ?_ _ _ ?_
  · ext b
    constructor
    · rintro ⟨a, ⟨h0, h1⟩, rfl⟩
      exact ⟨by positivity, by show a ^ 2 < 1; nlinarith⟩
    · rintro ⟨h0, h1⟩
      exact ⟨Real.sqrt b, ⟨Real.sqrt_pos.mpr h0, by rw [Real.sqrt_lt' one_pos]; simpa using h1⟩,
        Real.sq_sqrt h0.le⟩
  · intro x t ht
    have hd : uniDisk ⟨x, t ^ 2⟩ = ⟨t * Real.cos (2 * Real.pi * x), t * Real.sin (2 * Real.pi * x)⟩ := by
      simp only [uniDisk, Real.sqrt_sq ht.1.le, mul_comm t]
    have h1 : uniDiskPdf ⟨t * Real.cos (2 * Real.pi * x), t * Real.sin (2 * Real.pi * x)⟩ = 1 / Real.pi := by
      unfold uniDiskPdf
      rw [if_pos]
      have := Real.cos_sq_add_sin_sq (2 * Real.pi * x)
      have e : t * Real.cos (2 * Real.pi * x) * (t * Real.cos (2 * Real.pi * x)) +
        t * Real.sin (2 * Real.pi * x) * (t * Real.sin (2 * Real.pi * x)) = t ^ 2 := by
        linear_combination t ^ 2 * this
      show t * Real.cos (2 * Real.pi * x) * (t * Real.cos (2 * Real.pi * x)) +
        t * Real.sin (2 * Real.pi * x) * (t * Real.sin (2 * Real.pi * x)) ≤ 1
      rw [e]; nlinarith [ht.1, ht.2]
    beta_reduce
    rw [hd, h1, abs_of_pos (by linarith [ht.1])]
    field_simp

/-- **C98, sphere.** -/
theorem uniSph_mean (f : V3 ℝ → ℝ) :
    average (fun s => f (uniSph s)) = overSphere fun v => f v * uniSphPdf v :=
  uniSph_chart.mean f

/-- **C98, sphere**, as a statement about sets of directions: the sampled direction is distributed with the density
over solid angle. -/
theorem uniSph_law :
    Measure.map (fun q : ℝ × ℝ => uniSph ⟨q.1, q.2⟩) square =
      solidAngle.withDensity fun v => ENNReal.ofReal (uniSphPdf v) :=
  uniSph_chart.law measurable_uniSph measurable_const

/-- **C98, cap.** The warp and its density are given by their values, which exist for a cosine below 1
(`uniSphCap_domain`). -/
theorem uniSphCap_mean (c : ℝ) (hc : -1 ≤ c) (hc1 : c < 1) (w : V2 ℝ → V3 ℝ) (p : V3 ℝ → ℝ)
    (hw : ∀ s, 0 ≤ s.y → s.y < 1 → uniSphCap s c = some (w s)) (hpdf : ∀ v, uniSphCapPdf v c = some (p v))
    (f : V3 ℝ → ℝ) :
    average (fun s => f (w s)) = overSphere fun v => f v * p v :=
  (uniSphCap_chart c hc hc1 w p hw hpdf).mean f

/-- **C98, hemisphere.** -/
theorem uniHemi_mean (f : V3 ℝ → ℝ) :
    average (fun s => f (uniHemi s)) = overSphere fun v => f v * uniHemiPdf v :=
  uniHemi_chart.mean f

theorem uniHemi_law :
    Measure.map (fun q : ℝ × ℝ => uniHemi ⟨q.1, q.2⟩) square =
      solidAngle.withDensity fun v => ENNReal.ofReal (uniHemiPdf v) :=
  uniHemi_chart.law measurable_uniHemi measurable_uniHemiPdf

/-- **C98, cosine hemisphere.** -/
theorem cosHemi_mean (f : V3 ℝ → ℝ) :
    average (fun s => f (cosHemi s)) = overSphere fun v => f v * cosHemiPdf v :=
  cosHemi_chart.mean f

theorem cosHemi_law :
    Measure.map (fun q : ℝ × ℝ => cosHemi ⟨q.1, q.2⟩) square =
      solidAngle.withDensity fun v => ENNReal.ofReal (cosHemiPdf v) :=
  cosHemi_chart.law measurable_cosHemi measurable_cosHemiPdf

/-- **C98, power-cosine hemisphere**, for every exponent above -1. -/
theorem cosPowHemi_mean (n : ℝ) (hn : -1 < n) (f : V3 ℝ → ℝ) :
    average (fun s => f (cosPowHemi s n)) = overSphere fun v => f v * cosPowHemiPdf v n :=
  (cosPowHemi_chart n hn).mean f

theorem cosPowHemi_law (n : ℝ) (hn : -1 < n) :
    Measure.map (fun q : ℝ × ℝ => cosPowHemi ⟨q.1, q.2⟩ n) square =
      solidAngle.withDensity fun v => ENNReal.ofReal (cosPowHemiPdf v n) :=
  (cosPowHemi_chart n hn).law (measurable_cosPowHemi n) (measurable_cosPowHemiPdf n)

private theorem hemi_cut (f p : V3 ℝ → ℝ) (hz : ∀ v : V3 ℝ, v.z ≤ 0 → p v = 0) :
    overSphere (fun v => f v * p v) = overHemisphere fun v => f v * p v := by
  unfold overSphere overHemisphere
  have hp := Real.pi_pos
  have : ∀ φ, ∫ t in (0 : ℝ)..Real.pi, f (direction t φ) * p (direction t φ) * Real.sin t =
      ∫ t in (0 : ℝ)..(Real.pi / 2), f (direction t φ) * p (direction t φ) * Real.sin t := by
    intro φ
    refine cut 0 _ _ (by linarith) (by linarith) _ ?_
    intro t h0 h1
    rw [hz _ (Real.cos_nonpos_of_pi_div_two_le_of_le h0.le (by linarith))]; ring
  simp only [this]

/-- **C98, triangle.** -/
theorem uniTri_mean (f : V2 ℝ → ℝ) :
    average (fun s => f (uniTri s)) = overTriangle fun p => f p * uniTriPdf p := by
  have h := Feign.Lights.integral_uniTri f
  unfold average overTriangle
  simp only [interval_Ioo 0 1 zero_le_one]
  rw [h, ← integral_const_mul]
  apply setIntegral_congr_fun measurableSet_Ioo
  intro a ha
  have h1 : 0 ≤ 1 - a := by linarith [ha.2]
  simp only
  rw [interval_Ioo 0 _ h1, ← integral_const_mul]
  apply setIntegral_congr_fun measurableSet_Ioo
  intro b hb
  simp only
  rw [uniTriPdf, if_neg (by simp only; linarith [hb.2]), if_neg (by simp only; linarith [hb.1, ha.1])]
  ring

/-- **C98, the estimator.** Dividing by the density gives the plain integral over the hemisphere: what an integrator
averages when it draws cosine-distributed directions and divides by the density it is told. -/
theorem cosHemi_estimator (g : V3 ℝ → ℝ) :
    average (fun s => g (cosHemi s) / cosHemiPdf (cosHemi s)) = overHemisphere g := by
  have hp := Real.pi_pos
  have h := cosHemi_mean (fun v => g v / cosHemiPdf v)
  rw [h, hemi_cut _ cosHemiPdf (fun v hv => if_neg (not_lt.mpr hv))]
  unfold overHemisphere
  have : ∀ φ, ∫ t in (0 : ℝ)..(Real.pi / 2),
      g (direction t φ) / cosHemiPdf (direction t φ) * cosHemiPdf (direction t φ) * Real.sin t =
      ∫ t in (0 : ℝ)..(Real.pi / 2), g (direction t φ) * Real.sin t := by
    intro φ
    rw [interval_Ioo 0 _ (by linarith), interval_Ioo 0 _ (by linarith)]
    apply setIntegral_congr_fun measurableSet_Ioo
    intro t ht
    have hz : 0 < Real.cos t := Real.cos_pos_of_mem_Ioo ⟨by linarith [ht.1], ht.2⟩
    have hq : cosHemiPdf (direction t φ) ≠ 0 := by
      rw [cosHemiPdf, if_pos (show (direction t φ).z > 0 from hz)]
      simp only [direction]; positivity
    simp only
    rw [div_mul_cancel₀ _ hq]
  simp only [this]

/-- The same for uniformly drawn directions of the sphere. -/
theorem uniSph_estimator (g : V3 ℝ → ℝ) :
    average (fun s => g (uniSph s) / uniSphPdf (uniSph s)) = overSphere g := by
  have hp := Real.pi_pos
  have h := uniSph_mean (fun v => g v / uniSphPdf v)
  rw [h]
  have hq : ∀ v, uniSphPdf v ≠ 0 := fun v => by unfold uniSphPdf; positivity
  simp only [div_mul_cancel₀ _ (hq _)]

/-- The hemisphere has area `2π`, so the statements are not about vanishing integrals: the average of `1/density` over
cosine samples is that area. -/
example : average (fun s => 1 / cosHemiPdf (cosHemi s)) = 2 * Real.pi := by
  rw [cosHemi_estimator (fun _ => 1)]
  simp [overHemisphere, integral_sin]

/-- The cap's hypotheses hold, here for the upper hemisphere. -/
example : ∃ (w : V2 ℝ → V3 ℝ) (p : V3 ℝ → ℝ),
    (∀ s, 0 ≤ s.y → s.y < 1 → uniSphCap s 0 = some (w s)) ∧ ∀ v, uniSphCapPdf v 0 = some (p v) := by
  classical
  refine ⟨fun s => ⟨Real.sqrt (1 - s.y * s.y) * Real.cos (2 * Real.pi * s.x),
    Real.sqrt (1 - s.y * s.y) * Real.sin (2 * Real.pi * s.x), s.y⟩,
    fun v => if v.z < 0 then 0 else 1 / (2 * Real.pi), ?_, ?_⟩
  · intro s h0 h1
    have : ¬ (1 - s.y * s.y < 0) := by nlinarith
    simp [uniSphCap]
    nlinarith
  · intro v
    by_cases h : v.z < 0 <;> simp [uniSphCapPdf, h]

end Feign.Warp
