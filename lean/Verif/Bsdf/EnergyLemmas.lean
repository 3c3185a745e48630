import Verif.Bsdf.BounceProps

/-!
# Integrals over directions, and how much a glossy lobe returns (helper lemmas for C73)
-/

set_option linter.unusedSectionVars false

namespace Feign.Warp

open MeasureTheory Set
open scoped ENNReal

instance solidAngle_finite : IsFiniteMeasure solidAngle := by
  unfold solidAngle
  have : IsFiniteMeasure (((volume.restrict (Ioo 0 (2 * Real.pi))).prod (volume.restrict (Ioo 0 Real.pi))).withDensity
      fun p : ℝ × ℝ => ENNReal.ofReal (Real.sin p.2)) := by
    apply isFiniteMeasure_withDensity_ofReal
    refine (Integrable.of_bound (C := 1) (by fun_prop) ?_).2
    filter_upwards with p
    exact Real.abs_sin_le_one _
  infer_instance

/-- Integrating over solid angle is integrating in spherical coordinates. -/
theorem integral_solidAngle (g : V3 ℝ → ℝ) (hg : Measurable g) (C : ℝ) (hC : ∀ v : V3 ℝ, v.sqrNorm = 1 → |g v| ≤ C) :
    ∫ v, g v ∂solidAngle = overSphere g := by
  have hpi := Real.pi_pos
  rw [solidAngle, integral_map measurable_direction.aemeasurable hg.aestronglyMeasurable,
    integral_withDensity_eq_integral_toReal_smul (by fun_prop) (by simp)]
  have hm : Measurable fun p : ℝ × ℝ => g (direction p.2 p.1) := hg.comp measurable_direction
  rw [integral_prod]
  · unfold overSphere
    rw [interval_Ioo 0 _ (by linarith)]
    congr 1
    ext φ
    rw [interval_Ioo 0 _ hpi.le]
    apply setIntegral_congr_fun measurableSet_Ioo
    intro θ hθ
    simp only [smul_eq_mul]
    rw [ENNReal.toReal_ofReal (Real.sin_nonneg_of_nonneg_of_le_pi hθ.1.le hθ.2.le)]
    ring
  · have hs : Measurable fun p : ℝ × ℝ => (ENNReal.ofReal (Real.sin p.2)).toReal := by
      apply Measurable.ennreal_toReal; fun_prop
    refine Integrable.of_bound (C := 1 * C) (hs.smul hm).aestronglyMeasurable ?_
    filter_upwards with p
    rw [smul_eq_mul, norm_mul]
    apply mul_le_mul _ (hC _ (direction_sqrNorm _ _)) (abs_nonneg _) zero_le_one
    rw [Real.norm_of_nonneg ENNReal.toReal_nonneg]
    exact ENNReal.toReal_le_of_le_ofReal zero_le_one (ENNReal.ofReal_le_ofReal (Real.sin_le_one _))

theorem measurableSet_above : MeasurableSet {v : V3 ℝ | 0 < v.z} := measurableSet_lt measurable_const measurable_z

/-- The same over the directions above the surface. -/
theorem integral_above (g : V3 ℝ → ℝ) (hg : Measurable g) (C : ℝ) (hC : ∀ v : V3 ℝ, v.sqrNorm = 1 → |g v| ≤ C) :
    ∫ v in {v | 0 < v.z}, g v ∂solidAngle = overHemisphere g := by
  have hpi := Real.pi_pos
  rw [← integral_indicator measurableSet_above,
    integral_solidAngle _ (hg.indicator measurableSet_above) C]
  · unfold overSphere overHemisphere
    congr 1
    ext φ
    rw [cut 0 (Real.pi / 2) Real.pi (by linarith) (by linarith)]
    · rw [interval_Ioo 0 _ (by linarith), interval_Ioo 0 _ (by linarith)]
      apply setIntegral_congr_fun measurableSet_Ioo
      intro t ht
      have : direction t φ ∈ {v : V3 ℝ | 0 < v.z} := above ht
      simp only [indicator_of_mem this]
    · intro t h0 h1
      have : direction t φ ∉ {v : V3 ℝ | 0 < v.z} :=
        not_lt.2 (Real.cos_nonpos_of_pi_div_two_le_of_le h0.le (by linarith))
      simp only [indicator_of_notMem this, zero_mul]
  · intro v hv
    by_cases h : v ∈ {v : V3 ℝ | 0 < v.z}
    · rw [indicator_of_mem h]; exact hC v hv
    · rw [indicator_of_notMem h, abs_zero]; exact (abs_nonneg _).trans (hC v hv)

theorem abs_dot_le {a b : V3 ℝ} (ha : a.sqrNorm = 1) (hb : b.sqrNorm = 1) : |a.dot b| ≤ 1 := by
  simp only [V3.sqrNorm, V3.dot] at *
  rw [abs_le]
  constructor
  · nlinarith [sq_nonneg (a.x + b.x), sq_nonneg (a.y + b.y), sq_nonneg (a.z + b.z)]
  · nlinarith [sq_nonneg (a.x - b.x), sq_nonneg (a.y - b.y), sq_nonneg (a.z - b.z)]

theorem measurable_dot (b : V3 ℝ) : Measurable fun v : V3 ℝ => v.dot b := by
  simp only [V3.dot]; fun_prop

/-- A power of the cosine with the third axis, over all directions. -/
theorem sphere_pow (k : ℕ) : ∫ v, |v.z| ^ k ∂solidAngle = 4 * Real.pi / (k + 1) := by
  have hpi := Real.pi_pos
  rw [integral_solidAngle (fun v => |v.z| ^ k) (by fun_prop) 1]
  · unfold overSphere
    have hk : ((k : ℝ) + 1) ≠ 0 := by positivity
    have h1 : ∫ t in (0 : ℝ)..(Real.pi / 2), |Real.cos t| ^ k * Real.sin t = 1 / (k + 1) := by
      have : ∀ t ∈ uIcc 0 (Real.pi / 2), HasDerivAt (fun t => -(Real.cos t ^ (k + 1) / (k + 1)))
          (|Real.cos t| ^ k * Real.sin t) t := by
        intro t ht
        rw [uIcc_of_le (by linarith)] at ht
        have hc : 0 ≤ Real.cos t := Real.cos_nonneg_of_neg_pi_div_two_le_of_le (by linarith [ht.1]) ht.2
        rw [abs_of_nonneg hc]
        refine ((((Real.hasDerivAt_cos t).pow (k + 1)).div_const ((k : ℝ) + 1)).neg).congr_deriv ?_
        rw [Nat.add_sub_cancel]
        push_cast
        field_simp
      rw [intervalIntegral.integral_eq_sub_of_hasDerivAt this
        (Continuous.intervalIntegrable (by fun_prop) _ _)]
      simp
    have h2 : ∫ t in (Real.pi / 2)..Real.pi, |Real.cos t| ^ k * Real.sin t = 1 / (k + 1) := by
      rw [← h1]
      have := intervalIntegral.integral_comp_sub_left (a := 0) (b := Real.pi / 2)
        (fun t => |Real.cos t| ^ k * Real.sin t) Real.pi
      simp only [Real.cos_pi_sub, Real.sin_pi_sub, abs_neg, sub_zero] at this
      rw [this]
      congr 1
      ring
    have h3 : ∫ t in (0 : ℝ)..Real.pi, |Real.cos t| ^ k * Real.sin t = 2 / (k + 1) := by
      rw [← intervalIntegral.integral_add_adjacent_intervals (b := Real.pi / 2)
        (Continuous.intervalIntegrable (by fun_prop) _ _) (Continuous.intervalIntegrable (by fun_prop) _ _), h1, h2]
      ring
    simp only [direction, h3, intervalIntegral.integral_const, smul_eq_mul]
    ring
  · intro v hv
    simp only [V3.sqrNorm] at hv
    rw [abs_pow, abs_abs]
    refine pow_le_one₀ (abs_nonneg _) ?_
    rw [abs_le]
    constructor <;> nlinarith [mul_self_nonneg v.x, mul_self_nonneg v.y]

/-- … and of the cosine with any axis. -/
theorem sphere_pow_axis (r : V3 ℝ) (hr : r.sqrNorm = 1) (k : ℕ) :
    ∫ v, |v.dot r| ^ k ∂solidAngle = 4 * Real.pi / (k + 1) := by
  obtain ⟨f, hf, hfn, ho, -⟩ := Frame.frame_orthonormal r hr
  have hm : Measurable fun v : V3 ℝ => |v.dot r| ^ k := ((measurable_dot r).norm).pow_const k
  conv_lhs => rw [← solidAngle_toWorld f ho]
  rw [integral_map (measurable_toWorld f).aemeasurable hm.aestronglyMeasurable, ← sphere_pow k]
  congr 1
  ext v
  have : (f.toWorld v).dot r = v.z := by
    rw [← hfn]
    have := congrArg V3.z (Frame.toLocal_toWorld f ho v)
    exact this
  rw [this]

theorem solidAngle_neg : Measure.map (fun v : V3 ℝ => -v) solidAngle = solidAngle := by
  have := solidAngle_toWorld ⟨⟨-1, 0, 0⟩, ⟨0, -1, 0⟩, ⟨0, 0, -1⟩⟩
    ⟨by simp [V3.dot], by simp [V3.dot], by simp [V3.dot], by simp [V3.dot], by simp [V3.dot], by simp [V3.dot]⟩
  convert this using 2
  ext v <;> simp [Frame.toWorld]

theorem integrable_pow_axis (r : V3 ℝ) (hr : r.sqrNorm = 1) (k : ℕ) :
    Integrable (fun v : V3 ℝ => |v.dot r| ^ k) solidAngle := by
  have hm : Measurable fun v : V3 ℝ => |v.dot r| ^ k := ((measurable_dot r).norm).pow_const k
  refine Integrable.of_bound (C := 1) hm.aestronglyMeasurable ?_
  filter_upwards [solidAngle_unit] with v hv
  rw [norm_pow, Real.norm_eq_abs, abs_abs]
  exact pow_le_one₀ (abs_nonneg _) (abs_dot_le hv hr)

/-- Above the surface there is at most half of it. -/
theorem above_pow_axis (r : V3 ℝ) (hr : r.sqrNorm = 1) (k : ℕ) :
    ∫ v in {v | 0 < v.z}, |v.dot r| ^ k ∂solidAngle ≤ 2 * Real.pi / (k + 1) := by
  have hi := integrable_pow_axis r hr k
  have hm : Measurable fun v : V3 ℝ => |v.dot r| ^ k := ((measurable_dot r).norm).pow_const k
  have hB : MeasurableSet {v : V3 ℝ | v.z < 0} := measurableSet_lt measurable_z measurable_const
  have hneg : Measurable fun v : V3 ℝ => -v := by
    apply measurable_of <;> simp only [V3.neg_x, V3.neg_y, V3.neg_z] <;> fun_prop
  have hflip : ∫ v in {v | 0 < v.z}, |v.dot r| ^ k ∂solidAngle = ∫ v in {v | v.z < 0}, |v.dot r| ^ k ∂solidAngle := by
    conv_lhs => rw [← solidAngle_neg]
    rw [setIntegral_map measurableSet_above hm.aestronglyMeasurable hneg.aemeasurable]
    have hs : (fun v : V3 ℝ => -v) ⁻¹' {v | 0 < v.z} = {v | v.z < 0} := by
      ext v; simp
    rw [hs]
    congr 1
    ext v
    have : (-v).dot r = -v.dot r := by simp only [V3.dot, V3.neg_x, V3.neg_y, V3.neg_z]; ring
    rw [this, abs_neg]
  have hsum : ∫ v in {v | 0 < v.z}, |v.dot r| ^ k ∂solidAngle + ∫ v in {v | v.z < 0}, |v.dot r| ^ k ∂solidAngle ≤
      ∫ v, |v.dot r| ^ k ∂solidAngle := by
    rw [← setIntegral_union _ hB hi.integrableOn hi.integrableOn]
    · exact setIntegral_le_integral hi (Filter.Eventually.of_forall fun v => by positivity)
    · rw [Set.disjoint_left]
      intro v h1 h2
      exact lt_asymm (show 0 < v.z from h1) (show v.z < 0 from h2)
  rw [← hflip, sphere_pow_axis r hr] at hsum
  have : (4 * Real.pi / (k + 1) : ℝ) = 2 * (2 * Real.pi / (k + 1)) := by ring
  linarith

/-- The inequality between the means, for `n` times `a` and once `b`. -/
theorem mean_pow {a b : ℝ} (ha : 0 ≤ a) (hb : 0 ≤ b) (n : ℕ) :
    (n + 1) * (a ^ n * b) ≤ n * a ^ (n + 1) + b ^ (n + 1) := by
  induction n with
  | zero => simp
  | succ n ih =>
    have h1 := mul_le_mul_of_nonneg_left ih ha
    have h2 : 0 ≤ (a ^ (n + 1) - b ^ (n + 1)) * (a - b) := by
      rcases le_total a b with h | h
      · exact mul_nonneg_of_nonpos_of_nonpos (sub_nonpos.2 (pow_le_pow_left₀ ha h _)) (sub_nonpos.2 h)
      · exact mul_nonneg (sub_nonneg.2 (pow_le_pow_left₀ hb h _)) (sub_nonneg.2 h)
    push_cast
    have e1 : a * ((n + 1) * (a ^ n * b)) = (n + 1) * (a ^ (n + 1) * b) := by ring
    have e2 : a * (n * a ^ (n + 1) + b ^ (n + 1)) = n * a ^ (n + 2) + a * b ^ (n + 1) := by ring
    have e3 : (a ^ (n + 1) - b ^ (n + 1)) * (a - b) = a ^ (n + 2) + b ^ (n + 2) - a ^ (n + 1) * b - a * b ^ (n + 1) := by
      ring
    rw [e1, e2] at h1
    rw [e3] at h2
    have e4 : n + 1 + 1 = n + 2 := rfl
    rw [e4]
    linarith

/-- A lobe about any axis, times the cosine, above the surface. -/
theorem lobe_above (r : V3 ℝ) (hr : r.sqrNorm = 1) (n : ℕ) :
    overHemisphere (fun v => (v.dot r) ^ n * v.z) ≤ 2 * Real.pi / (n + 2) := by
  have hup : (⟨0, 0, 1⟩ : V3 ℝ).sqrNorm = 1 := by simp [V3.sqrNorm]
  have hm : Measurable fun v : V3 ℝ => (v.dot r) ^ n * v.z := ((measurable_dot r).pow_const n).mul measurable_z
  have hz : ∀ v : V3 ℝ, v.dot ⟨0, 0, 1⟩ = v.z := by intro v; simp [V3.dot]
  have hbound : ∀ v : V3 ℝ, v.sqrNorm = 1 → |(v.dot r) ^ n * v.z| ≤ 1 := by
    intro v hv
    rw [abs_mul, abs_pow]
    have h1 := pow_le_one₀ (n := n) (abs_nonneg _) (abs_dot_le hv hr)
    have h2 := abs_dot_le hv hup
    rw [hz] at h2
    exact mul_le_one₀ h1 (abs_nonneg _) h2
  rw [← integral_above _ hm 1 hbound]
  have hi1 := integrable_pow_axis r hr (n + 1)
  have hi2 := integrable_pow_axis ⟨0, 0, 1⟩ hup (n + 1)
  have hn : (0 : ℝ) < n + 1 := by positivity
  calc ∫ v in {v | 0 < v.z}, (v.dot r) ^ n * v.z ∂solidAngle
      ≤ ∫ v in {v | 0 < v.z}, (n / (n + 1) * |v.dot r| ^ (n + 1) + 1 / (n + 1) * |v.dot ⟨0, 0, 1⟩| ^ (n + 1))
        ∂solidAngle := by
        apply setIntegral_mono_on
        · refine (Integrable.of_bound (C := 1) hm.aestronglyMeasurable ?_).integrableOn
          filter_upwards [solidAngle_unit] with v hv
          exact hbound v hv
        · exact ((hi1.const_mul _).add (hi2.const_mul _)).integrableOn
        · exact measurableSet_above
        · intro v hv
          have hv : 0 < v.z := hv
          rw [hz, abs_of_pos hv]
          have h1 : (v.dot r) ^ n * v.z ≤ |v.dot r| ^ n * v.z := by
            apply mul_le_mul_of_nonneg_right _ hv.le
            rw [← abs_pow]; exact le_abs_self _
          have h2 := mean_pow (abs_nonneg (v.dot r)) hv.le n
          have h3 : |v.dot r| ^ n * v.z ≤ (n * |v.dot r| ^ (n + 1) + v.z ^ (n + 1)) / (n + 1) := by
            rw [le_div_iff₀ hn]; linarith
          refine (h1.trans h3).trans (le_of_eq ?_)
          field_simp
    _ = n / (n + 1) * ∫ v in {v | 0 < v.z}, |v.dot r| ^ (n + 1) ∂solidAngle +
        1 / (n + 1) * ∫ v in {v | 0 < v.z}, |v.dot ⟨0, 0, 1⟩| ^ (n + 1) ∂solidAngle := by
        rw [integral_add (hi1.const_mul _).integrableOn (hi2.const_mul _).integrableOn, integral_const_mul,
          integral_const_mul]
    _ ≤ n / (n + 1) * (2 * Real.pi / ((n + 1 : ℕ) + 1)) + 1 / (n + 1) * (2 * Real.pi / ((n + 1 : ℕ) + 1)) := by
        have h1 := above_pow_axis r hr (n + 1)
        have h2 := above_pow_axis ⟨0, 0, 1⟩ hup (n + 1)
        gcongr
    _ = 2 * Real.pi / (n + 2) := by
        push_cast
        field_simp
        ring

end Feign.Warp
