import Verif.Media.PhaseLaw
import Verif.Sampling.WarpMeanProps

/-!
# The distribution of scattered directions over the sphere (C75)

`Drawn p eps wo A` is the set of pairs of random numbers for which the sampler returns a direction in `A`; its size
under the uniform distribution on the unit square is the probability of scattering into `A`.
-/

set_option linter.unusedSectionVars false
set_option linter.unusedSimpArgs false

namespace Feign.Media

open MeasureTheory Set Warp
open scoped ENNReal

/-- **C75, isotropic.** The probability of scattering into a set of directions is the integral of the returned value over
the set. -/
theorem isotropic_directions (eps : ℝ) (wo : V3 ℝ) (A : Set (V3 ℝ)) (hA : MeasurableSet A) :
    square (Drawn .isotropic eps wo A) =
      ∫⁻ v in A, ENNReal.ofReal (valueR (Phase.isotropic.eval wo v)) ∂solidAngle := by
  have h := congrArg (fun μ => μ A) uniSph_law
  beta_reduce at h
  rw [Measure.map_apply measurable_uniSph hA, withDensity_apply _ hA] at h
  have e : Drawn .isotropic eps wo A = (fun q : ℝ × ℝ => uniSph ⟨q.1, q.2⟩) ⁻¹' A := by
    ext q
    constructor
    · rintro ⟨wi, v, h, hwi⟩
      cases h
      exact hwi
    · intro h
      exact ⟨_, _, rfl, h⟩
  rw [e, h]
  rfl

/-- **C75, Rayleigh.** The probability of scattering into a set of directions is the integral of the returned value over
the set. -/
theorem rayleigh_directions (eps : ℝ) (wo : V3 ℝ) (hw : wo.sqrNorm = 1) (A : Set (V3 ℝ)) (hA : MeasurableSet A) :
    square (Drawn .rayleigh eps wo A) =
      ∫⁻ v in A, ENNReal.ofReal (valueR (Phase.rayleigh.eval wo v)) ∂solidAngle := by
  have hpi := Real.pi_pos
  rw [drawn_law .rayleigh eps wo hw rayleighCos (fun c => 3 * (c * c + 1) * (1 / (4 * Real.pi)) / 4)
    (by unfold rayleighCos; fun_prop) (by fun_prop) (by fun_prop) (fun c _ => by
      have := mul_self_nonneg c
      positivity)
    (fun u hu => rayleighCos_range u ⟨hu.1.le, hu.2.le⟩)
    (fun u _ v wi h => ⟨_, by
      show (around (rayleighCos u) v wo).bind _ = _
      rw [h]
      rfl⟩)
    (fun c hc => (rayleigh_drawn eps 0 wo hw c hc).1) A hA]
  apply lintegral_congr
  intro v
  rw [neg_dot, Phase.eval]
  simp only [Phase.evalCos, valueR]
  congr 4
  ring

/-- **C75, Henyey–Greenstein** (asymmetry at least `eps`). The probability of scattering into a set of directions is the
integral of the phase function *of the mirrored directions*: the density at `v` is the value for `-v`. -/
theorem hg_directions (eps g : ℝ) (hg1 : |g| < 1) (h0 : 0 < eps) (he : eps ≤ |g|) (wo : V3 ℝ) (hw : wo.sqrNorm = 1)
    (A : Set (V3 ℝ)) (hA : MeasurableSet A) :
    square (Drawn (.henyeyGreenstein g) eps wo A) =
      ∫⁻ v in A, ENNReal.ofReal (valueR ((Phase.henyeyGreenstein g).eval wo (-v))) ∂solidAngle := by
  have hpi := Real.pi_pos
  have hg0 : g ≠ 0 := by
    rintro rfl
    rw [abs_zero] at he
    linarith
  obtain ⟨h1, h2⟩ := abs_lt.1 hg1
  have hk : 0 ≤ 1 - g * g := by nlinarith
  have hval : ∀ c, -1 ≤ c ∧ c ≤ 1 → valueR (hg c g) = 1 / (4 * Real.pi) * (1 - g * g) /
      ((1 + g * g - 2 * g * c) * Real.sqrt (1 + g * g - 2 * g * c)) := by
    intro c hc
    simp only [hg, if_neg (not_le.2 (hg_denom_pos hg1 hc)), valueR]
  rw [drawn_law (.henyeyGreenstein g) eps wo hw
    (fun u => (1 + g * g - ((1 - g * g) / ((2 * u - 1) * g + 1)) ^ 2) / (2 * g))
    (fun c => 1 / (4 * Real.pi) * (1 - g * g) / ((1 + g * g - 2 * g * c) * Real.sqrt (1 + g * g - 2 * g * c)))
    (by fun_prop) (by fun_prop) ?_ ?_ ?_ ?_ ?_ A hA]
  · refine density_congr wo hw (fun v => 1 / (4 * Real.pi) * (1 - g * g) /
      ((1 + g * g - 2 * g * (-wo).dot v) * Real.sqrt (1 + g * g - 2 * g * (-wo).dot v))) _ ?_ A
    intro v hv1 hv2
    have e : wo.dot (-v) = (-wo).dot v := by
      simp only [V3.dot, V3.neg_x, V3.neg_y, V3.neg_z]
      ring
    rw [Phase.eval, e]
    exact (hval _ ⟨hv1, hv2⟩).symm
  · refine ContinuousOn.div (by fun_prop) (by fun_prop) ?_
    intro c hc
    have := hg_denom_pos hg1 hc
    have := Real.sqrt_pos.2 this
    positivity
  · intro c hc
    have := hg_denom_pos hg1 hc
    positivity
  · intro u hu
    obtain ⟨c, hc, hr⟩ := hgCos_range eps g u hg1 h0 ⟨hu.1.le, hu.2.le⟩
    rw [(hgCos_eq eps g u hg1 he ⟨hu.1.le, hu.2.le⟩ hg0).2] at hc
    rw [Res.ok.inj hc]
    exact hr
  · intro u hu v wi
    obtain ⟨c, hc, hr⟩ := hgCos_range eps g u hg1 h0 ⟨hu.1.le, hu.2.le⟩
    have hc' := hc
    rw [(hgCos_eq eps g u hg1 he ⟨hu.1.le, hu.2.le⟩ hg0).2] at hc'
    rw [Res.ok.inj hc']
    exact hg_sample_around (s := ⟨u, v⟩) hg1 hc hr wi
  · intro c hc
    rw [hg_drawn eps g hg1 h0 he 0 wo hw c hc]
    congr 1
    apply intervalIntegral.integral_congr
    intro x hx
    rw [uIcc_of_le hc.1] at hx
    simp only
    rw [hval x ⟨hx.1, hx.2.trans hc.2⟩]

/-- **C75, ellipsoidal.** As for Henyey–Greenstein, the density is that of the mirrored directions. -/
theorem ellipsoidal_directions (eps b : ℝ) (hb : |b| < 1) (h0 : b ≠ 0) (wo : V3 ℝ) (hw : wo.sqrNorm = 1)
    (A : Set (V3 ℝ)) (hA : MeasurableSet A) :
    square (Drawn (.ellipsoidal b) eps wo A) =
      ∫⁻ v in A, ENNReal.ofReal (valueR ((Phase.ellipsoidal b).eval wo (-v))) ∂solidAngle := by
  have hpi := Real.pi_pos
  have hval : ∀ c, -1 ≤ c ∧ c ≤ 1 → valueR ((Phase.ellipsoidal b).evalCos c) =
      b * (1 / (2 * Real.pi)) / ((1 - b * c) * Real.log ((b + 1) / (1 - b))) := by
    intro c hc
    rw [ellipsoidal_value hb h0 hc]
    rfl
  have hl := log_ratio_ne hb h0
  obtain ⟨h1, h2⟩ := abs_lt.1 hb
  rw [drawn_law (.ellipsoidal b) eps wo hw (fun u => (1 - (b + 1) * ((b + 1) / (1 - b)) ^ (-u)) / b)
    (fun c => b * (1 / (2 * Real.pi)) / ((1 - b * c) * Real.log ((b + 1) / (1 - b))))
    (by fun_prop) (by fun_prop) ?_ ?_ ?_ ?_ ?_ A hA]
  · refine density_congr wo hw (fun v => b * (1 / (2 * Real.pi)) / ((1 - b * (-wo).dot v) *
      Real.log ((b + 1) / (1 - b)))) _ ?_ A
    intro v hv1 hv2
    have e : wo.dot (-v) = (-wo).dot v := by
      simp only [V3.dot, V3.neg_x, V3.neg_y, V3.neg_z]
      ring
    rw [Phase.eval, e]
    exact (hval _ ⟨hv1, hv2⟩).symm
  · refine ContinuousOn.div (by fun_prop) (by fun_prop) ?_
    intro c hc
    exact mul_ne_zero (one_sub_pos hb hc).ne' hl
  · intro c hc
    have hd := one_sub_pos hb hc
    have hbl : 0 < b / Real.log ((b + 1) / (1 - b)) := by
      rcases lt_or_gt_of_ne h0 with hn | hp
      · exact div_pos_of_neg_of_neg hn (Real.log_neg (ratio_pos hb) (by rw [div_lt_one (by linarith)]; linarith))
      · exact div_pos hp (Real.log_pos (by rw [lt_div_iff₀ (by linarith)]; linarith))
    have e : b * (1 / (2 * Real.pi)) / ((1 - b * c) * Real.log ((b + 1) / (1 - b))) =
        b / Real.log ((b + 1) / (1 - b)) * (1 / (2 * Real.pi)) / (1 - b * c) := by field_simp
    rw [e]
    positivity
  · intro u hu
    exact ellipsoidalCos_range b u hb h0 ⟨hu.1.le, hu.2.le⟩
  · intro u hu v wi hwi
    have hrange := ellipsoidalCos_range b u hb h0 ⟨hu.1.le, hu.2.le⟩
    obtain ⟨wi', h1', h2', h3'⟩ := around_spec _ v hrange wo hw
    have heq : wi' = wi := by
      rw [hwi] at h1'
      exact (Res.ok.inj h1').symm
    subst heq
    have hv := ellipsoidal_value hb h0 (c := wo.dot wi')
      (by rw [h3']; exact ⟨by linarith [hrange.2], by linarith [hrange.1]⟩)
    refine ⟨b * (1 / (2 * Real.pi)) / ((1 - b * wo.dot wi') * Real.log ((b + 1) / (1 - b))), ?_⟩
    show (ellipsoidalCos b u).bind _ = _
    rw [ellipsoidalCos_eq b u hb h0]
    show (around _ v wo).bind _ = _
    rw [hwi]
    show ((Phase.ellipsoidal b).evalCos (wo.dot wi')).bind _ = _
    rw [hv]
    rfl
  · intro c hc
    rw [ellipsoidal_drawn eps b hb h0 0 wo hw c hc]
    congr 1
    apply intervalIntegral.integral_congr
    intro x hx
    rw [uIcc_of_le hc.1] at hx
    simp only
    rw [hval x ⟨hx.1, hx.2.trans hc.2⟩]

/-- **C75, Eddington** (parameter at least `eps`). Directions are drawn with density `(1 + b cos) / 4π` about the
direction of travel; the returned value is another one (`eddington_density_refuted`). -/
theorem eddington_directions (eps b : ℝ) (h0 : 0 < eps) (he : eps ≤ |b|) (hb : |b| ≤ 1) (wo : V3 ℝ)
    (hw : wo.sqrNorm = 1) (A : Set (V3 ℝ)) (hA : MeasurableSet A) :
    square (Drawn (.eddington b) eps wo A) =
      ∫⁻ v in A, ENNReal.ofReal ((1 + b * (-wo).dot v) / (4 * Real.pi)) ∂solidAngle := by
  have hpi := Real.pi_pos
  have hb0 : b ≠ 0 := by
    rintro rfl
    rw [abs_zero] at he
    linarith
  have hval : ∀ u ∈ Ioo (0 : ℝ) 1, eddingtonCos eps b u =
      .ok ((Real.sqrt (b * b + 4 * b * u - 2 * b + 1) - 1) / b) := by
    intro u hu
    obtain ⟨c, hc, -⟩ := eddingtonCos_range eps b u h0 ⟨hu.1.le, hu.2.le⟩
    have hnn : ¬ b * b + 4 * b * u - 2 * b + 1 < 0 := by
      intro hn
      rw [eddingtonCos, if_neg (not_lt.2 he), if_pos hn] at hc
      cases hc
    rw [eddingtonCos, if_neg (not_lt.2 he), if_neg hnn, if_neg hb0]
  exact drawn_law (.eddington b) eps wo hw (fun u => (Real.sqrt (b * b + 4 * b * u - 2 * b + 1) - 1) / b)
    (fun c => (1 + b * c) / (4 * Real.pi)) (by fun_prop) (by fun_prop) (by fun_prop)
    (fun c hc => by
      have : |b * c| ≤ 1 := by
        rw [abs_mul]
        exact mul_le_one₀ hb (abs_nonneg c) (abs_le.2 hc)
      have := (abs_le.1 this).1
      exact div_nonneg (by linarith) (by positivity))
    (fun u hu => by
      obtain ⟨c, hc, hr⟩ := eddingtonCos_range eps b u h0 ⟨hu.1.le, hu.2.le⟩
      rw [hval u hu] at hc
      rw [Res.ok.inj hc]
      exact hr)
    (fun u hu v wi h => ⟨_, by
      show (eddingtonCos eps b u).bind _ = _
      rw [hval u hu]
      show (around _ v wo).bind _ = _
      rw [h]
      rfl⟩)
    (fun c hc => eddington_drawn eps b h0 he hb 0 wo hw c hc) A hA

/-- All directions together have probability one, so the laws above are not about empty sets. -/
example (eps : ℝ) (wo : V3 ℝ) (hw : wo.sqrNorm = 1) :
    ∫⁻ v, ENNReal.ofReal (valueR (Phase.rayleigh.eval wo v)) ∂solidAngle = 1 := by
  have h := rayleigh_directions eps wo hw univ MeasurableSet.univ
  rw [Measure.restrict_univ] at h
  rw [← h]
  have e : square (Drawn .rayleigh eps wo univ) = square univ := by
    apply measure_congr
    filter_upwards [square_ae] with q hq
    refine propext ⟨fun _ => trivial, fun _ => ?_⟩
    obtain ⟨wi, h1, -⟩ := around_spec (rayleighCos q.1) q.2 (rayleighCos_range q.1 ⟨hq.1.1.le, hq.1.2.le⟩) wo hw
    refine ⟨wi, valueR (Phase.rayleigh.eval wo wi), ?_, trivial⟩
    show (around (rayleighCos q.1) q.2 wo).bind _ = _
    rw [h1]
    rfl
  rw [e, square, ← univ_prod_univ, Measure.prod_prod]
  simp

end Feign.Media
