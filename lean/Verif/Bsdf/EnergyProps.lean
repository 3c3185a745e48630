import Verif.Bsdf.EnergyLemmas

/-!
# How much light glossy materials return (C73)

The share of the light arriving from a direction that a material sends back out of the surface is the integral, over
the directions above the surface, of reflectance times cosine. For Phong it is never more than the sum of the two
shares the material was given, from whatever direction the light comes; light along the normal attains that
(`phong_energy_refuted`). Blinn uses the normalisation of the lobe about the mirror direction for a lobe about the half
vector and returns up to four times its specular share.
-/

set_option linter.unusedSectionVars false

namespace Feign.Bsdf

open MeasureTheory Set Warp

/-- C73, Phong, for light from everywhere above the surface and every channel: no more is returned than the diffuse
and the specular share together. Missing from C73: those are not made to sum to at most one
(`phong_energy_refuted`), and the lobe reaches below the surface (`phong_leaks_refuted`). -/
theorem phong_energy_partial (kd : V3 ℝ) (ks : ℝ) (hk : 0 ≤ ks) (n : ℕ) (wi : V3 ℝ) (h1 : wi.sqrNorm = 1) (i : Fin 3) :
    overHemisphere (fun wo => ((Phong.make kd ks n).eval wi wo).get i * wo.z) ≤ kd.get i + ks := by
  have hpi := Real.pi_pos
  have hwr : (⟨0, 0, 2 * wi.z⟩ : V3 ℝ) - wi = reflect wi := by
    rw [reflect_eq]; ext <;> simp; ring
  have hr := reflect_unit h1
  set r := reflect wi with hrdef
  have hval : ∀ wo : V3 ℝ, ((Phong.make kd ks n).eval wi wo).get i * wo.z =
      kd.get i / Real.pi * (wo.dot ⟨0, 0, 1⟩ ^ 0 * wo.z) +
        ks * (n + 2) * (1 / (2 * Real.pi)) * (wo.dot r ^ n * wo.z) := by
    intro wo
    simp only [Phong.eval, Phong.make, hwr]
    fin_cases i <;> simp [V3.get, V3.dot] <;> ring
  have hsplit : overHemisphere (fun wo => ((Phong.make kd ks n).eval wi wo).get i * wo.z) =
      kd.get i / Real.pi * overHemisphere (fun wo => wo.dot ⟨0, 0, 1⟩ ^ 0 * wo.z) +
        ks * (n + 2) * (1 / (2 * Real.pi)) * overHemisphere (fun wo => wo.dot r ^ n * wo.z) := by
    have hb : ∀ (e : V3 ℝ) (k : ℕ), e.sqrNorm = 1 → ∀ v : V3 ℝ, v.sqrNorm = 1 → |v.dot e ^ k * v.z| ≤ 1 := by
      intro e k he v hv
      have h2 := abs_dot_le hv (show (⟨0, 0, 1⟩ : V3 ℝ).sqrNorm = 1 by simp [V3.sqrNorm])
      have hz : v.dot ⟨0, 0, 1⟩ = v.z := by simp [V3.dot]
      rw [hz] at h2
      rw [abs_mul, abs_pow]
      exact mul_le_one₀ (pow_le_one₀ (abs_nonneg _) (abs_dot_le hv he)) (abs_nonneg _) h2
    have hm : ∀ (e : V3 ℝ) (k : ℕ), Measurable fun v : V3 ℝ => v.dot e ^ k * v.z := fun e k =>
      ((measurable_dot e).pow_const k).mul measurable_z
    have hint : ∀ (e : V3 ℝ) (k : ℕ), e.sqrNorm = 1 →
        IntegrableOn (fun v : V3 ℝ => v.dot e ^ k * v.z) {v | 0 < v.z} solidAngle := by
      intro e k he
      refine (Integrable.of_bound (C := 1) (hm e k).aestronglyMeasurable ?_).integrableOn
      filter_upwards [solidAngle_unit] with v hv
      exact hb e k he v hv
    have hup : (⟨0, 0, 1⟩ : V3 ℝ).sqrNorm = 1 := by simp [V3.sqrNorm]
    rw [← integral_above _ (hm _ _) 1 (hb _ _ hup), ← integral_above _ (hm _ _) 1 (hb _ _ hr),
      ← integral_const_mul, ← integral_const_mul, ← integral_add ((hint _ _ hup).const_mul _)
        ((hint _ _ hr).const_mul _)]
    simp only [hval]
    refine (integral_above _ (((hm _ _).const_mul _).add ((hm _ _).const_mul _))
      (|kd.get i / Real.pi| * 1 + |ks * (n + 2) * (1 / (2 * Real.pi))| * 1) ?_).symm
    intro v hv
    refine (abs_add_le _ _).trans ?_
    rw [abs_mul (kd.get i / Real.pi), abs_mul (ks * (n + 2) * (1 / (2 * Real.pi)))]
    exact add_le_add (mul_le_mul_of_nonneg_left (hb _ _ hup v hv) (abs_nonneg _))
      (mul_le_mul_of_nonneg_left (hb _ _ hr v hv) (abs_nonneg _))
  have hdiff : overHemisphere (fun wo => wo.dot ⟨0, 0, 1⟩ ^ 0 * wo.z) = Real.pi := by
    simp only [pow_zero, one_mul]
    unfold overHemisphere
    simp only [direction]
    have e : ∀ φ : ℝ, ∫ θ in (0 : ℝ)..(Real.pi / 2), Real.cos θ * Real.sin θ = 1 / 2 := by
      intro φ
      simp only [mul_comm (Real.cos _)]
      rw [integral_sin_mul_cos₁]
      simp
    rw [intervalIntegral.integral_congr (g := fun _ => (1 / 2 : ℝ)) (fun φ _ => e φ)]
    simp
    ring
  rw [hsplit, hdiff]
  have hl := lobe_above r hr n
  have hc : 0 ≤ ks * (n + 2) * (1 / (2 * Real.pi)) := by positivity
  have := mul_le_mul_of_nonneg_left hl hc
  have e1 : kd.get i / Real.pi * Real.pi = kd.get i := by field_simp
  have e2 : ks * (n + 2) * (1 / (2 * Real.pi)) * (2 * Real.pi / (n + 2)) = ks := by field_simp
  rw [e2] at this
  linarith

/-- Light at sixty degrees on a material returning 0.3, 0.4 and 0.5 diffusely and half in a highlight. -/
example : overHemisphere (fun wo => ((Phong.make ⟨3 / 10, 4 / 10, 5 / 10⟩ (1 / 2) 20).eval
    ⟨Real.sqrt 3 / 2, 0, 1 / 2⟩ wo).get 2 * wo.z) ≤ 1 := by
  have h : (⟨Real.sqrt 3 / 2, 0, 1 / 2⟩ : V3 ℝ).sqrNorm = 1 := by
    simp only [V3.sqrNorm]
    nlinarith [Real.mul_self_sqrt (show (0 : ℝ) ≤ 3 by norm_num)]
  refine (phong_energy_partial _ _ (by norm_num) _ _ h 2).trans ?_
  show (5 / 10 : ℝ) + 1 / 2 ≤ 1
  norm_num

/-- What Blinn returns of light along the normal, for an even exponent `2 k`. -/
theorem blinn_energy (kd ks : V3 ℝ) (k : ℕ) (f : ℝ → V3 ℝ)
    (hf : ∀ z, 0 < z → z ≤ 1 → blinnEval kd ks (2 * k) ⟨0, 0, 1⟩ ⟨Real.sqrt (1 - z ^ 2), 0, z⟩ = some (f z)) :
    returned (fun z => (f z).x) =
      kd.x + ks.x * ((2 * k + 2) * (4 * (1 - (1 / 2) ^ (k + 2)) / (k + 2) - 2 * (1 - (1 / 2) ^ (k + 1)) / (k + 1))) := by
  have hpi := Real.pi_pos
  have hval : ∀ z, 0 < z → z ≤ 1 →
      (f z).x = kd.x * (1 / Real.pi) + ks.x * ((2 * k + 2) * (1 / (2 * Real.pi)) * ((1 + z) / 2) ^ k) := by
    intro z h0 h1
    have h := hf z h0 h1
    have hs : Real.sqrt (1 - z ^ 2) ^ 2 = 1 - z ^ 2 := Real.sq_sqrt (by nlinarith)
    rw [blinnEval, if_neg (by norm_num)] at h
    have hn : ((⟨Real.sqrt (1 - z ^ 2), 0, z⟩ : V3 ℝ) + ⟨0, 0, 1⟩).norm ^ 2 = 2 * (1 + z) := by
      rw [V3.norm, Real.sq_sqrt]
      · simp only [V3.add_x, V3.add_y, V3.add_z]
        linear_combination hs
      · simp only [V3.add_x, V3.add_y, V3.add_z]
        positivity
    have hpos : 0 < ((⟨Real.sqrt (1 - z ^ 2), 0, z⟩ : V3 ℝ) + ⟨0, 0, 1⟩).norm := by
      have h0' : 0 ≤ ((⟨Real.sqrt (1 - z ^ 2), 0, z⟩ : V3 ℝ) + ⟨0, 0, 1⟩).norm := Real.sqrt_nonneg _
      rcases h0'.eq_or_lt with he | hl
      · rw [← he] at hn; nlinarith
      · exact hl
    rw [V3.normalized, if_neg hpos.ne'] at h
    have h := Option.some.inj h
    rw [← h]
    set l := ((⟨Real.sqrt (1 - z ^ 2), 0, z⟩ : V3 ℝ) + ⟨0, 0, 1⟩).norm with hl
    have hz : max (((⟨Real.sqrt (1 - z ^ 2), 0, z⟩ : V3 ℝ) + ⟨0, 0, 1⟩).z / l) 0 = (1 + z) / l := by
      simp only [V3.add_z]
      rw [max_eq_left (by positivity), add_comm]
    rw [V3.add_x, V3.smul_x, V3.smul_x]
    rw [hz, pow_mul, div_pow, hn]
    have : (1 + z) ^ 2 / (2 * (1 + z)) = (1 + z) / 2 := by
      field_simp
    rw [this]
    push_cast
    ring
  have hint : returned (fun z => (f z).x) =
      ∫ z in (0 : ℝ)..1, (2 * kd.x * z + ks.x * ((2 * k + 2) * (((1 + z) / 2) ^ k * z))) := by
    unfold returned
    rw [interval_Ioo 0 1 zero_le_one, interval_Ioo 0 1 zero_le_one]
    apply setIntegral_congr_fun measurableSet_Ioo
    intro z hz
    simp only
    rw [hval z hz.1 hz.2.le]
    field_simp
  have hk1 : (k : ℝ) + 1 ≠ 0 := by positivity
  have hk2 : (k : ℝ) + 2 ≠ 0 := by positivity
  have hd : ∀ z ∈ uIcc (0 : ℝ) 1, HasDerivAt
      (fun z => kd.x * z ^ 2 + ks.x * ((2 * k + 2) *
        (4 / (k + 2) * ((1 + z) / 2) ^ (k + 2) - 2 / (k + 1) * ((1 + z) / 2) ^ (k + 1))))
      (2 * kd.x * z + ks.x * ((2 * k + 2) * (((1 + z) / 2) ^ k * z))) z := by
    intro z _
    have h1 : HasDerivAt (fun z : ℝ => (1 + z) / 2) (1 / 2) z := ((hasDerivAt_id z).const_add 1).div_const 2
    have h2 := ((h1.pow (k + 2)).const_mul (4 / ((k : ℝ) + 2))).sub ((h1.pow (k + 1)).const_mul (2 / ((k : ℝ) + 1)))
    have h3 := ((hasDerivAt_pow 2 z).const_mul kd.x).add ((h2.const_mul (2 * (k : ℝ) + 2)).const_mul ks.x)
    refine h3.congr_deriv ?_
    rw [Nat.add_sub_cancel, show k + 2 - 1 = k + 1 from rfl]
    push_cast
    field_simp
    ring
  rw [hint, intervalIntegral.integral_eq_sub_of_hasDerivAt hd (Continuous.intervalIntegrable (by fun_prop) _ _)]
  norm_num
  field_simp
  ring

/-- C73 fails for Blinn: a surface with nothing but a highlight, of exponent four and half of the light, returns more
than it receives. -/
theorem blinn_energy_refuted :
    ∃ f : ℝ → V3 ℝ,
      (∀ z, 0 < z → z ≤ 1 →
        blinnEval 0 ⟨1 / 2, 1 / 2, 1 / 2⟩ 4 ⟨0, 0, 1⟩ ⟨Real.sqrt (1 - z ^ 2), 0, z⟩ = some (f z)) ∧
      returned (fun z => (f z).x) = 17 / 16 := by
  have hex : ∀ z : ℝ, 0 < z → z ≤ 1 →
      ∃ c, blinnEval 0 ⟨1 / 2, 1 / 2, 1 / 2⟩ 4 ⟨0, 0, 1⟩ ⟨Real.sqrt (1 - z ^ 2), 0, z⟩ = some c := by
    intro z h0 h1
    rw [blinnEval, if_neg (by norm_num)]
    have hpos : 0 < ((⟨Real.sqrt (1 - z ^ 2), 0, z⟩ : V3 ℝ) + ⟨0, 0, 1⟩).norm := by
      apply Real.sqrt_pos.2
      simp only [V3.add_x, V3.add_y, V3.add_z]
      nlinarith [mul_self_nonneg (Real.sqrt (1 - z ^ 2) + 0), mul_self_nonneg ((0 : ℝ) + 0)]
    rw [V3.normalized, if_neg hpos.ne']
    exact ⟨_, rfl⟩
  classical
  let f : ℝ → V3 ℝ := fun z => if h : 0 < z ∧ z ≤ 1 then (hex z h.1 h.2).choose else 0
  have hf : ∀ z, 0 < z → z ≤ 1 →
      blinnEval 0 ⟨1 / 2, 1 / 2, 1 / 2⟩ (2 * 2) ⟨0, 0, 1⟩ ⟨Real.sqrt (1 - z ^ 2), 0, z⟩ = some (f z) := by
    intro z h0 h1
    simp only [f, dif_pos (And.intro h0 h1)]
    exact (hex z h0 h1).choose_spec
  refine ⟨f, hf, ?_⟩
  rw [blinn_energy _ _ 2 f hf]
  norm_num

end Feign.Bsdf
