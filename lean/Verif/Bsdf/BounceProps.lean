import Verif.Bsdf.Bounce
import Verif.Sampling.WarpMeanProps

/-!
# One bounce estimates the light a surface sends back (C99)

The path integrator continues a path along the direction a material samples and multiplies by albedo times cosine
over density (`src/integrators/path_unidir.cpp:132-139`; the random termination in the same line is C71). Averaged over
the sampler's numbers this has to be the integral of reflectance times cosine times incoming light.
-/

set_option linter.unusedSectionVars false

namespace Feign.Bsdf

open MeasureTheory Set Warp
open scoped ENNReal

/-- The factor of a sampled direction for a material that is not specular, one channel: `path_unidir.cpp:132-139`
without `rr_prob`. The frame's normal is the third axis, so `its.s_frame.n % ray.dir` is the third component. -/
noncomputable def weight (s : Sample) (i : Fin 3) : ℝ := s.albedo.get i * |s.wo.z| / s.pdf

/-- The factor for a specular material, `path_unidir.cpp:135-136`: the cosine is 1. -/
noncomputable def weightSpecular (s : Sample) (i : Fin 3) : ℝ := s.albedo.get i * 1 / s.pdf

/-- **C99, diffuse**, for every incoming light `L`. -/
theorem diffuse_bounce (albedo wi : V3 ℝ) (hz : 0 < wi.z) (s : V2 ℝ → Sample)
    (hs : ∀ u, diffuseSample albedo wi u = some (s u)) (L : V3 ℝ → ℝ) (i : Fin 3) :
    average (fun u => weight (s u) i * L (s u).wo) =
      overHemisphere fun wo => (diffuseEval albedo wi wo).get i * wo.z * L wo := by
  rw [← cosHemi_estimator]
  congr 1
  ext u
  have h := hs u
  rw [diffuseSample, if_neg (not_le.2 hz)] at h
  rw [← Option.some.inj h]
  have h0 : 0 ≤ (cosHemi u).z := Real.sqrt_nonneg _
  simp only [weight]
  rcases h0.eq_or_lt with he | hlt
  · simp [← he]
  · have hget : ∀ c : ℝ, (albedo.smul c).get i = albedo.get i * c := by
      intro c; fin_cases i <;> rfl
    rw [abs_of_pos hlt, diffuseEval, if_neg (not_or.2 ⟨not_le.2 hz, not_le.2 hlt⟩), cosHemiPdf, if_pos hlt, hget]
    ring

/-- **C73, diffuse.** From wherever above the surface the light comes, in every channel the share sent back, over the
whole hemisphere, is exactly the material's colour. -/
theorem diffuse_energy_everywhere (albedo wi : V3 ℝ) (hz : 0 < wi.z) (i : Fin 3) :
    overHemisphere (fun wo => (diffuseEval albedo wi wo).get i * wo.z) = albedo.get i := by
  have hpi := Real.pi_pos
  have hget : ∀ c : ℝ, (albedo.smul c).get i = albedo.get i * c := by
    intro c; fin_cases i <;> rfl
  unfold overHemisphere
  have : ∀ φ, ∫ θ in (0 : ℝ)..(Real.pi / 2), (diffuseEval albedo wi (direction θ φ)).get i * (direction θ φ).z *
      Real.sin θ = ∫ θ in (0 : ℝ)..(Real.pi / 2), albedo.get i / Real.pi * (Real.sin θ * Real.cos θ) := by
    intro φ
    rw [interval_Ioo 0 _ (by linarith), interval_Ioo 0 _ (by linarith)]
    apply setIntegral_congr_fun measurableSet_Ioo
    intro t ht
    have hc : ¬ (direction t φ).z ≤ 0 := not_le.2 (above ht)
    simp only [diffuseEval, if_neg (not_or.2 ⟨not_le.2 hz, hc⟩), hget]
    simp only [direction]
    ring
  simp only [this, intervalIntegral.integral_const_mul, integral_sin_mul_cos₁, intervalIntegral.integral_const]
  simp
  field_simp

/-- A diffuse surface under light of brightness 1 from everywhere shows exactly its colour. -/
example (albedo wi : V3 ℝ) (hz : 0 < wi.z) (s : V2 ℝ → Sample)
    (hs : ∀ u, diffuseSample albedo wi u = some (s u)) : average (fun u => weight (s u) 0 * 1) = albedo.x := by
  rw [diffuse_bounce albedo wi hz s hs (fun _ => 1) 0]
  simp only [mul_one]
  exact diffuse_energy_everywhere albedo wi hz 0

/-- What a Phong material samples from above. -/
theorem phong_choice (m : Phong) (eps : ℝ) (wi : V3 ℝ) (h1 : wi.sqrNorm = 1) (hz : 0 < wi.z) (s : V2 ℝ → Sample)
    (hs : ∀ u, m.sample eps wi u = some (s u)) :
    ∃ f : Frame, f.Orthonormal ∧ f.n = reflect wi ∧
      ∀ q : ℝ × ℝ, (s ⟨q.1, q.2⟩).wo = choice m.ks (fun u => f.toWorld (cosPowHemi u m.exponent)) cosHemi q := by
  have hwr : (⟨0, 0, 2 * wi.z⟩ : V3 ℝ) - wi = reflect wi := by
    rw [reflect_eq]; ext <;> simp; ring
  obtain ⟨f, hf, hfn, ho, -⟩ := Frame.frame_orthonormal (reflect wi) (reflect_unit h1)
  refine ⟨f, ho, hfn, fun q => ?_⟩
  have h := hs ⟨q.1, q.2⟩
  rw [Phong.sample, if_neg (not_le.2 hz), hwr] at h
  dsimp only at h
  rw [hf] at h
  rw [← Option.some.inj h]
  by_cases hlt : q.1 < m.ks
  · simp only [choice, if_pos hlt]
  · simp only [choice, if_neg hlt]

/-- The density a Phong material reports for a direction: see `phong_sample`. -/
noncomputable def phongDensity (m : Phong) (wi wo : V3 ℝ) : ℝ :=
  (1 - m.ks) * cosHemiPdf wo + m.ks * cosPowHemiPdf ⟨0, 0, wo.dot (reflect wi)⟩ m.exponent

/-- **C99, Phong, the directions.** The sampled direction is distributed over the sphere with exactly the density that
is reported with it. -/
theorem phong_law (m : Phong) (eps : ℝ) (wi : V3 ℝ) (h1 : wi.sqrNorm = 1) (hz : 0 < wi.z) (hk0 : 0 ≤ m.ks)
    (hk1 : m.ks ≤ 1) (s : V2 ℝ → Sample) (hs : ∀ u, m.sample eps wi u = some (s u)) :
    (Measurable fun q : ℝ × ℝ => (s ⟨q.1, q.2⟩).wo) ∧
    Measure.map (fun q : ℝ × ℝ => (s ⟨q.1, q.2⟩).wo) square =
      solidAngle.withDensity (fun wo => ENNReal.ofReal (phongDensity m wi wo)) ∧
    ∀ u, InSquare u → (s u).pdf = phongDensity m wi (s u).wo := by
  obtain ⟨f, ho, hfn, hwo⟩ := phong_choice m eps wi h1 hz s hs
  have he : (-1 : ℝ) < m.exponent := by
    have : (0 : ℝ) ≤ m.exponent := Nat.cast_nonneg _
    linarith
  have hspec : Measurable fun q : ℝ × ℝ => f.toWorld (cosPowHemi ⟨q.1, q.2⟩ m.exponent) :=
    (measurable_toWorld f).comp (measurable_cosPowHemi _)
  obtain ⟨hm, hlaw⟩ := choice_law m.ks hk0 hk1 (fun u => f.toWorld (cosPowHemi u m.exponent)) cosHemi hspec
    measurable_cosHemi
  have hfun : (fun q : ℝ × ℝ => (s ⟨q.1, q.2⟩).wo) =
      choice m.ks (fun u => f.toWorld (cosPowHemi u m.exponent)) cosHemi := funext hwo
  refine ⟨by rw [hfun]; exact hm, ?_, ?_⟩
  · rw [hfun, hlaw, cosHemi_law]
    have h2 : Measure.map (fun q : ℝ × ℝ => f.toWorld (cosPowHemi ⟨q.1, q.2⟩ m.exponent)) square =
        solidAngle.withDensity fun v => ENNReal.ofReal (cosPowHemiPdf (f.toLocal v) m.exponent) := by
      have : (fun q : ℝ × ℝ => f.toWorld (cosPowHemi ⟨q.1, q.2⟩ m.exponent)) =
          f.toWorld ∘ fun q : ℝ × ℝ => cosPowHemi ⟨q.1, q.2⟩ m.exponent := rfl
      rw [this, ← Measure.map_map (measurable_toWorld f) (measurable_cosPowHemi _), cosPowHemi_law _ he,
        law_toWorld f ho _ (measurable_cosPowHemiPdf _).ennreal_ofReal]
    have hl : ∀ v, cosPowHemiPdf (f.toLocal v) m.exponent = cosPowHemiPdf ⟨0, 0, v.dot (reflect wi)⟩ m.exponent := by
      intro v
      have : (f.toLocal v).z = v.dot (reflect wi) := by rw [← hfn]; rfl
      simp only [cosPowHemiPdf, this]
    simp only [hl] at h2
    have hmd : Measurable fun v : V3 ℝ => cosPowHemiPdf ⟨0, 0, v.dot (reflect wi)⟩ m.exponent := by
      have : Measurable fun v : V3 ℝ => (⟨0, 0, v.dot (reflect wi)⟩ : V3 ℝ) := by
        apply measurable_of <;> simp only [V3.dot] <;> fun_prop
      exact (measurable_cosPowHemiPdf m.exponent).comp this
    have hp1 : ∀ v : V3 ℝ, 0 ≤ cosHemiPdf v := by
      intro v
      have := Real.pi_pos
      unfold cosHemiPdf; split_ifs with h
      · exact mul_nonneg (by positivity) h.le
      · exact le_rfl
    have hp2 : ∀ v : V3 ℝ, 0 ≤ cosPowHemiPdf v m.exponent := by
      intro v
      have := Real.pi_pos
      unfold cosPowHemiPdf; split_ifs with h
      · have := Real.rpow_nonneg h.le (m.exponent : ℝ)
        positivity
      · exact le_rfl
    rw [h2, ← withDensity_smul _ hmd.ennreal_ofReal, ← withDensity_smul _ measurable_cosHemiPdf.ennreal_ofReal,
      ← withDensity_add_left (hmd.ennreal_ofReal.const_smul _)]
    congr 1
    ext v
    simp only [Pi.add_apply, Pi.smul_apply, smul_eq_mul, phongDensity]
    rw [← ENNReal.ofReal_mul hk0, ← ENNReal.ofReal_mul (by linarith),
      ← ENNReal.ofReal_add (mul_nonneg hk0 (hp2 _)) (mul_nonneg (by linarith) (hp1 _)), add_comm]
  · intro u hu
    obtain ⟨s', hs', -, -, -, hpdf, -⟩ := phong_sample m eps wi h1 hz u hu
    rw [hs u] at hs'
    rw [Option.some.inj hs', hpdf]; rfl

private theorem phong_bounce_aux (m : Phong) (eps : ℝ) (heps : 0 < eps) (wi : V3 ℝ) (h1 : wi.sqrNorm = 1)
    (hz : 0 < wi.z) (hk0 : 0 ≤ m.ks) (hk1 : m.ks ≤ 1) (s : V2 ℝ → Sample)
    (hs : ∀ u, m.sample eps wi u = some (s u)) (L : V3 ℝ → ℝ) (hL : Measurable L)
    (hsupp : ∀ v, L v ≠ 0 → 0 < v.z ∧ eps ≤ v.dot (reflect wi)) (i : Fin 3) :
    ∫ q : ℝ × ℝ, weight (s ⟨q.1, q.2⟩) i * L (s ⟨q.1, q.2⟩).wo ∂square =
      ∫ wo, (m.eval wi wo).get i * wo.z * L wo ∂solidAngle := by
  obtain ⟨hm, hlaw, hpdf⟩ := phong_law m eps wi h1 hz hk0 hk1 s hs
  have hpi := Real.pi_pos
  let F : V3 ℝ → ℝ := fun v => (m.eval wi v).get i * v.z / phongDensity m wi v * L v
  have hdm : Measurable (phongDensity m wi) := by
    have hmd : Measurable fun v : V3 ℝ => cosPowHemiPdf ⟨0, 0, v.dot (reflect wi)⟩ m.exponent := by
      have : Measurable fun v : V3 ℝ => (⟨0, 0, v.dot (reflect wi)⟩ : V3 ℝ) := by
        apply measurable_of <;> simp only [V3.dot] <;> fun_prop
      exact (measurable_cosPowHemiPdf m.exponent).comp this
    exact (measurable_cosHemiPdf.const_mul _).add (hmd.const_mul _)
  have hem : Measurable fun v : V3 ℝ => (m.eval wi v).get i := by
    have hd : Measurable fun v : V3 ℝ => v.dot (⟨0, 0, 2 * wi.z⟩ - wi) := by simp only [V3.dot]; fun_prop
    fin_cases i <;> simp only [V3.get, Phong.eval, V3.add_x, V3.add_y, V3.add_z] <;>
      exact measurable_const.add ((hd.pow_const _).const_mul _)
  have hF : Measurable F := ((hem.mul measurable_z).div hdm).mul hL
  have hnn : ∀ v, 0 ≤ phongDensity m wi v := by
    intro v
    unfold phongDensity cosHemiPdf cosPowHemiPdf
    refine add_nonneg (mul_nonneg (by linarith) ?_) (mul_nonneg hk0 ?_)
    · split_ifs with h
      · exact mul_nonneg (by positivity) h.le
      · exact le_rfl
    · dsimp only
      split_ifs with h
      · have := Real.rpow_nonneg h.le (m.exponent : ℝ)
        positivity
      · exact le_rfl
  have hpos : ∀ v : V3 ℝ, 0 < v.z → eps ≤ v.dot (reflect wi) → 0 < phongDensity m wi v := by
    intro v hv he
    have hd : 0 < v.dot (reflect wi) := heps.trans_le he
    unfold phongDensity
    rw [cosHemiPdf, if_pos hv, cosPowHemiPdf, if_pos (show (⟨0, 0, v.dot (reflect wi)⟩ : V3 ℝ).z > 0 from hd)]
    have hp := Real.rpow_pos_of_pos hd (m.exponent : ℝ)
    have h2 : 0 < 1 / 2 * ((m.exponent : ℝ) + 1) * v.dot (reflect wi) ^ (m.exponent : ℝ) * (1 / Real.pi) := by
      positivity
    have h3 : 0 < 1 / Real.pi * v.z := by positivity
    rcases hk0.eq_or_lt with h | h
    · rw [← h]; simp only [sub_zero, one_mul, zero_mul, add_zero]; exact h3
    · exact add_pos_of_nonneg_of_pos (mul_nonneg (by linarith) h3.le) (mul_pos h h2)
  have hleft : ∫ q : ℝ × ℝ, weight (s ⟨q.1, q.2⟩) i * L (s ⟨q.1, q.2⟩).wo ∂square =
      ∫ q : ℝ × ℝ, F (s ⟨q.1, q.2⟩).wo ∂square := by
    unfold square
    rw [Measure.prod_restrict]
    apply setIntegral_congr_fun (measurableSet_Ioo.prod measurableSet_Ioo)
    rintro ⟨x, y⟩ ⟨hx, hy⟩
    have hu : InSquare ⟨x, y⟩ := ⟨hx.1.le, hx.2, hy.1.le, hy.2⟩
    simp only [F]
    by_cases h0 : L (s ⟨x, y⟩).wo = 0
    · rw [h0]; ring
    · obtain ⟨hv, he⟩ := hsupp _ h0
      obtain ⟨s', hs', -, -, -, -, halb⟩ := phong_sample m eps wi h1 hz ⟨x, y⟩ hu
      rw [hs] at hs'
      obtain rfl := Option.some.inj hs'
      rw [weight, halb he, abs_of_pos hv, hpdf _ hu]
  rw [hleft, mean_of_law hm hdm hnn hlaw F hF]
  congr 1
  ext v
  simp only [F]
  by_cases h0 : L v = 0
  · rw [h0]; ring
  · obtain ⟨hv, he⟩ := hsupp _ h0
    have := (hpos v hv he).ne'
    field_simp

/-- **C99, Phong.** The average is the integral of the material's own `evaluate`, for light from above the surface that
is not within `eps` of a right angle from the mirror direction (or beyond).

What is missing: light from the remaining directions, where `sample` puts `eps` for the cosine and `evaluate` does
not (`phong_evaluates_negative_refuted`), and the light that comes in from below the surface (`phong_leaks_refuted`). -/
theorem phong_bounce_partial (m : Phong) (eps : ℝ) (heps : 0 < eps) (wi : V3 ℝ) (h1 : wi.sqrNorm = 1)
    (hz : 0 < wi.z) (hk0 : 0 ≤ m.ks) (hk1 : m.ks ≤ 1) (s : V2 ℝ → Sample)
    (hs : ∀ u, m.sample eps wi u = some (s u)) (L : V3 ℝ → ℝ) (hL : Measurable L)
    (hsupp : ∀ v, L v ≠ 0 → 0 < v.z ∧ eps ≤ v.dot (reflect wi)) (i : Fin 3) :
    ∫ q : ℝ × ℝ, weight (s ⟨q.1, q.2⟩) i * L (s ⟨q.1, q.2⟩).wo ∂square =
      ∫ wo, (m.eval wi wo).get i * wo.z * L wo ∂solidAngle :=
  phong_bounce_aux m eps heps wi h1 hz hk0 hk1 s hs L hL hsupp i

/-- Light from a cone around the normal meets the hypotheses for a Phong surface seen along its normal. -/
example : ∃ L : V3 ℝ → ℝ, Measurable L ∧ L ⟨0, 0, 1⟩ = 1 ∧
    ∀ v, L v ≠ 0 → 0 < v.z ∧ (1 / 1000 : ℝ) ≤ v.dot (reflect ⟨0, 0, 1⟩) := by
  classical
  refine ⟨fun v => if 1 / 2 ≤ v.z then 1 else 0,
    Measurable.ite (measurableSet_le measurable_const measurable_z) measurable_const measurable_const, ?_, ?_⟩
  · norm_num
  · intro v hv
    have : (1 / 2 : ℝ) ≤ v.z := by
      by_contra h
      exact hv (if_neg h)
    rw [reflect_eq]
    simp only [V3.dot]
    constructor <;> linarith

/-- C99 and C73 fail for Phong surfaces lit from far off the mirror direction: with an odd exponent `evaluate` gives a
negative reflectance, while the same direction can be sampled, with positive density and positive reflectance. -/
theorem phong_evaluates_negative_refuted :
    ∃ wi wo : V3 ℝ, wi.sqrNorm = 1 ∧ wo.sqrNorm = 1 ∧ 0 < wi.z ∧ 0 < wo.z ∧
      ((Phong.make 0 (1 / 2) 1).eval wi wo).x < 0 ∧
      ∃ u, InSquare u ∧ ∃ s, (Phong.make 0 (1 / 2) 1).sample (1 / 1000) wi u = some s ∧ s.wo = wo ∧
        0 < s.pdf ∧ 0 < s.albedo.x := by
  have hpi := Real.pi_pos
  have h1 : (⟨4 / 5, 0, 3 / 5⟩ : V3 ℝ).sqrNorm = 1 := by norm_num [V3.sqrNorm]
  have hz : (0 : ℝ) < 3 / 5 := by norm_num
  have hu : InSquare ⟨1 / 2, 16 / 25⟩ := by norm_num [InSquare]
  have hwr : (⟨0, 0, 2 * (3 / 5)⟩ : V3 ℝ) - ⟨4 / 5, 0, 3 / 5⟩ = reflect ⟨4 / 5, 0, 3 / 5⟩ := by
    rw [reflect_eq]; ext <;> simp; norm_num
  have hd : cosHemi ⟨0, 16 / 25⟩ = ⟨4 / 5, 0, 3 / 5⟩ := by
    have e1 : Real.sqrt (16 / 25) = 4 / 5 := by
      rw [show (16 / 25 : ℝ) = (4 / 5) ^ 2 by norm_num]; exact Real.sqrt_sq (by norm_num)
    have e2 : Real.sqrt (max 0 (1 - 4 / 5 * (4 / 5) - 0)) = 3 / 5 := by
      rw [show max (0 : ℝ) (1 - 4 / 5 * (4 / 5) - 0) = (3 / 5) ^ 2 by norm_num]; exact Real.sqrt_sq (by norm_num)
    simp only [cosHemi, uniDisk, e1, mul_zero, Real.cos_zero, Real.sin_zero, one_mul, zero_mul, e2]
  obtain ⟨f, hf, hfn, ho, -⟩ := Frame.frame_orthonormal (reflect ⟨4 / 5, 0, 3 / 5⟩) (reflect_unit h1)
  have hdot : (⟨4 / 5, 0, 3 / 5⟩ : V3 ℝ).dot (reflect ⟨4 / 5, 0, 3 / 5⟩) = -(7 / 25) := by
    rw [reflect_eq]; norm_num [V3.dot]
  refine ⟨⟨4 / 5, 0, 3 / 5⟩, ⟨4 / 5, 0, 3 / 5⟩, h1, h1, hz, hz, ?_, ⟨1 / 2, 16 / 25⟩, hu, ?_⟩
  · simp only [Phong.eval, hwr, hdot, Phong.make, V3.add_x, V3.smul_x, V3.zero_x, zero_mul, zero_add]
    have : 0 < 1 / (2 * Real.pi) := by positivity
    norm_num
    nlinarith
  · have hwo : (if (1 / 2 : ℝ) < 1 / 2 then f.toWorld (cosPowHemi ⟨1 / 2 / (1 / 2), 16 / 25⟩ ((1 : ℕ) : ℝ))
        else cosHemi ⟨(1 / 2 - 1 / 2) / (1 - 1 / 2), 16 / 25⟩) = ⟨4 / 5, 0, 3 / 5⟩ := by
      rw [if_neg (lt_irrefl _), ← hd]; norm_num
    obtain ⟨s, hs, -, -, -, hpdf, -⟩ := phong_sample (Phong.make 0 (1 / 2) 1) (1 / 1000) ⟨4 / 5, 0, 3 / 5⟩ h1 hz
      ⟨1 / 2, 16 / 25⟩ hu
    have hs' := hs
    rw [Phong.sample, if_neg (by norm_num), hwr] at hs'
    dsimp only at hs'
    rw [hf] at hs'
    have e := Option.some.inj hs'
    have e1 : s.wo = ⟨4 / 5, 0, 3 / 5⟩ := by rw [← e]; exact hwo
    refine ⟨s, hs, e1, ?_, ?_⟩
    · rw [hpdf, e1, hdot, cosHemiPdf, if_pos (by norm_num), cosPowHemiPdf, if_neg (by norm_num)]
      simp only [Phong.make]
      positivity
    · rw [← e]
      dsimp only [Phong.make]
      simp only [V3.add_x, V3.smul_x, V3.zero_x, zero_mul, zero_add]
      have : 0 < max ((reflect ⟨4 / 5, 0, 3 / 5⟩).dot (if (1 / 2 : ℝ) < 1 / 2 then
          f.toWorld (cosPowHemi ⟨1 / 2 / (1 / 2), 16 / 25⟩ ((1 : ℕ) : ℝ))
          else cosHemi ⟨(1 / 2 - 1 / 2) / (1 - 1 / 2), 16 / 25⟩)) (1 / 1000) := lt_max_of_lt_right (by norm_num)
      positivity

/-- **C99, glass.** Where the reflectance is a number, the average is the reflected light and the refracted light in the
proportions the reflectance says. -/
theorem glass_bounce (eps ext int : ℝ) (heps : 0 < eps) (he : 0 < ext) (hi : 0 < int) (albedo wi : V3 ℝ)
    (h1 : wi.sqrNorm = 1) (hz : 0 < wi.z ∨ wi.z < -eps) (p : ℝ) (hp : fresnel wi.z ext int = some p) (i : Fin 3) :
    0 ≤ p ∧ p ≤ 1 ∧ ∃ t : V3 ℝ, (p < 1 → Refracts ext int wi t) ∧ ∀ L : V3 ℝ → ℝ,
      ∫ u in (0 : ℝ)..1, weightSpecular (dielectricSample eps int ext albedo wi u) i *
          L (dielectricSample eps int ext albedo wi u).wo =
        albedo.get i * (p * L (reflect wi) + (1 - p) * L t) := by
  classical
  obtain ⟨hp0, hp1⟩ := (fresnel_partial wi.z ext int he hi).1 p hp
  have hb : ∀ u, below u (fresnel wi.z ext int) ↔ u < p := by
    intro u
    rw [hp]
    constructor
    · rintro ⟨x, hx, hu⟩; rwa [Option.some.inj hx]
    · intro hu; exact ⟨p, rfl, hu⟩
  have hconst : ∀ u, ¬ u < p → (dielectricSample eps int ext albedo wi u).wo =
      (dielectricSample eps int ext albedo wi p).wo := by
    intro u hu
    simp only [dielectricSample, hb, if_neg hu, if_neg (lt_irrefl p)]
  refine ⟨hp0, hp1, (dielectricSample eps int ext albedo wi p).wo, ?_, ?_⟩
  · intro hlt
    rcases (dielectric_partial eps ext int heps he hi albedo wi h1 hz p hlt).2.2 with h | h
    · exact absurd ((hb p).mp h.1) (lt_irrefl p)
    · exact h.2.1
  · intro L
    have hval : ∀ u ∈ Ioo (0 : ℝ) 1, weightSpecular (dielectricSample eps int ext albedo wi u) i *
          L (dielectricSample eps int ext albedo wi u).wo =
        (if u < p then albedo.get i * L (reflect wi)
          else albedo.get i * L (dielectricSample eps int ext albedo wi p).wo) := by
      intro u hu
      obtain ⟨ha, hpdf, hcase⟩ := dielectric_partial eps ext int heps he hi albedo wi h1 hz u hu.2
      rw [weightSpecular, ha, hpdf, mul_one, div_one]
      by_cases h : u < p
      · rw [if_pos h]
        rcases hcase with h' | h'
        · rw [h'.2.1]
        · exact absurd ((hb u).mpr h) h'.1
      · rw [if_neg h, hconst u h]
    rw [interval_Ioo 0 1 zero_le_one, setIntegral_congr_fun measurableSet_Ioo hval, ← interval_Ioo 0 1 zero_le_one]
    have hi1 : IntervalIntegrable (fun u : ℝ => if u < p then albedo.get i * L (reflect wi)
          else albedo.get i * L (dielectricSample eps int ext albedo wi p).wo) volume 0 1 := by
      refine intervalIntegrable_iff.mpr ?_
      refine Measure.integrableOn_of_bounded (M := max |albedo.get i * L (reflect wi)|
        |albedo.get i * L (dielectricSample eps int ext albedo wi p).wo|) (by simp) ?_ ?_
      · exact (Measurable.ite measurableSet_Iio measurable_const measurable_const).aestronglyMeasurable
      · refine Filter.Eventually.of_forall fun u => ?_
        rw [Real.norm_eq_abs]
        split_ifs
        · exact le_max_left _ _
        · exact le_max_right _ _
    have hsub1 : IntervalIntegrable (fun u : ℝ => if u < p then albedo.get i * L (reflect wi)
          else albedo.get i * L (dielectricSample eps int ext albedo wi p).wo) volume 0 p :=
      hi1.mono_set (by rw [uIcc_of_le hp0, uIcc_of_le zero_le_one]; exact Icc_subset_Icc_right hp1)
    have hsub2 : IntervalIntegrable (fun u : ℝ => if u < p then albedo.get i * L (reflect wi)
          else albedo.get i * L (dielectricSample eps int ext albedo wi p).wo) volume p 1 :=
      hi1.mono_set (by rw [uIcc_of_le hp1, uIcc_of_le zero_le_one]; exact Icc_subset_Icc_left hp0)
    rw [← intervalIntegral.integral_add_adjacent_intervals hsub1 hsub2, interval_Ioo 0 p hp0, interval_Ioo p 1 hp1,
      setIntegral_congr_fun (g := fun _ => albedo.get i * L (reflect wi)) measurableSet_Ioo
        (fun u hu => if_pos hu.2),
      setIntegral_congr_fun (g := fun _ => albedo.get i * L (dielectricSample eps int ext albedo wi p).wo)
        measurableSet_Ioo (fun u hu => if_neg (not_lt.mpr hu.1.le)),
      ← interval_Ioo 0 p hp0, ← interval_Ioo p 1 hp1, intervalIntegral.integral_const,
      intervalIntegral.integral_const]
    simp only [smul_eq_mul, sub_zero]
    ring

/-- Glass of index 4/3 seen at Brewster's angle. -/
example : fresnel (3 / 5) 1 (4 / 3) = some (1 / 49) ∧ (⟨4 / 5, 0, 3 / 5⟩ : V3 ℝ).sqrNorm = 1 :=
  ⟨fresnel_value_refuted.1, by norm_num [V3.sqrNorm]⟩

end Feign.Bsdf
