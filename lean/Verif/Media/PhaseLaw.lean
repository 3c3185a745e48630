import Verif.Media.PhaseProps
import Verif.Bsdf.Bounce

/-! # Distribution of scattered directions (helper lemmas) -/

set_option linter.unusedSectionVars false
set_option linter.unusedSimpArgs false

namespace Feign.Media

open MeasureTheory Set Warp
open scoped ENNReal

/-- A direction with given cosine and azimuth. -/
noncomputable def latLong (c φ : ℝ) : V3 ℝ :=
  ⟨Real.sqrt (max 0 (1 - c * c)) * Real.cos φ, Real.sqrt (max 0 (1 - c * c)) * Real.sin φ, c⟩

theorem measurable_latLong : Measurable fun p : ℝ × ℝ => latLong p.1 p.2 := by
  apply measurable_of <;> simp only [latLong] <;> fun_prop

theorem latLong_cos {θ : ℝ} (h : θ ∈ Ioo 0 Real.pi) (φ : ℝ) : latLong (Real.cos θ) φ = direction θ φ := by
  have hs := Real.sin_pos_of_pos_of_lt_pi h.1 h.2
  have e : Real.sqrt (max 0 (1 - Real.cos θ * Real.cos θ)) = Real.sin θ := by
    have : 1 - Real.cos θ * Real.cos θ = Real.sin θ ^ 2 := by nlinarith [Real.sin_sq_add_cos_sq θ]
    rw [this, max_eq_right (sq_nonneg _), Real.sqrt_sq hs.le]
  ext <;> simp only [latLong, direction, e]

/-- Integrals over directions, by cosine and azimuth. -/
theorem lintegral_latLong (g : V3 ℝ → ℝ≥0∞) (hg : Measurable g) :
    ∫⁻ v, g v ∂solidAngle = ∫⁻ c in Ioo (-1 : ℝ) 1, ∫⁻ φ in Ioo 0 (2 * Real.pi), g (latLong c φ) := by
  have hm : Measurable fun p : ℝ × ℝ => g (latLong p.1 p.2) := hg.comp measurable_latLong
  have hsw : ∫⁻ c in Ioo (-1 : ℝ) 1, ∫⁻ φ in Ioo 0 (2 * Real.pi), g (latLong c φ) =
      ∫⁻ φ in Ioo 0 (2 * Real.pi), ∫⁻ c in Ioo (-1 : ℝ) 1, g (latLong c φ) :=
    lintegral_lintegral_swap hm.aemeasurable
  rw [hsw, lintegral_solidAngle g hg]
  apply lintegral_congr
  intro φ
  have him : Real.cos '' Ioo 0 Real.pi = Ioo (-1) 1 := by
    ext c
    constructor
    · rintro ⟨θ, hθ, rfl⟩
      constructor
      · rw [← Real.cos_pi]
        exact Real.cos_lt_cos_of_nonneg_of_le_pi hθ.1.le le_rfl hθ.2
      · rw [← Real.cos_zero]
        exact Real.cos_lt_cos_of_nonneg_of_le_pi le_rfl hθ.2.le hθ.1
    · rintro ⟨h1, h2⟩
      refine ⟨Real.arccos c, ⟨Real.arccos_pos.mpr h2, ?_⟩, Real.cos_arccos h1.le h2.le⟩
      exact lt_of_le_of_ne (Real.arccos_le_pi c) fun h => by
        rw [Real.arccos_eq_pi] at h; linarith
  rw [← him, lintegral_image_eq_lintegral_abs_deriv_mul (f := Real.cos) (f' := fun θ => -Real.sin θ) measurableSet_Ioo
    (fun θ _ => (Real.hasDerivAt_cos θ).hasDerivWithinAt)
    (fun s hs t ht hst => Real.injOn_cos ⟨hs.1.le, hs.2.le⟩ ⟨ht.1.le, ht.2.le⟩ hst)]
  apply setLIntegral_congr_fun measurableSet_Ioo
  intro θ hθ
  have hs := Real.sin_pos_of_pos_of_lt_pi hθ.1 hθ.2
  simp only
  rw [latLong_cos hθ, abs_neg, abs_of_pos hs]

/-- A number drawn with a known distribution function has the density. -/
theorem map_of_cdf (C D : ℝ → ℝ) (hC : Measurable C) (hr : ∀ u ∈ Ioo (0 : ℝ) 1, -1 ≤ C u ∧ C u ≤ 1)
    (hD : ContinuousOn D (Icc (-1) 1)) (hD0 : ∀ c ∈ Icc (-1 : ℝ) 1, 0 ≤ D c)
    (hcdf : ∀ c ∈ Icc (-1 : ℝ) 1, volume {u : ℝ | u ∈ Ioo (0 : ℝ) 1 ∧ C u ≤ c} =
      ENNReal.ofReal (∫ x in (-1 : ℝ)..c, D x)) :
    Measure.map C (volume.restrict (Ioo 0 1)) =
      (volume.restrict (Ioo (-1) 1)).withDensity fun c => ENNReal.ofReal (D c) := by
  have hint : IntegrableOn D (Ioo (-1) 1) := (hD.integrableOn_Icc).mono_set Ioo_subset_Icc_self
  have hfin : IsFiniteMeasure ((volume.restrict (Ioo (-1 : ℝ) 1)).withDensity fun c => ENNReal.ofReal (D c)) :=
    isFiniteMeasure_withDensity_ofReal hint.2
  have hl : ∀ c, Measure.map C (volume.restrict (Ioo 0 1)) (Iic c) = volume {u : ℝ | u ∈ Ioo (0 : ℝ) 1 ∧ C u ≤ c} := by
    intro c
    rw [Measure.map_apply hC measurableSet_Iic, Measure.restrict_apply (hC measurableSet_Iic)]
    congr 1
    ext u
    exact and_comm
  have hrr : ∀ c ∈ Icc (-1 : ℝ) 1, ((volume.restrict (Ioo (-1 : ℝ) 1)).withDensity fun c => ENNReal.ofReal (D c))
      (Iic c) = ENNReal.ofReal (∫ x in (-1 : ℝ)..c, D x) := by
    intro c hc
    rw [withDensity_apply _ measurableSet_Iic, Measure.restrict_restrict measurableSet_Iic,
      intervalIntegral.integral_of_le hc.1,
      ofReal_integral_eq_lintegral_ofReal
        ((hD.mono fun x hx => ⟨hx.1, hx.2.trans hc.2⟩ : ContinuousOn D (Icc (-1) c)).integrableOn_Icc.mono_set
          Ioc_subset_Icc_self)
        ((ae_restrict_iff' measurableSet_Ioc).mpr (Filter.Eventually.of_forall fun x hx =>
          hD0 x ⟨hx.1.le, hx.2.trans hc.2⟩))]
    apply setLIntegral_congr
    have hne : ∀ᵐ x : ℝ, x ≠ 1 := by simp [ae_iff, measure_singleton]
    filter_upwards [hne] with x hx
    refine propext ⟨fun h => ⟨h.2.1, h.1⟩, fun h => ⟨h.2, h.1, lt_of_le_of_ne (h.2.trans hc.2) hx⟩⟩
  have : IsFiniteMeasure (Measure.map C (volume.restrict (Ioo (0 : ℝ) 1))) :=
    Measure.isFiniteMeasure_map _ _
  refine Measure.ext_of_Iic _ _ fun c => ?_
  rcases lt_or_ge c (-1) with h1 | h1
  · rw [hl]
    have e1 : {u : ℝ | u ∈ Ioo (0 : ℝ) 1 ∧ C u ≤ c} = ∅ := by
      ext u
      simp only [mem_ofPred_eq, mem_empty_iff_false, iff_false, not_and]
      intro hu h
      linarith [(hr u hu).1]
    rw [e1, measure_empty, withDensity_apply _ measurableSet_Iic, Measure.restrict_restrict measurableSet_Iic]
    have e2 : Iic c ∩ Ioo (-1 : ℝ) 1 = ∅ := by
      ext u
      simp only [mem_inter_iff, mem_Iic, mem_Ioo, mem_empty_iff_false, iff_false]
      rintro ⟨h, h', -⟩
      linarith
    rw [e2, Measure.restrict_empty, lintegral_zero_measure]
  · rcases le_or_gt c 1 with h2 | h2
    · rw [hl, hcdf c ⟨h1, h2⟩, hrr c ⟨h1, h2⟩]
    · have e1 : {u : ℝ | u ∈ Ioo (0 : ℝ) 1 ∧ C u ≤ c} = {u : ℝ | u ∈ Ioo (0 : ℝ) 1 ∧ C u ≤ 1} := by
        ext u
        simp only [mem_ofPred_eq]
        exact and_congr_right fun hu => ⟨fun _ => (hr u hu).2, fun h => h.trans h2.le⟩
      have e2 : Iic c ∩ Ioo (-1 : ℝ) 1 = Iic 1 ∩ Ioo (-1 : ℝ) 1 := by
        ext u
        simp only [mem_inter_iff, mem_Iic, mem_Ioo]
        exact ⟨fun h => ⟨h.2.2.le, h.2⟩, fun h => ⟨h.1.trans h2.le, h.2⟩⟩
      rw [hl, e1, hcdf 1 ⟨by norm_num, le_rfl⟩, ← hrr 1 ⟨by norm_num, le_rfl⟩,
        withDensity_apply _ measurableSet_Iic, withDensity_apply _ measurableSet_Iic,
        Measure.restrict_restrict measurableSet_Iic, Measure.restrict_restrict measurableSet_Iic, e2]

/-- A cosine with density `2π p` and a uniform azimuth make a direction with density `p`. -/
theorem law_latLong (C p : ℝ → ℝ) (hC : Measurable C) (hp : Measurable p)
    (hlaw : Measure.map C (volume.restrict (Ioo 0 1)) =
      (volume.restrict (Ioo (-1) 1)).withDensity fun c => ENNReal.ofReal (2 * Real.pi * p c)) :
    Measure.map (fun q : ℝ × ℝ => latLong (C q.1) (2 * Real.pi * q.2)) square =
      solidAngle.withDensity fun v => ENNReal.ofReal (p v.z) := by
  have hpi := Real.pi_pos
  have hw : Measurable fun q : ℝ × ℝ => latLong (C q.1) (2 * Real.pi * q.2) :=
    measurable_latLong.comp (by fun_prop : Measurable fun q : ℝ × ℝ => (C q.1, 2 * Real.pi * q.2))
  have hpz : Measurable fun v : V3 ℝ => ENNReal.ofReal (p v.z) := (hp.comp measurable_z).ennreal_ofReal
  refine Measure.ext fun A hA => ?_
  have hA1 : Measurable (A.indicator (1 : V3 ℝ → ℝ≥0∞)) := measurable_one.indicator hA
  have hcomp : Measurable fun q : ℝ × ℝ => A.indicator (1 : V3 ℝ → ℝ≥0∞) (latLong (C q.1) (2 * Real.pi * q.2)) :=
    hA1.comp hw
  have hG2 : Measurable fun q : ℝ × ℝ => A.indicator (1 : V3 ℝ → ℝ≥0∞) (latLong q.1 (2 * Real.pi * q.2)) :=
    hA1.comp (measurable_latLong.comp (by fun_prop : Measurable fun q : ℝ × ℝ => (q.1, 2 * Real.pi * q.2)))
  let G : ℝ → ℝ≥0∞ := fun c => ∫⁻ y in Ioo (0 : ℝ) 1, A.indicator (1 : V3 ℝ → ℝ≥0∞) (latLong c (2 * Real.pi * y))
  have hG : Measurable G := hG2.lintegral_prod_right'
  rw [← lintegral_indicator_one hA, lintegral_map hA1 hw, square, lintegral_prod _ hcomp.aemeasurable]
  show ∫⁻ x in Ioo (0 : ℝ) 1, G (C x) = _
  rw [← lintegral_map hG hC, hlaw, lintegral_withDensity_eq_lintegral_mul _ (by fun_prop) hG, withDensity_apply _ hA,
    ← lintegral_indicator hA, lintegral_latLong _ (hpz.indicator hA)]
  apply lintegral_congr
  intro c
  rw [← azimuthL, Pi.mul_apply]
  show ENNReal.ofReal (2 * Real.pi * p c) *
    ∫⁻ y in Ioo (0 : ℝ) 1, A.indicator (1 : V3 ℝ → ℝ≥0∞) (latLong c (2 * Real.pi * y)) = _
  rw [← lintegral_const_mul' _ _ ENNReal.ofReal_ne_top]
  apply lintegral_congr
  intro y
  by_cases hm : latLong c (2 * Real.pi * y) ∈ A
  · rw [indicator_of_mem hm, indicator_of_mem hm, Pi.one_apply, mul_one, ENNReal.ofReal_mul (by positivity)]
    rfl
  · rw [indicator_of_notMem hm, indicator_of_notMem hm, mul_zero, mul_zero]

/-- The frame in which `around` builds a direction. -/
theorem around_frame (wo : V3 ℝ) (hw : wo.sqrNorm = 1) : ∃ f : Frame, f.Orthonormal ∧ f.n = -wo ∧
    ∀ c v, around c v wo = .ok (f.toWorld (latLong c (2 * Real.pi * v))) := by
  obtain ⟨fr, h1, h2, h3, -⟩ := Frame.frame_orthonormal wo hw
  unfold Frame.ofNormal at h1
  rw [Option.map_eq_some_iff] at h1
  obtain ⟨⟨v1, v2⟩, hv, rfl⟩ := h1
  obtain ⟨ss, tt, nn, st, sn, tn⟩ := h3
  refine ⟨⟨v1, v2, -wo⟩, ⟨ss, tt, ?_, st, ?_, ?_⟩, rfl, ?_⟩
  · simp only [V3.dot, V3.neg_x, V3.neg_y, V3.neg_z] at nn ⊢
    linarith
  · simp only [V3.dot, V3.neg_x, V3.neg_y, V3.neg_z] at sn ⊢
    linarith
  · simp only [V3.dot, V3.neg_x, V3.neg_y, V3.neg_z] at tn ⊢
    linarith
  · intro c v
    simp only [around, hv, Frame.sphericalDirection, Frame.toWorld, latLong, Res.ok.injEq]
    ext <;> simp only [V3.add_x, V3.add_y, V3.add_z, V3.smul_x, V3.smul_y, V3.smul_z, V3.neg_x, V3.neg_y, V3.neg_z] <;>
      ring

/-- The pairs of random numbers that lead into a set of directions. -/
def Drawn (p : Phase) (eps : ℝ) (wo : V3 ℝ) (A : Set (V3 ℝ)) : Set (ℝ × ℝ) :=
  {q | ∃ wi v, p.sample eps ⟨q.1, q.2⟩ wo = .ok (wi, v) ∧ wi ∈ A}

theorem square_ae : ∀ᵐ q ∂square, q.1 ∈ Ioo (0 : ℝ) 1 ∧ q.2 ∈ Ioo (0 : ℝ) 1 := by
  have : square = (volume : Measure (ℝ × ℝ)).restrict (Ioo 0 1 ×ˢ Ioo 0 1) := by
    rw [square, Measure.prod_restrict, Measure.volume_eq_prod]
  rw [this, ae_restrict_iff' (measurableSet_Ioo.prod measurableSet_Ioo)]
  exact Filter.Eventually.of_forall fun q hq => hq

/-- From the distribution of the cosine to the distribution of the direction. -/
theorem drawn_law (p : Phase) (eps : ℝ) (wo : V3 ℝ) (hw : wo.sqrNorm = 1) (C D : ℝ → ℝ) (hC : Measurable C)
    (hD : Measurable D) (hDc : ContinuousOn D (Icc (-1) 1)) (hD0 : ∀ c ∈ Icc (-1 : ℝ) 1, 0 ≤ D c)
    (hr : ∀ u ∈ Ioo (0 : ℝ) 1, -1 ≤ C u ∧ C u ≤ 1)
    (hs : ∀ u ∈ Ioo (0 : ℝ) 1, ∀ v wi, around (C u) v wo = .ok wi → ∃ val, p.sample eps ⟨u, v⟩ wo = .ok (wi, val))
    (hcdf : ∀ c, -1 ≤ c ∧ c ≤ 1 → volume {u : ℝ | 0 ≤ u ∧ u < 1 ∧ Within p eps ⟨u, 0⟩ wo c} =
      ENNReal.ofReal (∫ x in (-1 : ℝ)..c, 2 * Real.pi * D x)) (A : Set (V3 ℝ)) (hA : MeasurableSet A) :
    square (Drawn p eps wo A) = ∫⁻ v in A, ENNReal.ofReal (D ((-wo).dot v)) ∂solidAngle := by
  have hpi := Real.pi_pos
  obtain ⟨f, ho, hn, har⟩ := around_frame wo hw
  have hwi : ∀ u ∈ Ioo (0 : ℝ) 1, ∀ c, Within p eps ⟨u, 0⟩ wo c ↔ C u ≤ c := fun u h c =>
    within_iff (s := ⟨u, 0⟩) (C u) hw (hr u h) (hs u h 0)
  have h1 := map_of_cdf C (fun c => 2 * Real.pi * D c) hC hr (continuousOn_const.mul hDc)
    (fun c hc => mul_nonneg (by positivity) (hD0 c hc)) (fun c hc => by
      rw [← hcdf c hc]
      apply measure_congr
      have hne : ∀ᵐ x : ℝ, x ≠ 0 := by simp [ae_iff, measure_singleton]
      filter_upwards [hne] with u hu
      refine propext ⟨?_, ?_⟩
      · rintro ⟨h, hle⟩
        exact ⟨h.1.le, h.2, (hwi u h c).mpr hle⟩
      · rintro ⟨h0, h1, hle⟩
        have h : u ∈ Ioo (0 : ℝ) 1 := ⟨lt_of_le_of_ne h0 (Ne.symm hu), h1⟩
        exact ⟨h, (hwi u h c).mp hle⟩)
  have h2 := law_latLong C D hC hD h1
  have hwm : Measurable fun q : ℝ × ℝ => latLong (C q.1) (2 * Real.pi * q.2) :=
    measurable_latLong.comp (by fun_prop : Measurable fun q : ℝ × ℝ => (C q.1, 2 * Real.pi * q.2))
  have h3 := law_toWorld f ho (fun v => ENNReal.ofReal (D v.z)) (hD.comp measurable_z).ennreal_ofReal
  rw [← h2, Measure.map_map (measurable_toWorld f) hwm] at h3
  have h4 := congrArg (fun μ => μ A) h3
  beta_reduce at h4
  rw [Measure.map_apply ((measurable_toWorld f).comp hwm) hA, withDensity_apply _ hA] at h4
  have h5 : square (Drawn p eps wo A) =
      square (f.toWorld ∘ (fun q : ℝ × ℝ => latLong (C q.1) (2 * Real.pi * q.2)) ⁻¹' A) := by
    apply measure_congr
    filter_upwards [square_ae] with q hq
    obtain ⟨val, hval⟩ := hs q.1 hq.1 q.2 _ (har (C q.1) q.2)
    refine propext ⟨?_, ?_⟩
    · rintro ⟨wi, v, h, hwi⟩
      rw [hval] at h
      cases h
      exact hwi
    · intro h
      exact ⟨_, val, hval, h⟩
  rw [h5, h4]
  apply lintegral_congr
  intro v
  have : (f.toLocal v).z = (-wo).dot v := by
    rw [← hn]
    simp only [Frame.toLocal, V3.dot]
    ring
  rw [this]

/-- Two densities that agree for cosines between -1 and 1. -/
theorem density_congr (wo : V3 ℝ) (hw : wo.sqrNorm = 1) (D E : V3 ℝ → ℝ)
    (h : ∀ v : V3 ℝ, -1 ≤ (-wo).dot v → (-wo).dot v ≤ 1 → D v = E v) (A : Set (V3 ℝ)) :
    ∫⁻ v in A, ENNReal.ofReal (D v) ∂solidAngle = ∫⁻ v in A, ENNReal.ofReal (E v) ∂solidAngle := by
  apply lintegral_congr_ae
  filter_upwards [ae_restrict_of_ae (s := A) solidAngle_unit] with v hv
  have hv : v.x * v.x + v.y * v.y + v.z * v.z = 1 := hv
  have hw : wo.x * wo.x + wo.y * wo.y + wo.z * wo.z = 1 := hw
  rw [h v]
  · simp only [V3.dot, V3.neg_x, V3.neg_y, V3.neg_z]
    nlinarith [sq_nonneg (wo.x - v.x), sq_nonneg (wo.y - v.y), sq_nonneg (wo.z - v.z)]
  · simp only [V3.dot, V3.neg_x, V3.neg_y, V3.neg_z]
    nlinarith [sq_nonneg (wo.x + v.x), sq_nonneg (wo.y + v.y), sq_nonneg (wo.z + v.z)]

end Feign.Media
