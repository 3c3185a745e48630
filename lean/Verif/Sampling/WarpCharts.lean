import Verif.Sampling.SolidAngle

/-! # Warps in spherical coordinates (helper lemmas) -/

set_option linter.unusedSectionVars false

namespace Feign.Warp

open MeasureTheory Set
open scoped ENNReal

/-- The warp `w` turns its first number into the azimuth and its second into the polar angle, running over `(0, b)`,
at the rate the density `p` says. -/
def Chart (w : V2 ℝ → V3 ℝ) (p : V3 ℝ → ℝ) : Prop :=
  ∃ (b : ℝ) (Y Y' : ℝ → ℝ), 0 ≤ b ∧ b ≤ Real.pi ∧ (∀ t ∈ Ioo 0 b, HasDerivAt Y (Y' t) t) ∧
    (∀ s ∈ Ioo 0 b, ∀ t ∈ Ioo 0 b, Y s = Y t → s = t) ∧ Y '' Ioo 0 b = Ioo 0 1 ∧
    (∀ x, ∀ t ∈ Ioo 0 b, w ⟨x, Y t⟩ = direction t (2 * Real.pi * x)) ∧
    (∀ φ, ∀ t ∈ Ioo 0 b, |Y' t| = 2 * Real.pi * (p (direction t φ) * Real.sin t)) ∧
    ∀ φ t, b < t → t < Real.pi → p (direction t φ) = 0

theorem Chart.mean {w : V2 ℝ → V3 ℝ} {p : V3 ℝ → ℝ} (h : Chart w p) (f : V3 ℝ → ℝ) :
    average (fun s => f (w s)) = overSphere fun v => f v * p v := by
  obtain ⟨b, Y, Y', hb, hbp, hd, hinj, him, hw, hp, hz⟩ := h
  have hcut : ∀ φ, ∫ t in (0 : ℝ)..Real.pi, f (direction t φ) * p (direction t φ) * Real.sin t =
      ∫ t in (0 : ℝ)..b, f (direction t φ) * p (direction t φ) * Real.sin t := by
    intro φ
    refine cut 0 _ _ hb hbp _ ?_
    intro t h0 h1
    rw [hz φ t h0 h1]; ring
  unfold overSphere
  simp only [hcut]
  refine both 0 b hb Y Y' hd hinj him _ _ ?_
  intro x t ht
  rw [hw x t ht, hp (2 * Real.pi * x) t ht]
  ring

/-- The first random number becomes the azimuth. -/
theorem azimuthL (K : ℝ → ℝ≥0∞) :
    ∫⁻ x in Ioo (0 : ℝ) 1, ENNReal.ofReal (2 * Real.pi) * K (2 * Real.pi * x) =
      ∫⁻ φ in Ioo 0 (2 * Real.pi), K φ := by
  have hp : 0 < 2 * Real.pi := by have := Real.pi_pos; linarith
  have him : (fun x : ℝ => 2 * Real.pi * x) '' Ioo 0 1 = Ioo 0 (2 * Real.pi) := by
    ext b
    constructor
    · rintro ⟨y, ⟨h0, h1⟩, rfl⟩
      exact ⟨by positivity, by show 2 * Real.pi * y < _; nlinarith⟩
    · rintro ⟨h0, h1⟩
      exact ⟨b / (2 * Real.pi), ⟨by positivity, by rw [div_lt_one hp]; exact h1⟩, by field_simp⟩
  rw [← him, lintegral_image_eq_lintegral_abs_deriv_mul (f := fun x : ℝ => 2 * Real.pi * x)
    (f' := fun _ => 2 * Real.pi) measurableSet_Ioo
    (fun x _ => by simpa using ((hasDerivAt_id x).const_mul (2 * Real.pi)).hasDerivWithinAt)
    (fun x _ y _ hxy => mul_left_cancel₀ hp.ne' hxy)]
  simp only [abs_of_pos hp]

theorem Chart.law {w : V2 ℝ → V3 ℝ} {p : V3 ℝ → ℝ} (h : Chart w p)
    (hwm : Measurable fun q : ℝ × ℝ => w ⟨q.1, q.2⟩) (hpm : Measurable p) :
    Measure.map (fun q : ℝ × ℝ => w ⟨q.1, q.2⟩) square =
      solidAngle.withDensity fun v => ENNReal.ofReal (p v) := by
  obtain ⟨b, Y, Y', hb, hbp, hd, hinj, him, hw, hp, hz⟩ := h
  have hpi := Real.pi_pos
  refine Measure.ext fun A hA => ?_
  have hpo : Measurable fun v => ENNReal.ofReal (p v) := hpm.ennreal_ofReal
  have hAp : Measurable (A.indicator fun v => ENNReal.ofReal (p v)) := hpo.indicator hA
  have hA1 : Measurable (A.indicator (1 : V3 ℝ → ℝ≥0∞)) := measurable_one.indicator hA
  let K : ℝ → ℝ≥0∞ := fun φ => ∫⁻ t in Ioo 0 b, ENNReal.ofReal (Real.sin t) *
    A.indicator (fun v => ENNReal.ofReal (p v)) (direction t φ)
  have hl : Measure.map (fun q : ℝ × ℝ => w ⟨q.1, q.2⟩) square A = ∫⁻ φ in Ioo 0 (2 * Real.pi), K φ := by
    have hcomp : Measurable fun q : ℝ × ℝ => A.indicator (1 : V3 ℝ → ℝ≥0∞) (w ⟨q.1, q.2⟩) := hA1.comp hwm
    rw [← lintegral_indicator_one hA, lintegral_map hA1 hwm, square, lintegral_prod _ hcomp.aemeasurable,
      ← azimuthL]
    apply lintegral_congr
    intro x
    have h1 := lintegral_image_eq_lintegral_abs_deriv_mul measurableSet_Ioo
      (fun t ht => (hd t ht).hasDerivWithinAt) (fun s hs t ht hst => hinj s hs t ht hst)
      (fun y => A.indicator (1 : V3 ℝ → ℝ≥0∞) (w ⟨x, y⟩))
    rw [him] at h1
    rw [h1, ← lintegral_const_mul']
    · apply setLIntegral_congr_fun measurableSet_Ioo
      intro t ht
      have hs : 0 ≤ Real.sin t := (Real.sin_pos_of_pos_of_lt_pi ht.1 (ht.2.trans_le hbp)).le
      simp only
      rw [hw x t ht, hp (2 * Real.pi * x) t ht]
      by_cases hm : direction t (2 * Real.pi * x) ∈ A
      · rw [indicator_of_mem hm, indicator_of_mem hm, Pi.one_apply, mul_one, ENNReal.ofReal_mul (by linarith),
          mul_comm (p _), ENNReal.ofReal_mul hs]
      · rw [indicator_of_notMem hm, indicator_of_notMem hm, mul_zero, mul_zero, mul_zero]
    · exact ENNReal.ofReal_ne_top
  have hr : (solidAngle.withDensity fun v => ENNReal.ofReal (p v)) A = ∫⁻ φ in Ioo 0 (2 * Real.pi), K φ := by
    rw [withDensity_apply _ hA, ← lintegral_indicator hA, lintegral_solidAngle _ hAp]
    apply lintegral_congr
    intro φ
    show _ = ∫⁻ t in Ioo 0 b, ENNReal.ofReal (Real.sin t) *
      A.indicator (fun v => ENNReal.ofReal (p v)) (direction t φ)
    rw [← lintegral_indicator measurableSet_Ioo, ← lintegral_indicator measurableSet_Ioo]
    apply lintegral_congr_ae
    have hne : ∀ᵐ t : ℝ, t ≠ b := by simp [ae_iff, measure_singleton]
    filter_upwards [hne] with t htb
    by_cases h1 : t ∈ Ioo 0 b
    · rw [indicator_of_mem h1, indicator_of_mem (show t ∈ Ioo 0 Real.pi from ⟨h1.1, h1.2.trans_le hbp⟩)]
    · rw [indicator_of_notMem h1]
      by_cases h2 : t ∈ Ioo 0 Real.pi
      · have hlt : b < t := lt_of_le_of_ne (not_lt.mp fun h => h1 ⟨h2.1, h⟩) (Ne.symm htb)
        rw [indicator_of_mem h2]
        by_cases hm : direction t φ ∈ A
        · rw [indicator_of_mem hm, hz φ t hlt h2.2]; simp
        · rw [indicator_of_notMem hm, mul_zero]
      · rw [indicator_of_notMem h2]
  rw [hl, hr]

theorem half_sub {t : ℝ} (h : t ∈ Ioo 0 (Real.pi / 2)) : t ∈ Ioo 0 Real.pi :=
  ⟨h.1, by linarith [h.2, Real.pi_pos]⟩

theorem above {t : ℝ} (h : t ∈ Ioo 0 (Real.pi / 2)) : 0 < Real.cos t :=
  Real.cos_pos_of_mem_Ioo ⟨by linarith [h.1, Real.pi_pos], h.2⟩

theorem below_zero {p : V3 ℝ → ℝ} (hz : ∀ v : V3 ℝ, v.z ≤ 0 → p v = 0) (φ t : ℝ) (h0 : Real.pi / 2 < t)
    (h1 : t < Real.pi) : p (direction t φ) = 0 :=
  hz _ (Real.cos_nonpos_of_pi_div_two_le_of_le h0.le (by linarith))

theorem uniSph_chart : Chart uniSph uniSphPdf := by
  have hp := Real.pi_pos
  refine ⟨Real.pi, fun t => (1 - Real.cos t) / 2, fun t => Real.sin t / 2, hp.le, le_rfl,
    fun t _ => by simpa using ((Real.hasDerivAt_cos t).const_sub 1).div_const 2,
    fun s hs t ht h => cos_inj hs ht (by linarith), ?_, ?_, ?_, fun φ t h0 h1 => absurd h0 (not_lt.mpr h1.le)⟩
  · rw [show (fun t => (1 - Real.cos t) / 2) = (fun z => (1 - z) / 2) ∘ Real.cos from rfl, image_comp,
      cos_image_pi]
    ext b
    constructor
    · rintro ⟨a, ⟨h0, h1⟩, rfl⟩
      exact ⟨by linarith, by show (1 - a) / 2 < 1; linarith⟩
    · rintro ⟨h0, h1⟩
      exact ⟨1 - 2 * b, ⟨by linarith, by linarith⟩, by ring⟩
  · intro x t ht
    simp only [uniSph, direction]
    rw [show 1 - 2 * ((1 - Real.cos t) / 2) = Real.cos t by ring, sqrt_sin_max (cos_mem ht).1.le]
  · intro φ t ht
    have hs := (cos_mem ht).1
    rw [abs_of_pos (by linarith), uniSphPdf]
    field_simp
    ring

theorem uniSphCap_chart (c : ℝ) (hc : -1 ≤ c) (hc1 : c < 1) (w : V2 ℝ → V3 ℝ) (p : V3 ℝ → ℝ)
    (hw : ∀ s, 0 ≤ s.y → s.y < 1 → uniSphCap s c = some (w s)) (hpdf : ∀ v, uniSphCapPdf v c = some (p v)) :
    Chart w p := by
  have hp := Real.pi_pos
  have hd : 0 < 1 - c := by linarith
  have ha : 0 ≤ Real.arccos c := Real.arccos_nonneg c
  have hle := Real.arccos_le_pi c
  have hsub : ∀ {t}, t ∈ Ioo 0 (Real.arccos c) → t ∈ Ioo 0 Real.pi := fun h => ⟨h.1, h.2.trans_le hle⟩
  refine ⟨Real.arccos c, fun t => (Real.cos t - c) / (1 - c), fun t => -Real.sin t / (1 - c), ha, hle,
    fun t _ => by simpa using ((Real.hasDerivAt_cos t).sub_const c).div_const (1 - c),
    fun s hs t ht h => cos_inj (hsub hs) (hsub ht) (by rw [div_left_inj' hd.ne'] at h; linarith), ?_, ?_, ?_, ?_⟩
  · rw [show (fun t => (Real.cos t - c) / (1 - c)) = (fun z => (z - c) / (1 - c)) ∘ Real.cos from rfl, image_comp,
      cos_image c hc hc1.le]
    ext b
    constructor
    · rintro ⟨a, ⟨h0, h1⟩, rfl⟩
      exact ⟨div_pos (by linarith) hd, by show (a - c) / (1 - c) < 1; rw [div_lt_one hd]; linarith⟩
    · rintro ⟨h0, h1⟩
      refine ⟨c + b * (1 - c), ⟨by nlinarith, by nlinarith⟩, ?_⟩
      show (c + b * (1 - c) - c) / (1 - c) = b
      field_simp; ring
  · intro x t ht
    obtain ⟨hs, -, -⟩ := cos_mem (hsub ht)
    have hz := cos_image c hc hc1.le ▸ mem_image_of_mem Real.cos ht
    have hy0 : 0 ≤ (Real.cos t - c) / (1 - c) := div_nonneg (by linarith [hz.1]) hd.le
    have hy1 : (Real.cos t - c) / (1 - c) < 1 := by rw [div_lt_one hd]; linarith [hz.2]
    have h := hw ⟨x, (Real.cos t - c) / (1 - c)⟩ hy0 hy1
    have hzz : (Real.cos t - c) / (1 - c) + (1 - (Real.cos t - c) / (1 - c)) * c = Real.cos t := by
      field_simp; ring
    have hnn : ¬ (1 - Real.cos t * Real.cos t < 0) := by nlinarith [Real.sin_sq_add_cos_sq t, sq_nonneg (Real.sin t)]
    simp only [uniSphCap, hzz, if_neg hnn, sqrt_sin hs.le] at h
    exact (Option.some.inj h).symm
  · intro φ t ht
    obtain ⟨hs, -, -⟩ := cos_mem (hsub ht)
    have hz := cos_image c hc hc1.le ▸ mem_image_of_mem Real.cos ht
    have hq : p (direction t φ) = 1 / (2 * Real.pi) / (1 - c) := by
      have := hpdf (direction t φ)
      rw [uniSphCapPdf, if_neg (show ¬ (direction t φ).z < c from not_lt.mpr hz.1.le), if_neg hd.ne'] at this
      exact (Option.some.inj this).symm
    rw [hq, abs_div, abs_neg, abs_of_pos hs, abs_of_pos hd]
    field_simp
  · intro φ t h0 h1
    have hlt : Real.cos t < c := by
      have := Real.cos_lt_cos_of_nonneg_of_le_pi ha h1.le h0
      rwa [Real.cos_arccos hc hc1.le] at this
    have := hpdf (direction t φ)
    rw [uniSphCapPdf, if_pos (show (direction t φ).z < c from hlt)] at this
    exact (Option.some.inj this).symm

theorem uniHemi_chart : Chart uniHemi uniHemiPdf := by
  have hp := Real.pi_pos
  refine ⟨Real.pi / 2, fun t => 1 - Real.cos t, Real.sin, by linarith, by linarith,
    fun t _ => by simpa using (Real.hasDerivAt_cos t).const_sub 1,
    fun s hs t ht h => cos_inj (half_sub hs) (half_sub ht) (by linarith), ?_, ?_, ?_,
    fun φ t => below_zero (fun v hv => if_neg (not_lt.mpr hv)) φ t⟩
  · rw [show (fun t => 1 - Real.cos t) = (fun z => 1 - z) ∘ Real.cos from rfl, image_comp, cos_image_half]
    ext b
    constructor
    · rintro ⟨a, ⟨h0, h1⟩, rfl⟩
      exact ⟨by linarith, by show 1 - a < 1; linarith⟩
    · rintro ⟨h0, h1⟩
      exact ⟨1 - b, ⟨by linarith, by linarith⟩, by ring⟩
  · intro x t ht
    have hs := (cos_mem (half_sub ht)).1
    simp only [uniHemi, direction, sub_sub_cancel]
    rw [sqrt_sin_max hs.le, mul_comm (Real.sin t), mul_comm (Real.sin t)]
  · intro φ t ht
    have hs := (cos_mem (half_sub ht)).1
    rw [abs_of_pos hs, uniHemiPdf, if_pos (show (direction t φ).z > 0 from above ht)]
    field_simp

theorem cosHemi_chart : Chart cosHemi cosHemiPdf := by
  have hp := Real.pi_pos
  refine ⟨Real.pi / 2, fun t => 1 - Real.cos t ^ 2, fun t => 2 * Real.cos t * Real.sin t, by linarith, by linarith,
    fun t _ => by
      have := ((Real.hasDerivAt_cos t).pow 2).const_sub 1
      refine this.congr_deriv ?_
      simp,
    fun s hs t ht h => cos_inj (half_sub hs) (half_sub ht)
      ((pow_left_inj₀ (above hs).le (above ht).le two_ne_zero).mp (by linarith)), ?_, ?_, ?_,
    fun φ t => below_zero (fun v hv => if_neg (not_lt.mpr hv)) φ t⟩
  · rw [show (fun t => 1 - Real.cos t ^ 2) = (fun z => 1 - z ^ 2) ∘ Real.cos from rfl, image_comp, cos_image_half]
    ext b
    constructor
    · rintro ⟨a, ⟨h0, h1⟩, rfl⟩
      exact ⟨by show 0 < 1 - a ^ 2; nlinarith, by show 1 - a ^ 2 < 1; nlinarith⟩
    · rintro ⟨h0, h1⟩
      refine ⟨Real.sqrt (1 - b), ⟨Real.sqrt_pos.mpr (by linarith), ?_⟩, ?_⟩
      · rw [Real.sqrt_lt' one_pos]; linarith
      · show 1 - Real.sqrt (1 - b) ^ 2 = b
        rw [Real.sq_sqrt (by linarith)]; ring
  · intro x t ht
    have hs := (cos_mem (half_sub ht)).1
    have hz := above ht
    have hq : Real.sqrt (1 - Real.cos t ^ 2) = Real.sin t := by rw [sq]; exact sqrt_sin hs.le
    simp only [cosHemi, uniDisk, direction, hq]
    have e : 1 - Real.cos (2 * Real.pi * x) * Real.sin t * (Real.cos (2 * Real.pi * x) * Real.sin t) -
        Real.sin (2 * Real.pi * x) * Real.sin t * (Real.sin (2 * Real.pi * x) * Real.sin t) = Real.cos t ^ 2 := by
      have h1 := Real.cos_sq_add_sin_sq (2 * Real.pi * x)
      have h2 := Real.sin_sq_add_cos_sq t
      linear_combination - Real.sin t ^ 2 * h1 - h2
    rw [e, max_eq_right (sq_nonneg _), Real.sqrt_sq hz.le, mul_comm (Real.sin t), mul_comm (Real.sin t)]
  · intro φ t ht
    have hs := (cos_mem (half_sub ht)).1
    have hz := above ht
    rw [abs_of_pos (by positivity), cosHemiPdf, if_pos (show (direction t φ).z > 0 from hz)]
    simp only [direction]
    field_simp

theorem cosPowHemi_chart (n : ℝ) (hn : -1 < n) : Chart (fun s => cosPowHemi s n) fun v => cosPowHemiPdf v n := by
  have hp := Real.pi_pos
  have hn1 : 0 < n + 1 := by linarith
  have hinv : ∀ z : ℝ, 0 ≤ z → (z ^ (n + 1)) ^ (1 / (n + 1)) = z := by
    intro z hz; rw [← Real.rpow_mul hz, mul_one_div_cancel hn1.ne', Real.rpow_one]
  refine ⟨Real.pi / 2, fun t => Real.cos t ^ (n + 1), fun t => -Real.sin t * (n + 1) * Real.cos t ^ n, by linarith,
    by linarith, fun t ht => by
      have := (Real.hasDerivAt_cos t).rpow_const (p := n + 1) (Or.inl (above ht).ne')
      refine this.congr_deriv ?_
      rw [add_sub_cancel_right],
    fun s hs t ht h => cos_inj (half_sub hs) (half_sub ht) (by
      have h' : Real.cos s ^ (n + 1) = Real.cos t ^ (n + 1) := h
      rw [← hinv _ (above hs).le, h', hinv _ (above ht).le]), ?_, ?_, ?_,
    fun φ t => below_zero (p := fun v => cosPowHemiPdf v n) (fun v hv => if_neg (not_lt.mpr hv)) φ t⟩
  · rw [show (fun t => Real.cos t ^ (n + 1)) = (fun z : ℝ => z ^ (n + 1)) ∘ Real.cos from rfl, image_comp,
      cos_image_half]
    ext b
    constructor
    · rintro ⟨a, ⟨h0, h1⟩, rfl⟩
      exact ⟨Real.rpow_pos_of_pos h0 _, Real.rpow_lt_one h0.le h1 hn1⟩
    · rintro ⟨h0, h1⟩
      refine ⟨b ^ (1 / (n + 1)), ⟨Real.rpow_pos_of_pos h0 _, Real.rpow_lt_one h0.le h1 (by positivity)⟩, ?_⟩
      show (b ^ (1 / (n + 1))) ^ (n + 1) = b
      rw [← Real.rpow_mul h0.le, one_div_mul_cancel hn1.ne', Real.rpow_one]
  · intro x t ht
    have hs := (cos_mem (half_sub ht)).1
    simp only [cosPowHemi, direction, hinv _ (above ht).le]
    rw [sqrt_sin_max hs.le, mul_comm (Real.sin t), mul_comm (Real.sin t)]
  · intro φ t ht
    have hs := (cos_mem (half_sub ht)).1
    have hz := above ht
    have hpw := Real.rpow_pos_of_pos hz n
    simp only [cosPowHemiPdf]
    rw [if_pos (show (direction t φ).z > 0 from hz),
      show -Real.sin t * (n + 1) * Real.cos t ^ n = -(Real.sin t * (n + 1) * Real.cos t ^ n) by ring, abs_neg,
      abs_of_pos (by positivity)]
    simp only [direction]
    field_simp

/-! ## Measurability of warps and densities -/

theorem measurable_uniSph : Measurable fun q : ℝ × ℝ => uniSph ⟨q.1, q.2⟩ := by
  apply measurable_of <;> simp only [uniSph] <;> fun_prop

theorem measurable_uniHemi : Measurable fun q : ℝ × ℝ => uniHemi ⟨q.1, q.2⟩ := by
  apply measurable_of <;> simp only [uniHemi] <;> fun_prop

theorem measurable_cosHemi : Measurable fun q : ℝ × ℝ => cosHemi ⟨q.1, q.2⟩ := by
  apply measurable_of <;> simp only [cosHemi, uniDisk] <;> fun_prop

theorem measurable_cosPowHemi (n : ℝ) : Measurable fun q : ℝ × ℝ => cosPowHemi ⟨q.1, q.2⟩ n := by
  apply measurable_of <;> simp only [cosPowHemi] <;> fun_prop

theorem measurable_uniHemiPdf : Measurable uniHemiPdf :=
  Measurable.ite (measurableSet_lt measurable_const measurable_z) measurable_const measurable_const

theorem measurable_cosHemiPdf : Measurable cosHemiPdf :=
  Measurable.ite (measurableSet_lt measurable_const measurable_z) (by fun_prop) measurable_const

theorem measurable_cosPowHemiPdf (n : ℝ) : Measurable fun v => cosPowHemiPdf v n :=
  Measurable.ite (measurableSet_lt measurable_const measurable_z) (by fun_prop) measurable_const

end Feign.Warp
