import Verif.Sampling.WarpCharts
import Verif.Sampling.WarpProps

/-!
# Where samples of the disk and of the triangle fall (C98)

Statements about sets of points of the plane: the share of random numbers whose sample falls into a set is the integral
of the companion density over the set.
-/

set_option linter.unusedSectionVars false

namespace Feign.Warp

open MeasureTheory Set
open scoped ENNReal

/-- Vectors of the plane as pairs. -/
def pair (v : V2 ℝ) : ℝ × ℝ := (v.x, v.y)

/-- The triangle with corners `(0, 0)`, `(1, 0)` and `(0, 1)`, without its edges. -/
def triangle : Set (ℝ × ℝ) := {p | 0 < p.1 ∧ 0 < p.2 ∧ p.1 + p.2 < 1}

theorem measurable_uniDisk : Measurable fun q : ℝ × ℝ => pair (uniDisk ⟨q.1, q.2⟩) := by
  simp only [pair, uniDisk]; fun_prop

theorem measurable_uniTri : Measurable fun q : ℝ × ℝ => pair (uniTri ⟨q.1, q.2⟩) := by
  simp only [pair, uniTri]; fun_prop

theorem measurable_uniDiskPdf : Measurable fun p : ℝ × ℝ => uniDiskPdf ⟨p.1, p.2⟩ :=
  Measurable.ite (measurableSet_le (by fun_prop) measurable_const) measurable_const measurable_const

theorem measurable_uniTriPdf : Measurable fun p : ℝ × ℝ => uniTriPdf ⟨p.1, p.2⟩ :=
  Measurable.ite (measurableSet_lt measurable_const (by fun_prop)) measurable_const
    (Measurable.ite (measurableSet_lt (by fun_prop) measurable_const) measurable_const measurable_const)

theorem measurableSet_triangle : MeasurableSet triangle :=
  (measurableSet_lt measurable_const measurable_fst).inter
    ((measurableSet_lt measurable_const measurable_snd).inter
      (measurableSet_lt (measurable_fst.add measurable_snd) measurable_const))

/-- Integrals over samples of the disk. -/
theorem uniDisk_lintegral (g : ℝ × ℝ → ℝ≥0∞) (hg : Measurable g) :
    ∫⁻ q, g (pair (uniDisk ⟨q.1, q.2⟩)) ∂square = ∫⁻ p, ENNReal.ofReal (uniDiskPdf ⟨p.1, p.2⟩) * g p := by
  have hpi := Real.pi_pos
  have hm : Measurable fun p : ℝ × ℝ => ENNReal.ofReal (uniDiskPdf ⟨p.1, p.2⟩) * g p :=
    measurable_uniDiskPdf.ennreal_ofReal.mul hg
  have hc : Measurable fun q : ℝ × ℝ => g (pair (uniDisk ⟨q.1, q.2⟩)) := hg.comp measurable_uniDisk
  let K : ℝ → ℝ≥0∞ := fun φ => ∫⁻ r in Ioo (0 : ℝ) 1, ENNReal.ofReal r *
    (ENNReal.ofReal (1 / Real.pi) * g (r * Real.cos φ, r * Real.sin φ))
  have hl : ∫⁻ q, g (pair (uniDisk ⟨q.1, q.2⟩)) ∂square = ∫⁻ φ in Ioo 0 (2 * Real.pi), K φ := by
    rw [square, lintegral_prod _ hc.aemeasurable, ← azimuthL]
    apply lintegral_congr
    intro x
    have h1 := lintegral_image_eq_lintegral_abs_deriv_mul (s := Ioo (0 : ℝ) 1) (f := fun r => r ^ 2)
      (f' := fun r => 2 * r) measurableSet_Ioo
      (fun t _ => by simpa using (hasDerivAt_pow 2 t).hasDerivWithinAt)
      (fun s hs t ht h => (pow_left_inj₀ hs.1.le ht.1.le two_ne_zero).mp h)
      (fun y => g (pair (uniDisk ⟨x, y⟩)))
    have him : (fun r : ℝ => r ^ 2) '' Ioo 0 1 = Ioo 0 1 := by
      ext b
      constructor
      · rintro ⟨a, ⟨h0, h1⟩, rfl⟩
        exact ⟨by positivity, by show a ^ 2 < 1; nlinarith⟩
      · rintro ⟨h0, h1⟩
        exact ⟨Real.sqrt b, ⟨Real.sqrt_pos.mpr h0, by rw [Real.sqrt_lt' one_pos]; simpa using h1⟩,
          Real.sq_sqrt h0.le⟩
    rw [him] at h1
    rw [h1, ← lintegral_const_mul' _ _ ENNReal.ofReal_ne_top]
    apply setLIntegral_congr_fun measurableSet_Ioo
    intro t ht
    have hd : pair (uniDisk ⟨x, t ^ 2⟩) = (t * Real.cos (2 * Real.pi * x), t * Real.sin (2 * Real.pi * x)) := by
      simp only [pair, uniDisk, Real.sqrt_sq ht.1.le, mul_comm t]
    simp only
    rw [hd, abs_of_pos (by linarith [ht.1]), ← mul_assoc, ← mul_assoc, ← ENNReal.ofReal_mul (by positivity),
      ← ENNReal.ofReal_mul (by have := ht.1; positivity)]
    congr 2
    field_simp
  rw [hl, plane_polar _ hm]
  apply lintegral_congr
  intro φ
  show ∫⁻ r in Ioo (0 : ℝ) 1, ENNReal.ofReal r *
    (ENNReal.ofReal (1 / Real.pi) * g (r * Real.cos φ, r * Real.sin φ)) = _
  rw [← lintegral_indicator measurableSet_Ioo, ← lintegral_indicator measurableSet_Ioi]
  apply lintegral_congr_ae
  have hne : ∀ᵐ t : ℝ, t ≠ 1 := by simp [ae_iff, measure_singleton]
  filter_upwards [hne] with r hr
  have hsq : r * Real.cos φ * (r * Real.cos φ) + r * Real.sin φ * (r * Real.sin φ) = r ^ 2 := by
    have := Real.cos_sq_add_sin_sq φ
    linear_combination r ^ 2 * this
  by_cases h0 : 0 < r
  · rw [indicator_of_mem (show r ∈ Ioi (0 : ℝ) from h0)]
    by_cases h1 : r < 1
    · rw [indicator_of_mem (show r ∈ Ioo (0 : ℝ) 1 from ⟨h0, h1⟩), uniDiskPdf, if_pos]
      simp only
      rw [hsq]; nlinarith
    · rw [indicator_of_notMem (fun h => h1 h.2), uniDiskPdf, if_neg]
      · simp
      · simp only
        have : 1 < r := lt_of_le_of_ne (not_lt.mp h1) (Ne.symm hr)
        rw [hsq]; nlinarith
  · rw [indicator_of_notMem (fun h => h0 h.1), indicator_of_notMem (show r ∉ Ioi (0 : ℝ) from h0)]

/-- **C98, disk**, as a statement about sets of points: the sampled point is distributed with the density over area. -/
theorem uniDisk_law :
    Measure.map (fun q : ℝ × ℝ => pair (uniDisk ⟨q.1, q.2⟩)) square =
      volume.withDensity fun p => ENNReal.ofReal (uniDiskPdf ⟨p.1, p.2⟩) := by
  refine Measure.ext fun A hA => ?_
  rw [← lintegral_indicator_one hA, lintegral_map (measurable_one.indicator hA) measurable_uniDisk,
    uniDisk_lintegral _ (measurable_one.indicator hA), withDensity_apply _ hA, ← lintegral_indicator hA]
  apply lintegral_congr
  intro p
  by_cases h : p ∈ A
  · rw [indicator_of_mem h, indicator_of_mem h, Pi.one_apply, mul_one]
  · rw [indicator_of_notMem h, indicator_of_notMem h, mul_zero]

/-- Integrals over samples of the triangle. -/
theorem uniTri_lintegral (g : ℝ × ℝ → ℝ≥0∞) (hg : Measurable g) :
    ∫⁻ q, g (pair (uniTri ⟨q.1, q.2⟩)) ∂square =
      ∫⁻ p in triangle, ENNReal.ofReal (uniTriPdf ⟨p.1, p.2⟩) * g p := by
  have hc : Measurable fun q : ℝ × ℝ => g (pair (uniTri ⟨q.1, q.2⟩)) := hg.comp measurable_uniTri
  have hpdf : ∀ p ∈ triangle, ENNReal.ofReal (uniTriPdf ⟨p.1, p.2⟩) * g p = ENNReal.ofReal 2 * g p := by
    rintro p ⟨h1, h2, h3⟩
    rw [uniTriPdf, if_neg (by simp only; linarith), if_neg (by simp only; linarith)]
  rw [setLIntegral_congr_fun measurableSet_triangle hpdf, square,
    lintegral_prod _ hc.aemeasurable]
  have h1 := lintegral_image_eq_lintegral_abs_deriv_mul (s := Ioo (0 : ℝ) 1) (f := fun a => (1 - a) ^ 2)
    (f' := fun a => -(2 * (1 - a))) measurableSet_Ioo
    (fun t _ => by
      have := ((hasDerivAt_id t).const_sub 1).pow 2
      simp only [id] at this
      refine (this.congr_deriv ?_).hasDerivWithinAt
      norm_num)
    (fun s hs t ht h => by
      have := (pow_left_inj₀ (by linarith [hs.2] : (0 : ℝ) ≤ 1 - s) (by linarith [ht.2]) two_ne_zero).mp h
      linarith)
    (fun x => ∫⁻ y in Ioo (0 : ℝ) 1, g (pair (uniTri ⟨x, y⟩)))
  have him : (fun a : ℝ => (1 - a) ^ 2) '' Ioo 0 1 = Ioo 0 1 := by
    ext b
    constructor
    · rintro ⟨a, ⟨h0, h1⟩, rfl⟩
      exact ⟨by show 0 < (1 - a) ^ 2; have : 0 < 1 - a := by linarith
                positivity, by show (1 - a) ^ 2 < 1; nlinarith⟩
    · rintro ⟨h0, h1⟩
      have h2 : Real.sqrt b < 1 := by rw [Real.sqrt_lt' one_pos]; simpa using h1
      exact ⟨1 - Real.sqrt b, ⟨by linarith, by linarith [Real.sqrt_pos.mpr h0]⟩, by
        show (1 - (1 - Real.sqrt b)) ^ 2 = b
        rw [sub_sub_cancel, Real.sq_sqrt h0.le]⟩
  rw [him] at h1
  rw [h1]
  have hi : Measurable (triangle.indicator fun p => ENNReal.ofReal 2 * g p) :=
    (hg.const_mul _).indicator measurableSet_triangle
  rw [← lintegral_indicator measurableSet_triangle, Measure.volume_eq_prod, lintegral_prod _ hi.aemeasurable,
    ← lintegral_indicator measurableSet_Ioo]
  apply lintegral_congr
  intro a
  by_cases ha : a ∈ Ioo (0 : ℝ) 1
  · have ha0 : 0 < 1 - a := by linarith [ha.2]
    rw [indicator_of_mem ha]
    have h2 := lintegral_image_eq_lintegral_abs_deriv_mul (s := Ioo (0 : ℝ) 1) (f := fun y => y * (1 - a))
      (f' := fun _ => 1 - a) measurableSet_Ioo
      (fun t _ => by simpa using ((hasDerivAt_id t).mul_const (1 - a)).hasDerivWithinAt)
      (fun s _ t _ h => mul_right_cancel₀ ha0.ne' h) (fun b => g (a, b))
    have him2 : (fun y : ℝ => y * (1 - a)) '' Ioo 0 1 = Ioo 0 (1 - a) := by
      ext b
      constructor
      · rintro ⟨y, ⟨h0, h1⟩, rfl⟩
        exact ⟨mul_pos h0 ha0, by show y * (1 - a) < 1 - a; nlinarith⟩
      · rintro ⟨h0, h1⟩
        exact ⟨b / (1 - a), ⟨div_pos h0 ha0, (div_lt_one ha0).mpr h1⟩, by field_simp⟩
    rw [him2] at h2
    have e1 : ∫⁻ y in Ioo (0 : ℝ) 1, g (pair (uniTri ⟨(1 - a) ^ 2, y⟩)) = ∫⁻ y in Ioo (0 : ℝ) 1, g (a, y * (1 - a)) := by
      apply lintegral_congr
      intro y
      simp only [pair, uniTri, Real.sqrt_sq ha0.le, sub_sub_cancel]
    have e2 : ∫⁻ y in Ioo (0 : ℝ) 1, ENNReal.ofReal |1 - a| * g (a, y * (1 - a)) =
        ENNReal.ofReal (1 - a) * ∫⁻ y in Ioo (0 : ℝ) 1, g (a, y * (1 - a)) := by
      rw [abs_of_pos ha0, lintegral_const_mul' _ _ ENNReal.ofReal_ne_top]
    rw [e2] at h2
    rw [e1, abs_neg, abs_of_pos (by linarith), ENNReal.ofReal_mul (by norm_num), mul_assoc, ← h2,
      ← lintegral_const_mul' _ _ ENNReal.ofReal_ne_top, ← lintegral_indicator measurableSet_Ioo]
    apply lintegral_congr
    intro b
    by_cases hb : b ∈ Ioo 0 (1 - a)
    · rw [indicator_of_mem hb, indicator_of_mem (show (a, b) ∈ triangle from ⟨ha.1, hb.1, by
        show a + b < 1; linarith [hb.2]⟩)]
    · rw [indicator_of_notMem hb, indicator_of_notMem]
      rintro ⟨-, h4, h5⟩
      have h5 : a + b < 1 := h5
      exact hb ⟨h4, by linarith⟩
  · rw [indicator_of_notMem ha]
    symm
    refine (lintegral_congr fun b => ?_).trans lintegral_zero
    show triangle.indicator (fun p => ENNReal.ofReal 2 * g p) (a, b) = 0
    rw [indicator_of_notMem]
    rintro ⟨h3, h4, h5⟩
    have h3 : 0 < a := h3
    have h4 : 0 < b := h4
    have h5 : a + b < 1 := h5
    exact ha ⟨h3, by linarith⟩

/-- **C98, triangle**, as a statement about sets of points of the triangle. -/
theorem uniTri_law :
    Measure.map (fun q : ℝ × ℝ => pair (uniTri ⟨q.1, q.2⟩)) square =
      (volume.restrict triangle).withDensity fun p => ENNReal.ofReal (uniTriPdf ⟨p.1, p.2⟩) := by
  refine Measure.ext fun A hA => ?_
  rw [← lintegral_indicator_one hA, lintegral_map (measurable_one.indicator hA) measurable_uniTri,
    uniTri_lintegral _ (measurable_one.indicator hA), withDensity_apply _ hA, ← lintegral_indicator hA]
  apply lintegral_congr
  intro p
  by_cases h : p ∈ A
  · rw [indicator_of_mem h, indicator_of_mem h, Pi.one_apply, mul_one]
  · rw [indicator_of_notMem h, indicator_of_notMem h, mul_zero]

end Feign.Warp
