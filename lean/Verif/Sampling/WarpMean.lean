import Verif.Sampling.Warp
import Verif.Lights.TriIntegral
import Mathlib.MeasureTheory.Integral.IntervalIntegral.Basic
import Mathlib.Analysis.SpecialFunctions.Trigonometric.Deriv
import Mathlib.Analysis.SpecialFunctions.Trigonometric.Inverse
import Mathlib.Analysis.SpecialFunctions.Pow.Deriv

/-! # Averages over warped samples (specification and helper lemmas) -/

set_option linter.unusedSectionVars false

namespace Feign.Warp

open MeasureTheory Set

/-! ## Specification -/

/-- The average of `f` over pairs of random numbers, uniform in the unit square. -/
noncomputable def average (f : V2 ℝ → ℝ) : ℝ := ∫ x in (0 : ℝ)..1, ∫ y in (0 : ℝ)..1, f ⟨x, y⟩

/-- The unit direction with polar angle `θ` (from the third axis) and azimuth `φ`. -/
noncomputable def direction (θ φ : ℝ) : V3 ℝ :=
  ⟨Real.sin θ * Real.cos φ, Real.sin θ * Real.sin φ, Real.cos θ⟩

/-- The integral of `g` over all directions, in spherical coordinates. -/
noncomputable def overSphere (g : V3 ℝ → ℝ) : ℝ :=
  ∫ φ in (0 : ℝ)..(2 * Real.pi), ∫ θ in (0 : ℝ)..Real.pi, g (direction θ φ) * Real.sin θ

/-- The integral of `g` over the directions above the horizon, in spherical coordinates. -/
noncomputable def overHemisphere (g : V3 ℝ → ℝ) : ℝ :=
  ∫ φ in (0 : ℝ)..(2 * Real.pi), ∫ θ in (0 : ℝ)..(Real.pi / 2), g (direction θ φ) * Real.sin θ

/-- The integral of `g` over the unit disk, in polar coordinates. -/
noncomputable def overDisk (g : V2 ℝ → ℝ) : ℝ :=
  ∫ φ in (0 : ℝ)..(2 * Real.pi), ∫ r in (0 : ℝ)..1, g ⟨r * Real.cos φ, r * Real.sin φ⟩ * r

/-- The integral of `g` over the triangle with corners `(0,0)`, `(1,0)`, `(0,1)`. -/
noncomputable def overTriangle (g : V2 ℝ → ℝ) : ℝ :=
  ∫ a in (0 : ℝ)..1, ∫ b in (0 : ℝ)..(1 - a), g ⟨a, b⟩

/-! ## Lemmas -/

theorem interval_Ioo (a b : ℝ) (h : a ≤ b) (f : ℝ → ℝ) : ∫ x in a..b, f x = ∫ x in Ioo a b, f x := by
  rw [intervalIntegral.integral_of_le h, integral_Ioc_eq_integral_Ioo]

/-- The first random number becomes the azimuth. -/
theorem azimuth (G : ℝ → ℝ) :
    ∫ x in (0 : ℝ)..1, G (2 * Real.pi * x) = 1 / (2 * Real.pi) * ∫ φ in (0 : ℝ)..(2 * Real.pi), G φ := by
  have hp : 0 < 2 * Real.pi := by have := Real.pi_pos; linarith
  rw [interval_Ioo 0 1 zero_le_one, interval_Ioo 0 _ hp.le, Feign.Lights.integral_scale _ hp,
    ← mul_assoc, one_div_mul_cancel hp.ne', one_mul]
  simp only [mul_comm]

/-- Change of the second random number. -/
theorem second (a b : ℝ) (hab : a ≤ b) (Y Y' : ℝ → ℝ)
    (hd : ∀ t ∈ Ioo a b, HasDerivAt Y (Y' t) t)
    (hinj : ∀ s ∈ Ioo a b, ∀ t ∈ Ioo a b, Y s = Y t → s = t)
    (him : Y '' Ioo a b = Ioo 0 1) (F : ℝ → ℝ) :
    ∫ y in (0 : ℝ)..1, F y = ∫ t in a..b, |Y' t| * F (Y t) := by
  rw [interval_Ioo 0 1 zero_le_one, interval_Ioo a b hab, ← him]
  rw [integral_image_eq_integral_abs_deriv_smul (f := Y) (f' := Y') measurableSet_Ioo
    (fun x hx => (hd x hx).hasDerivWithinAt) (fun x hx y hy h => hinj x hx y hy h) F]
  simp only [smul_eq_mul]

/-- Both changes together. -/
theorem both (a b : ℝ) (hab : a ≤ b) (Y Y' : ℝ → ℝ)
    (hd : ∀ t ∈ Ioo a b, HasDerivAt Y (Y' t) t)
    (hinj : ∀ s ∈ Ioo a b, ∀ t ∈ Ioo a b, Y s = Y t → s = t)
    (him : Y '' Ioo a b = Ioo 0 1) (f : V2 ℝ → ℝ) (H : ℝ → ℝ → ℝ)
    (hH : ∀ x, ∀ t ∈ Ioo a b, |Y' t| * f ⟨x, Y t⟩ = 2 * Real.pi * H (2 * Real.pi * x) t) :
    average f = ∫ φ in (0 : ℝ)..(2 * Real.pi), ∫ t in a..b, H φ t := by
  have hp : 0 < 2 * Real.pi := by have := Real.pi_pos; linarith
  have h1 : ∀ x, ∫ y in (0 : ℝ)..1, f ⟨x, y⟩ = 2 * Real.pi * ∫ t in a..b, H (2 * Real.pi * x) t := by
    intro x
    rw [second a b hab Y Y' hd hinj him (fun y => f ⟨x, y⟩), ← intervalIntegral.integral_const_mul,
      interval_Ioo a b hab, interval_Ioo a b hab]
    exact setIntegral_congr_fun measurableSet_Ioo (fun t ht => hH x t ht)
  unfold average
  simp only [h1]
  rw [intervalIntegral.integral_const_mul, azimuth (fun φ => ∫ t in a..b, H φ t), ← mul_assoc,
    mul_one_div_cancel hp.ne', one_mul]

/-- An integral that only sees the first part of the interval. -/
theorem cut (a b c : ℝ) (hab : a ≤ b) (hbc : b ≤ c) (f : ℝ → ℝ) (h : ∀ t, b < t → t < c → f t = 0) :
    ∫ t in a..c, f t = ∫ t in a..b, f t := by
  rw [interval_Ioo a c (hab.trans hbc), intervalIntegral.integral_of_le hab]
  by_cases e : b = c
  · subst e; rw [integral_Ioc_eq_integral_Ioo]
  · have hlt : b < c := lt_of_le_of_ne hbc e
    refine setIntegral_eq_of_subset_of_forall_sdiff_eq_zero measurableSet_Ioo
      (fun t ht => ⟨ht.1, ht.2.trans_lt hlt⟩) ?_
    intro t ht
    have h1 := ht.1
    have h2 := ht.2
    exact h t (by by_contra hc; exact h2 ⟨h1.1, not_lt.mp hc⟩) h1.2

theorem cos_mem {t : ℝ} (h : t ∈ Ioo 0 Real.pi) : 0 < Real.sin t ∧ -1 < Real.cos t ∧ Real.cos t < 1 := by
  have hs := Real.sin_pos_of_pos_of_lt_pi h.1 h.2
  have := Real.sin_sq_add_cos_sq t
  exact ⟨hs, by nlinarith, by nlinarith⟩

theorem sqrt_sin {t : ℝ} (h : 0 ≤ Real.sin t) : Real.sqrt (1 - Real.cos t * Real.cos t) = Real.sin t := by
  rw [show 1 - Real.cos t * Real.cos t = Real.sin t ^ 2 by
    have := Real.sin_sq_add_cos_sq t; linarith [sq (Real.cos t)]]
  exact Real.sqrt_sq h

theorem sqrt_sin_max {t : ℝ} (h : 0 ≤ Real.sin t) :
    Real.sqrt (max 0 (1 - Real.cos t * Real.cos t)) = Real.sin t := by
  rw [max_eq_right, sqrt_sin h]
  have := Real.sin_sq_add_cos_sq t; nlinarith [sq_nonneg (Real.sin t)]

theorem cos_inj {s t : ℝ} (hs : s ∈ Ioo 0 Real.pi) (ht : t ∈ Ioo 0 Real.pi) (h : Real.cos s = Real.cos t) :
    s = t :=
  Real.injOn_cos ⟨hs.1.le, hs.2.le⟩ ⟨ht.1.le, ht.2.le⟩ h

/-- Cosines of the angles below `arccos c`. -/
theorem cos_image (c : ℝ) (hc : -1 ≤ c) (hc1 : c ≤ 1) : Real.cos '' Ioo 0 (Real.arccos c) = Ioo c 1 := by
  ext z
  constructor
  · rintro ⟨t, ⟨h0, h1⟩, rfl⟩
    have hp := Real.arccos_le_pi c
    refine ⟨?_, (cos_mem ⟨h0, h1.trans_le hp⟩).2.2⟩
    have := Real.cos_lt_cos_of_nonneg_of_le_pi h0.le hp h1
    rwa [Real.cos_arccos hc hc1] at this
  · rintro ⟨h0, h1⟩
    refine ⟨Real.arccos z, ⟨Real.arccos_pos.mpr h1, Real.arccos_lt_arccos hc h0 h1.le⟩,
      Real.cos_arccos (hc.trans h0.le) h1.le⟩

theorem cos_image_pi : Real.cos '' Ioo 0 Real.pi = Ioo (-1) 1 := by
  have := cos_image (-1) le_rfl (by norm_num)
  rwa [Real.arccos_neg_one] at this

theorem cos_image_half : Real.cos '' Ioo 0 (Real.pi / 2) = Ioo 0 1 := by
  have := cos_image 0 (by norm_num) (by norm_num)
  rwa [Real.arccos_zero] at this

end Feign.Warp
