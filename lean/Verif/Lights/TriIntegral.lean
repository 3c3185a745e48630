import Verif.Sampling.Warp
import Mathlib.MeasureTheory.Function.JacobianOneDim
import Mathlib.MeasureTheory.Measure.Lebesgue.Basic
import Mathlib.Analysis.Calculus.Deriv.Pow
import Mathlib.Analysis.Calculus.Deriv.Mul

/-! # Uniform triangle samples as an integral (helper lemmas) -/

set_option linter.unusedSectionVars false

namespace Feign.Lights

open MeasureTheory Feign.Warp Set

/-- Scaling an interval. -/
theorem integral_scale (c : ℝ) (hc : 0 < c) (g : ℝ → ℝ) :
    ∫ b in Ioo (0 : ℝ) c, g b = c * ∫ y in Ioo (0 : ℝ) 1, g (y * c) := by
  have him : (fun y : ℝ => y * c) '' Ioo 0 1 = Ioo 0 c := by
    ext b
    constructor
    · rintro ⟨y, ⟨h0, h1⟩, rfl⟩
      exact ⟨by positivity, by nlinarith⟩
    · rintro ⟨h0, h1⟩
      exact ⟨b / c, ⟨by positivity, by rw [div_lt_one hc]; exact h1⟩, by field_simp⟩
  have h := integral_image_eq_integral_abs_deriv_smul (f := fun y : ℝ => y * c) (f' := fun _ => c)
    (s := Ioo 0 1) measurableSet_Ioo
    (fun x _ => by simpa using ((hasDerivAt_id x).mul_const c).hasDerivWithinAt)
    (fun x _ y _ hxy => mul_right_cancel₀ hc.ne' hxy) g
  rw [him] at h
  rw [h, ← integral_const_mul]
  simp only [abs_of_pos hc, smul_eq_mul]

/-- The first coordinate. -/
theorem integral_sqrt (G : ℝ → ℝ) :
    ∫ x in Ioo (0 : ℝ) 1, G (Real.sqrt x) = ∫ a in Ioo (0 : ℝ) 1, 2 * (1 - a) * G (1 - a) := by
  have him : (fun a : ℝ => (1 - a) ^ 2) '' Ioo 0 1 = Ioo 0 1 := by
    ext b
    constructor
    · rintro ⟨a, ⟨h0, h1⟩, rfl⟩
      have : 0 < 1 - a := by linarith
      exact ⟨by positivity, by nlinarith⟩
    · rintro ⟨h0, h1⟩
      have hs := Real.sqrt_pos.mpr h0
      have h2 : Real.sqrt b < 1 := by rw [Real.sqrt_lt' one_pos]; simpa using h1
      exact ⟨1 - Real.sqrt b, ⟨by linarith, by linarith⟩, by
        simp only [sub_sub_cancel]; exact Real.sq_sqrt h0.le⟩
  have h := integral_image_eq_integral_abs_deriv_smul (f := fun a : ℝ => (1 - a) ^ 2)
    (f' := fun a => -(2 * (1 - a))) (s := Ioo 0 1) measurableSet_Ioo
    (fun x _ => by
      have := (((hasDerivAt_id x).const_sub 1).pow 2).hasDerivWithinAt (s := Ioo 0 1)
      refine this.congr_deriv ?_
      simp)
    (fun x hx y hy hxy => by
      have h1 : 0 < 1 - x := by linarith [hx.2]
      have h2 : 0 < 1 - y := by linarith [hy.2]
      have := (pow_left_inj₀ h1.le h2.le (two_ne_zero)).mp hxy
      linarith) (fun x => G (Real.sqrt x))
  rw [him] at h
  rw [h]
  apply setIntegral_congr_fun measurableSet_Ioo
  intro a ha
  have h1 : 0 < 1 - a := by linarith [ha.2]
  simp only [smul_eq_mul, abs_neg, Real.sqrt_sq h1.le]
  rw [abs_of_pos (by positivity)]

/-- The average of any function over the samples of the triangle is twice its integral over the triangle (whose area is
one half). -/
theorem integral_uniTri (g : V2 ℝ → ℝ) :
    ∫ x in Ioo (0 : ℝ) 1, ∫ y in Ioo (0 : ℝ) 1, g (uniTri ⟨x, y⟩) =
      2 * ∫ a in Ioo (0 : ℝ) 1, ∫ b in Ioo (0 : ℝ) (1 - a), g ⟨a, b⟩ := by
  have e := integral_sqrt (fun r => ∫ y in Ioo (0 : ℝ) 1, g ⟨1 - r, y * r⟩)
  rw [show (∫ x in Ioo (0 : ℝ) 1, ∫ y in Ioo (0 : ℝ) 1, g (uniTri ⟨x, y⟩)) =
    ∫ x in Ioo (0 : ℝ) 1, (fun r => ∫ y in Ioo (0 : ℝ) 1, g ⟨1 - r, y * r⟩) (Real.sqrt x) from rfl, e,
    ← integral_const_mul]
  apply setIntegral_congr_fun measurableSet_Ioo
  intro a ha
  have h1 : 0 < 1 - a := by linarith [ha.2]
  simp only [sub_sub_cancel]
  rw [integral_scale (1 - a) h1 (fun b => g ⟨a, b⟩)]
  ring

end Feign.Lights
