import Verif.Math.Wave
import Verif.Sdf.Geom
import Mathlib.Tactic.Positivity
import Mathlib.Tactic.FieldSimp

/-!
# C140: waves
-/

namespace Feign.Wave

/-! ## Specification -/

/-- How far a point is from the front of the wave: the front is a sphere around the start that grows with the speed of the wave. -/
noncomputable def fromFront (w : Wave) (p : V3 ℝ) (time : ℝ) : ℝ := |(p - w.start).norm - w.freq.norm * abs time|

/-- The amplitude up to a wavelength from the front, nothing elsewhere. -/
noncomputable def squareSpec (w : Wave) (p : V3 ℝ) (time : ℝ) : ℝ :=
  if w.fromFront p time < w.wavelength then w.amp else 0

/-- The amplitude at the front, falling evenly to nothing at a wavelength from it. -/
noncomputable def triangleSpec (w : Wave) (p : V3 ℝ) (time : ℝ) : ℝ :=
  if w.fromFront p time < w.wavelength then w.amp * (1 - w.fromFront p time / w.wavelength) else 0

/-! ## Theorems -/

theorem front_of_origin (w : Wave) (h : w.start = 0) (p : V3 ℝ) (time : ℝ) :
    |w.away p - w.front time| = w.fromFront p time := by
  have e : w.start + w.freq.smul time = w.freq.smul time := by rw [h]; ext <;> simp
  unfold away front fromFront
  rw [e, V3.norm_smul']

/-- **C140, square waves, the part that holds** (the full claim: for all starts): right for waves that start at the origin. -/
theorem square_partial (w : Wave) (h : w.start = 0) (p : V3 ℝ) (time : ℝ) : w.square p time = w.squareSpec p time := by
  unfold square squareSpec
  rw [front_of_origin w h]

/-- **C140, triangle waves, the part that holds** (the full claim: for all starts and amplitudes): right for troughs that start at the
origin. -/
theorem triangle_partial (w : Wave) (h : w.start = 0) (hw : 0 < w.wavelength) (ha : w.amp ≤ 0) (p : V3 ℝ) (time : ℝ) :
    w.triangle p time = some (w.triangleSpec p time) := by
  unfold triangle triangleSpec
  rw [if_neg hw.ne', front_of_origin w h]
  congr 1
  split_ifs with hc
  · have : 0 < 1 - w.fromFront p time / w.wavelength := by rw [sub_pos, div_lt_one hw]; exact hc
    rw [min_eq_left (mul_nonpos_of_nonneg_of_nonpos this.le ha), mul_comm]
  · have : 1 - w.fromFront p time / w.wavelength ≤ 0 := by rw [sub_nonpos, one_le_div hw]; exact not_lt.1 hc
    exact min_eq_right (mul_nonneg_of_nonpos_of_nonpos this ha)

/-- **C140, violated for starts elsewhere.** The wave has just started at a point, and is not there but on the sphere around that point that
passes through the origin. -/
theorem start_refuted (s : V3 ℝ) (hs : 0 < s.norm) (v : V3 ℝ) (amp : ℝ) (ha : amp ≠ 0) :
    let w : Wave := ⟨s, v, amp, s.norm, 0, 1⟩
    w.square s 0 = 0 ∧ w.squareSpec s 0 = amp ∧ w.square 0 0 = amp ∧ w.squareSpec 0 0 = 0 ∧ w.square s 0 ≠ w.squareSpec s 0 := by
  intro w
  have e1 : (s - s).norm = 0 := by rw [V3.norm_eq]; simp [V3.sqrNorm]
  have e2 : (s + v.smul 0).norm = s.norm := by congr 1; ext <;> simp
  have e3 : ((0 : V3 ℝ) - s).norm = s.norm := by
    rw [V3.norm_eq, V3.norm_eq]; congr 1; simp [V3.sqrNorm]
  suffices h : w.square s 0 = 0 ∧ w.squareSpec s 0 = amp ∧ w.square 0 0 = amp ∧ w.squareSpec 0 0 = 0 from
    ⟨h.1, h.2.1, h.2.2.1, h.2.2.2, by rw [h.1, h.2.1]; exact ha.symm⟩
  refine ⟨?_, ?_, ?_, ?_⟩
  · show (if |(s - s).norm - (s + v.smul 0).norm| < s.norm then amp else 0) = 0
    rw [e1, e2, zero_sub, abs_neg, abs_of_pos hs, if_neg (lt_irrefl _)]
  · unfold squareSpec fromFront
    show (if |(s - s).norm - v.norm * abs (0 : ℝ)| < s.norm then amp else 0) = amp
    rw [e1, abs_zero, mul_zero, sub_zero, abs_zero, if_pos hs]
  · show (if |((0 : V3 ℝ) - s).norm - (s + v.smul 0).norm| < s.norm then amp else 0) = amp
    rw [e2, e3, sub_self, abs_zero, if_pos hs]
  · unfold squareSpec fromFront
    show (if |((0 : V3 ℝ) - s).norm - v.norm * abs (0 : ℝ)| < s.norm then amp else 0) = 0
    rw [e3, abs_zero, mul_zero, sub_zero, abs_of_pos hs, if_neg (lt_irrefl _)]

/-- **C140, violated for crests.** A triangle wave is never positive. With a positive amplitude it is zero where it should rise, and falls
without bound where it should be zero. -/
theorem crest_refuted (w : Wave) (hw : 0 < w.wavelength) (ha : 0 < w.amp) (h : w.start = 0) (p : V3 ℝ) (time : ℝ) :
    ∃ x, w.triangle p time = some x ∧ x ≤ 0 ∧
      (w.fromFront p time < w.wavelength → x = 0 ∧ 0 < w.triangleSpec p time) ∧
      (w.wavelength < w.fromFront p time → x < 0 ∧ w.triangleSpec p time = 0 ∧
        x = -(w.amp * (w.fromFront p time / w.wavelength - 1))) := by
  refine ⟨min ((1 - w.fromFront p time / w.wavelength) * w.amp) 0, ?_, min_le_right _ _, fun hc => ?_, fun hc => ?_⟩
  · unfold triangle
    rw [if_neg hw.ne', front_of_origin w h]
  · have : 0 < 1 - w.fromFront p time / w.wavelength := by rw [sub_pos, div_lt_one hw]; exact hc
    refine ⟨min_eq_right (by positivity), ?_⟩
    unfold triangleSpec
    rw [if_pos hc]
    positivity
  · have : 1 - w.fromFront p time / w.wavelength < 0 := by rw [sub_neg, one_lt_div hw]; exact hc
    have hneg := mul_neg_of_neg_of_pos this ha
    rw [min_eq_left hneg.le]
    refine ⟨hneg, ?_, by ring⟩
    unfold triangleSpec
    rw [if_neg (not_lt.2 hc.le)]

/-- A trough, and a place where it is half its depth. -/
example : ∃ w : Wave, w.start = 0 ∧ 0 < w.wavelength ∧ w.amp ≤ 0 ∧ ∃ p, w.triangleSpec p 1 = -1 := by
  refine ⟨⟨0, ⟨1, 0, 0⟩, -2, 2, 0, 1⟩, rfl, by norm_num, by norm_num, ⟨2, 0, 0⟩, ?_⟩
  have h1 : ((⟨2, 0, 0⟩ : V3 ℝ) - 0).norm = 2 := by
    rw [V3.norm_eq, Real.sqrt_eq_iff_mul_self_eq (by simp [V3.sqrNorm]) (by norm_num)]; simp [V3.sqrNorm]
  have h2 : (⟨1, 0, 0⟩ : V3 ℝ).norm = 1 := by rw [V3.norm_eq]; simp [V3.sqrNorm]
  unfold triangleSpec fromFront
  simp only [h1, h2]
  norm_num

end Feign.Wave
