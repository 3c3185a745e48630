import Verif.Math.VecReal
import Mathlib.Tactic.Ring
import Mathlib.Tactic.FieldSimp
import Mathlib.Tactic.Positivity
import Mathlib.Tactic.Linarith
import Mathlib.Tactic.LinearCombination

/-! # Helper lemmas on lengths -/

namespace Feign.V3

theorem sqrNorm_nonneg (v : V3 ℝ) : 0 ≤ v.sqrNorm := by
  unfold sqrNorm
  nlinarith [mul_self_nonneg v.x, mul_self_nonneg v.y, mul_self_nonneg v.z]

theorem norm_eq (v : V3 ℝ) : v.norm = Real.sqrt v.sqrNorm := rfl

theorem norm_nonneg (v : V3 ℝ) : 0 ≤ v.norm := Real.sqrt_nonneg _

theorem norm_sq (v : V3 ℝ) : v.norm * v.norm = v.sqrNorm := Real.mul_self_sqrt (sqrNorm_nonneg v)

theorem sqrNorm_eq_zero (v : V3 ℝ) : v.sqrNorm = 0 ↔ v = 0 := by
  constructor
  · intro h
    unfold sqrNorm at h
    have hx : v.x * v.x = 0 := by nlinarith [mul_self_nonneg v.x, mul_self_nonneg v.y, mul_self_nonneg v.z]
    have hy : v.y * v.y = 0 := by nlinarith [mul_self_nonneg v.x, mul_self_nonneg v.y, mul_self_nonneg v.z]
    have hz : v.z * v.z = 0 := by nlinarith [mul_self_nonneg v.x, mul_self_nonneg v.y, mul_self_nonneg v.z]
    exact V3.ext (mul_self_eq_zero.mp hx) (mul_self_eq_zero.mp hy) (mul_self_eq_zero.mp hz)
  · rintro rfl
    simp [sqrNorm]

theorem norm_eq_zero (v : V3 ℝ) : v.norm = 0 ↔ v = 0 := by
  rw [← sqrNorm_eq_zero, ← norm_sq]
  constructor
  · intro h; rw [h, zero_mul]
  · intro h; exact mul_self_eq_zero.mp h

theorem norm_pos (v : V3 ℝ) (h : v ≠ 0) : 0 < v.norm :=
  lt_of_le_of_ne (norm_nonneg v) (fun e => h ((norm_eq_zero v).mp e.symm))

theorem normalized_eq_none (v : V3 ℝ) : v.normalized = none ↔ v = 0 := by
  unfold normalized
  split_ifs with h
  · simp [(norm_eq_zero v).mp h]
  · simp only [false_iff]
    exact fun e => h ((norm_eq_zero v).mpr e)

/-- A normalised vector is a unit vector with the direction of the original. -/
theorem normalized_spec (v : V3 ℝ) (h : v ≠ 0) :
    ∃ u, v.normalized = some u ∧ u.sqrNorm = 1 ∧ u.smul v.norm = v := by
  have hn : v.norm ≠ 0 := fun e => h ((norm_eq_zero v).mp e)
  refine ⟨⟨v.x / v.norm, v.y / v.norm, v.z / v.norm⟩, by unfold normalized; rw [if_neg hn], ?_, ?_⟩
  · have := norm_sq v
    unfold sqrNorm at this ⊢
    simp only
    field_simp
    linear_combination -this
  · ext <;> simp only [smul_x, smul_y, smul_z] <;> field_simp

theorem normalized_unit (v u : V3 ℝ) (h : v.normalized = some u) : u.sqrNorm = 1 := by
  have hv : v ≠ 0 := by
    intro e
    rw [(normalized_eq_none v).mpr e] at h
    simp at h
  obtain ⟨u', h1, h2, -⟩ := normalized_spec v hv
  rw [h] at h1
  obtain rfl := Option.some.inj h1
  exact h2

end Feign.V3
