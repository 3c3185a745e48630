import Verif.Sdf.Model
import Verif.Math.VecRealLemmas

/-! # Helper lemmas: distances, axes and the coordinates (radius, height) about an axis -/

namespace Feign.V3

theorem dot_self (v : V3 ℝ) : v.dot v = v.sqrNorm := rfl

theorem dot_comm' (a b : V3 ℝ) : a.dot b = b.dot a := by unfold dot; ring

theorem dot_sq_le (a b : V3 ℝ) : a.dot b * a.dot b ≤ a.sqrNorm * b.sqrNorm := by
  unfold dot sqrNorm
  nlinarith [mul_self_nonneg (a.x * b.y - a.y * b.x), mul_self_nonneg (a.y * b.z - a.z * b.y),
    mul_self_nonneg (a.z * b.x - a.x * b.z)]

theorem abs_dot_le (a b : V3 ℝ) : |a.dot b| ≤ a.norm * b.norm := by
  apply abs_le_of_sq_le_sq _ (mul_nonneg (norm_nonneg a) (norm_nonneg b))
  have := dot_sq_le a b
  rw [← norm_sq, ← norm_sq] at this
  nlinarith [this]

theorem dot_le (a b : V3 ℝ) : a.dot b ≤ a.norm * b.norm := (le_abs_self _).trans (abs_dot_le a b)

theorem norm_le_of_sq {v : V3 ℝ} {c : ℝ} (hc : 0 ≤ c) (h : v.sqrNorm ≤ c * c) : v.norm ≤ c := by
  rw [norm_eq]; exact Real.sqrt_le_iff.mpr ⟨hc, by nlinarith⟩

theorem norm_add_le (a b : V3 ℝ) : (a + b).norm ≤ a.norm + b.norm := by
  apply norm_le_of_sq (add_nonneg (norm_nonneg _) (norm_nonneg _))
  have h := dot_le a b
  have ha := norm_sq a
  have hb := norm_sq b
  have : (a + b).sqrNorm = a.sqrNorm + b.sqrNorm + 2 * a.dot b := by
    simp only [sqrNorm, dot, add_x, add_y, add_z]; ring
  nlinarith

theorem norm_neg' (a : V3 ℝ) : (-a).norm = a.norm := by
  simp only [norm, neg_x, neg_y, neg_z, neg_mul_neg]

theorem norm_sub_comm (a b : V3 ℝ) : (a - b).norm = (b - a).norm := by
  rw [← norm_neg' (a - b)]
  congr 1
  ext <;> simp

theorem norm_sub_le_add (a b c : V3 ℝ) : (a - c).norm ≤ (a - b).norm + (b - c).norm := by
  have : a - c = (a - b) + (b - c) := by ext <;> simp
  rw [this]; exact norm_add_le _ _

theorem norm_sub_norm_le (a b : V3 ℝ) : a.norm - b.norm ≤ (a - b).norm := by
  have h : a = (a - b) + b := by ext <;> simp
  have := norm_add_le (a - b) b
  rw [← h] at this
  linarith

theorem norm_smul' (a : V3 ℝ) (c : ℝ) : (a.smul c).norm = a.norm * |c| := by
  have : (a.smul c).sqrNorm = a.sqrNorm * (c * c) := by
    simp only [sqrNorm, smul_x, smul_y, smul_z]; ring
  rw [norm_eq, this, Real.sqrt_mul (sqrNorm_nonneg a), Real.sqrt_mul_self_eq_abs, norm_eq]

end Feign.V3

namespace Feign.Sdf
open Feign.V3

/-! ## Planar facts -/

theorem cs2 (a b c d : ℝ) (h : a * a + b * b = 1) : a * c + b * d ≤ Real.sqrt (c * c + d * d) := by
  apply Real.le_sqrt_of_sq_le
  nlinarith [mul_self_nonneg (a * d - b * c)]

theorem cs3 (a b c x y z : ℝ) (h : a * a + b * b + c * c = 1) :
    a * x + b * y + c * z ≤ Real.sqrt (x * x + y * y + z * z) := by
  apply Real.le_sqrt_of_sq_le
  nlinarith [mul_self_nonneg (a * y - b * x), mul_self_nonneg (b * z - c * y),
    mul_self_nonneg (c * x - a * z)]

/-! ## Coordinates about an axis -/

/-- Component of `pa` across the axis `ba`. -/
noncomputable def perp (ba pa : V3 ℝ) : V3 ℝ := pa - ba.smul (pa.dot ba / ba.dot ba)

theorem perp_dot (ba pa : V3 ℝ) (h : ba.dot ba ≠ 0) : (perp ba pa).dot ba = 0 := by
  have h1 : (perp ba pa).dot ba = pa.dot ba - (pa.dot ba / ba.dot ba) * ba.dot ba := by
    unfold perp
    generalize pa.dot ba / ba.dot ba = t
    simp only [dot, sub_x, sub_y, sub_z, smul_x, smul_y, smul_z]; ring
  rw [h1, div_mul_cancel₀ _ h, sub_self]

theorem perp_sqrNorm (ba pa : V3 ℝ) (h : ba.dot ba ≠ 0) :
    (perp ba pa).sqrNorm =
      pa.dot pa - (pa.dot ba / ba.dot ba) * (pa.dot ba / ba.dot ba) * ba.dot ba := by
  have h2 : pa.dot ba = (pa.dot ba / ba.dot ba) * ba.dot ba := (div_mul_cancel₀ _ h).symm
  unfold perp
  generalize pa.dot ba / ba.dot ba = t at h2 ⊢
  simp only [sqrNorm, dot, sub_x, sub_y, sub_z, smul_x, smul_y, smul_z] at h2 ⊢
  linear_combination (-2 * t) * h2

/-- Two points are at least as far apart as their coordinates about the axis. -/
theorem coords_le (ba p q : V3 ℝ) (h : ba.dot ba ≠ 0) :
    ((perp ba p).norm - (perp ba q).norm) ^ 2 +
      (p.dot ba / ba.dot ba - q.dot ba / ba.dot ba) ^ 2 * ba.dot ba ≤ (p - q).sqrNorm := by
  have hpq : perp ba p - perp ba q = perp ba (p - q) := by
    unfold perp
    have : (p - q).dot ba / ba.dot ba = p.dot ba / ba.dot ba - q.dot ba / ba.dot ba := by
      rw [← sub_div]; congr 1; simp only [dot, sub_x, sub_y, sub_z]; ring
    rw [this]
    ext <;> simp only [sub_x, sub_y, sub_z, smul_x, smul_y, smul_z] <;> ring
  have hd : p.dot ba / ba.dot ba - q.dot ba / ba.dot ba = (p - q).dot ba / ba.dot ba := by
    rw [← sub_div]; congr 1; simp only [dot, sub_x, sub_y, sub_z]; ring
  have h1 : (perp ba (p - q)).sqrNorm + ((p - q).dot ba / ba.dot ba) ^ 2 * ba.dot ba
      = (p - q).sqrNorm := by
    rw [perp_sqrNorm _ _ h, dot_self]; ring
  rw [hd, ← h1]
  gcongr
  rw [← hpq, ← norm_sq]
  have a1 := norm_sub_norm_le (perp ba p) (perp ba q)
  have a2 := norm_sub_norm_le (perp ba q) (perp ba p)
  rw [norm_sub_comm] at a2
  have : |(perp ba p).norm - (perp ba q).norm| ≤ (perp ba p - perp ba q).norm :=
    abs_le.mpr ⟨by linarith, a1⟩
  rw [← sq, ← sq_abs]
  gcongr

/-- The point with coordinates `(c, s)` about the axis in the half plane of `pa`. -/
noncomputable def lift (ba pa : V3 ℝ) (c s : ℝ) : V3 ℝ :=
  ba.smul s + (perp ba pa).smul (c / (perp ba pa).norm)

theorem lift_dist (ba pa : V3 ℝ) (c s : ℝ) (h : ba.dot ba ≠ 0)
    (hc : (perp ba pa).norm = 0 → c = 0) :
    (pa - lift ba pa c s).sqrNorm =
      ((perp ba pa).norm - c) ^ 2 + (pa.dot ba / ba.dot ba - s) ^ 2 * ba.dot ba := by
  set w := perp ba pa with hw
  have hpa : pa = ba.smul (pa.dot ba / ba.dot ba) + w := by
    rw [hw]; unfold perp
    ext <;> simp
  set t := pa.dot ba / ba.dot ba with ht
  set m := c / w.norm with hm
  have hwb : w.dot ba = 0 := perp_dot ba pa h
  have hmn : m * w.norm = c := by
    by_cases h0 : w.norm = 0
    · rw [h0, hc h0, mul_zero]
    · rw [hm, div_mul_cancel₀ _ h0]
  have hn := norm_sq w
  have e : (pa - lift ba pa c s).sqrNorm =
      (1 - m) ^ 2 * w.sqrNorm + (t - s) ^ 2 * ba.dot ba + 2 * (1 - m) * (t - s) * w.dot ba := by
    have : lift ba pa c s = ba.smul s + w.smul m := rfl
    rw [this]
    conv_lhs => rw [hpa]
    simp only [sqrNorm, dot, sub_x, sub_y, sub_z, add_x, add_y, add_z, smul_x, smul_y, smul_z]
    ring
  rw [e, hwb, ← hn, ← hmn]
  ring

end Feign.Sdf
