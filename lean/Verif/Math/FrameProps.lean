import Verif.Math.Frame
import Verif.Math.VecRealLemmas
import Mathlib.LinearAlgebra.Matrix.NonsingularInverse
import Mathlib.Tactic.FinCases
import Mathlib.Tactic.Linarith
import Mathlib.Tactic.LinearCombination

/-!
# C22: local shading frames
-/

namespace Feign.Frame

/-- Three mutually orthogonal unit vectors (specification). -/
structure Orthonormal (f : Frame) : Prop where
  ss : f.s.dot f.s = 1
  tt : f.t.dot f.t = 1
  nn : f.n.dot f.n = 1
  st : f.s.dot f.t = 0
  sn : f.s.dot f.n = 0
  tn : f.t.dot f.n = 0

/-- Right-handed: `s × t = n`. -/
def RightHanded (f : Frame) : Prop := f.s.cross f.t = f.n

private theorem case1 (x y z l : ℝ) (hl : l * l = x * x + z * z) (hl0 : l ≠ 0)
    (hu : x * x + y * y + z * z = 1) :
    let c : V3 ℝ := ⟨z * (1 / l), 0, -x * (1 / l)⟩
    let f : Frame := ⟨c.cross ⟨x, y, z⟩, c, ⟨x, y, z⟩⟩
    f.Orthonormal ∧ f.RightHanded := by
  have e : (1 / l) * (1 / l) * (x * x + z * z) = 1 := by rw [← hl]; field_simp
  intro c f
  refine ⟨⟨?_, ?_, ?_, ?_, ?_, ?_⟩, ?_⟩
  · simp only [f, c, V3.dot, V3.cross]
    linear_combination (x * x + y * y + z * z) * e + hu
  · simp only [f, c, V3.dot]; linear_combination e
  · simp only [f, V3.dot]; linear_combination hu
  · simp only [f, c, V3.dot, V3.cross]; ring
  · simp only [f, c, V3.dot, V3.cross]; ring
  · simp only [f, c, V3.dot]; ring
  · unfold RightHanded
    ext <;> simp only [f, c, V3.cross]
    · linear_combination x * e
    · linear_combination y * e
    · linear_combination z * e

private theorem case2 (x y z l : ℝ) (hl : l * l = y * y + z * z) (hl0 : l ≠ 0)
    (hu : x * x + y * y + z * z = 1) :
    let c : V3 ℝ := ⟨0, z * (1 / l), -y * (1 / l)⟩
    let f : Frame := ⟨c.cross ⟨x, y, z⟩, c, ⟨x, y, z⟩⟩
    f.Orthonormal ∧ f.RightHanded := by
  have e : (1 / l) * (1 / l) * (y * y + z * z) = 1 := by rw [← hl]; field_simp
  intro c f
  refine ⟨⟨?_, ?_, ?_, ?_, ?_, ?_⟩, ?_⟩
  · simp only [f, c, V3.dot, V3.cross]
    linear_combination (x * x + y * y + z * z) * e + hu
  · simp only [f, c, V3.dot]; linear_combination e
  · simp only [f, V3.dot]; linear_combination hu
  · simp only [f, c, V3.dot, V3.cross]; ring
  · simp only [f, c, V3.dot, V3.cross]; ring
  · simp only [f, c, V3.dot]; ring
  · unfold RightHanded
    ext <;> simp only [f, c, V3.cross]
    · linear_combination x * e
    · linear_combination y * e
    · linear_combination z * e

/-- **C22.** The frame around a unit normal exists, is orthonormal, right-handed, and has that normal. -/
theorem frame_orthonormal (n : V3 ℝ) (hn : n.sqrNorm = 1) :
    ∃ f, ofNormal n = some f ∧ f.n = n ∧ f.Orthonormal ∧ f.RightHanded := by
  unfold V3.sqrNorm at hn
  unfold ofNormal coordinateSystem
  dsimp only
  split_ifs with h1 h2 h3
  · exfalso
    have hx : n.x ≠ 0 := by
      intro e; rw [e, abs_zero] at h1; exact absurd h1 (not_lt.mpr (abs_nonneg _))
    have := (Real.sqrt_eq_zero (by nlinarith [mul_self_nonneg n.x, mul_self_nonneg n.z])).mp h2
    have hx2 : 0 < n.x * n.x := mul_self_pos.mpr hx
    nlinarith [mul_self_nonneg n.z]
  · refine ⟨_, rfl, rfl, ?_⟩
    exact case1 n.x n.y n.z _ (Real.mul_self_sqrt (by nlinarith [mul_self_nonneg n.x, mul_self_nonneg n.z]))
      h2 hn
  · exfalso
    have := (Real.sqrt_eq_zero (by nlinarith [mul_self_nonneg n.y, mul_self_nonneg n.z])).mp h3
    have hy : n.y * n.y = 0 := by nlinarith [mul_self_nonneg n.y, mul_self_nonneg n.z]
    have hy' : n.y = 0 := mul_self_eq_zero.mp hy
    rw [hy', abs_zero, gt_iff_lt, not_lt] at h1
    have hx' : n.x = 0 := abs_eq_zero.mp (le_antisymm h1 (abs_nonneg _))
    rw [hx', hy'] at hn
    rw [hy'] at this
    nlinarith
  · refine ⟨_, rfl, rfl, ?_⟩
    exact case2 n.x n.y n.z _ (Real.mul_self_sqrt (by nlinarith [mul_self_nonneg n.y, mul_self_nonneg n.z]))
      h3 hn

/-- Only the zero vector (no usable normal) is refused. -/
theorem ofNormal_eq_none_iff (n : V3 ℝ) : ofNormal n = none ↔ n = 0 := by
  constructor
  · unfold ofNormal coordinateSystem
    intro h
    dsimp only at h
    split_ifs at h with h1 h2 h3
    · exfalso
      have hx : n.x ≠ 0 := by
        intro e; rw [e, abs_zero] at h1; exact absurd h1 (not_lt.mpr (abs_nonneg _))
      have := (Real.sqrt_eq_zero (by nlinarith [mul_self_nonneg n.x, mul_self_nonneg n.z])).mp h2
      have hx2 : 0 < n.x * n.x := mul_self_pos.mpr hx
      nlinarith [mul_self_nonneg n.z]
    · simp at h
    · have := (Real.sqrt_eq_zero (by nlinarith [mul_self_nonneg n.y, mul_self_nonneg n.z])).mp h3
      have hy : n.y * n.y = 0 := by nlinarith [mul_self_nonneg n.y, mul_self_nonneg n.z]
      have hz : n.z * n.z = 0 := by nlinarith [mul_self_nonneg n.y, mul_self_nonneg n.z]
      have hy' : n.y = 0 := mul_self_eq_zero.mp hy
      rw [hy', abs_zero, gt_iff_lt, not_lt] at h1
      exact V3.ext (abs_eq_zero.mp (le_antisymm h1 (abs_nonneg _))) hy' (mul_self_eq_zero.mp hz)
    · simp at h
  · rintro rfl
    simp [ofNormal, coordinateSystem]

/-- World → local → world is the identity on an orthonormal right-handed frame. -/
theorem toWorld_toLocal (f : Frame) (h : f.Orthonormal) (v : V3 ℝ) : f.toWorld (f.toLocal v) = v := by
  -- the matrix with rows s, t, n is orthogonal; use `Aᵀ A = 1` from `A Aᵀ = 1`
  obtain ⟨ss, tt, nn, st, sn, tn⟩ := h
  obtain ⟨⟨a, b, c⟩, ⟨d, e, g⟩, ⟨x, y, z⟩⟩ := f
  simp only [V3.dot] at ss tt nn st sn tn
  have hA : (!![a, b, c; d, e, g; x, y, z] : Matrix (Fin 3) (Fin 3) ℝ) *
      (!![a, d, x; b, e, y; c, g, z] : Matrix (Fin 3) (Fin 3) ℝ) = 1 := by
    ext i j
    fin_cases i <;> fin_cases j <;>
      simp [Matrix.mul_apply, Fin.sum_univ_three] <;> linarith
  have hB := mul_eq_one_comm.mp hA
  have key := fun i j => congrFun (congrFun hB i) j
  have k00 := key 0 0
  have k01 := key 0 1
  have k02 := key 0 2
  have k11 := key 1 1
  have k12 := key 1 2
  have k22 := key 2 2
  simp [Matrix.mul_apply, Fin.sum_univ_three] at k00 k01 k02 k11 k12 k22
  ext <;> simp only [toWorld, toLocal, V3.dot, V3.add_x, V3.add_y, V3.add_z, V3.smul_x, V3.smul_y,
    V3.smul_z]
  · linear_combination v.x * k00 + v.y * k01 + v.z * k02
  · linear_combination v.x * k01 + v.y * k11 + v.z * k12
  · linear_combination v.x * k02 + v.y * k12 + v.z * k22

/-- Local → world → local is the identity. -/
theorem toLocal_toWorld (f : Frame) (h : f.Orthonormal) (v : V3 ℝ) : f.toLocal (f.toWorld v) = v := by
  obtain ⟨ss, tt, nn, st, sn, tn⟩ := h
  simp only [V3.dot] at ss tt nn st sn tn
  ext <;> simp only [toWorld, toLocal, V3.dot, V3.add_x, V3.add_y, V3.add_z, V3.smul_x, V3.smul_y,
    V3.smul_z]
  · linear_combination v.x * ss + v.y * st + v.z * sn
  · linear_combination v.x * st + v.y * tt + v.z * tn
  · linear_combination v.x * sn + v.y * tn + v.z * nn

/-- **C22, conversion.** For a unit normal, converting a direction to local coordinates and back returns it,
lengths and angles are kept, and the local `z` coordinate is the cosine with the normal (times the
length). -/
theorem frame_round_trip (n : V3 ℝ) (hn : n.sqrNorm = 1) :
    ∃ f, ofNormal n = some f ∧ ∀ v w : V3 ℝ,
      f.toWorld (f.toLocal v) = v ∧ f.toLocal (f.toWorld v) = v ∧
      (f.toLocal v).dot (f.toLocal w) = v.dot w ∧ (f.toLocal v).norm = v.norm ∧
      (f.toLocal v).z = v.dot n ∧ f.toWorld ⟨0, 0, 1⟩ = n := by
  obtain ⟨f, hf, hfn, ho, -⟩ := frame_orthonormal n hn
  refine ⟨f, hf, fun v w => ?_⟩
  have hdot : ∀ v w : V3 ℝ, (f.toWorld v).dot (f.toWorld w) = v.dot w := by
    intro v w
    obtain ⟨ss, tt, nn, st, sn, tn⟩ := ho
    simp only [V3.dot] at ss tt nn st sn tn
    simp only [toWorld, V3.dot, V3.add_x, V3.add_y, V3.add_z, V3.smul_x, V3.smul_y, V3.smul_z]
    linear_combination v.x * w.x * ss + v.y * w.y * tt + v.z * w.z * nn +
      (v.x * w.y + v.y * w.x) * st + (v.x * w.z + v.z * w.x) * sn + (v.y * w.z + v.z * w.y) * tn
  have hdl : ∀ v w : V3 ℝ, (f.toLocal v).dot (f.toLocal w) = v.dot w := by
    intro v w
    rw [← hdot, toWorld_toLocal f ho, toWorld_toLocal f ho]
  refine ⟨toWorld_toLocal f ho v, toLocal_toWorld f ho v, hdl v w, ?_, ?_, ?_⟩
  · have := hdl v v
    unfold V3.norm
    simp only [V3.dot] at this
    rw [this]
  · simp only [toLocal, hfn]
  · ext <;> simp [toWorld, hfn]

/-- `sphericalDirection` with a sine and cosine of one angle in an orthonormal frame is a unit vector at
that angle to `n`. -/
theorem sphericalDirection_unit (f : Frame) (h : f.Orthonormal) (c s phi : ℝ) (hcs : c * c + s * s = 1) :
    (sphericalDirection c s phi f.s f.t f.n).sqrNorm = 1 ∧
    (sphericalDirection c s phi f.s f.t f.n).dot f.n = c := by
  obtain ⟨ss, tt, nn, st, sn, tn⟩ := h
  have hp : Real.cos phi * Real.cos phi + Real.sin phi * Real.sin phi = 1 := by
    have := Real.cos_sq_add_sin_sq phi; nlinarith
  simp only [V3.dot] at ss tt nn st sn tn
  constructor
  · simp only [sphericalDirection, V3.sqrNorm, V3.add_x, V3.add_y, V3.add_z, V3.smul_x, V3.smul_y,
      V3.smul_z]
    generalize Real.cos phi = p at *
    generalize Real.sin phi = q at *
    linear_combination p * p * s * s * ss + q * q * s * s * tt + c * c * nn +
      2 * p * q * s * s * st + 2 * p * s * c * sn + 2 * q * s * c * tn + s * s * hp + hcs
  · simp only [sphericalDirection, V3.dot, V3.add_x, V3.add_y, V3.add_z, V3.smul_x, V3.smul_y,
      V3.smul_z]
    generalize Real.cos phi = p at *
    generalize Real.sin phi = q at *
    linear_combination p * s * sn + q * s * tn + c * nn

/-- Non-vacuity: a slanted unit normal, both branches. -/
example : (⟨3 / 5, 0, 4 / 5⟩ : V3 ℝ).sqrNorm = 1 ∧ (⟨0, 3 / 5, -4 / 5⟩ : V3 ℝ).sqrNorm = 1 := by
  norm_num [V3.sqrNorm]

end Feign.Frame
