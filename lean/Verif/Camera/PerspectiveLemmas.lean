import Verif.Camera.Perspective
import Verif.Math.MatrixProps
import Verif.Math.VecRealLemmas

/-! # Helper lemmas on the perspective camera -/

namespace Feign.Camera

/-- Explicit inverse of the film projection. -/
noncomputable def unproj (cot asp near far : ℝ) : M4 ℝ :=
  ⟨-2 / cot, 0, 0, 1 / cot, 0, -2 / (asp * cot), 0, 1 / (asp * cot), 0, 0, 0, 1,
   0, 0, -(far - near) / (near * far), 1 / near⟩

theorem proj_unproj (cot asp near far : ℝ) (h1 : cot ≠ 0) (h2 : asp ≠ 0) (h3 : near ≠ 0) (h4 : far ≠ 0)
    (h5 : far - near ≠ 0) :
    (((M4.scale ⟨-1 / 2, -1 / 2 * asp, 1⟩).mul (M4.translate ⟨-1, -1 / asp, 0⟩)).mul
      (projMatrix cot (1 / (far - near)) near far)).mul (unproj cot asp near far) = M4.one := by
  ext <;> simp only [M4.mul, M4.scale, M4.translate, projMatrix, unproj, M4.one] <;>
    first
    | (field_simp; done)
    | (field_simp; ring)

open Classical in
theorem inverse_unique (m n : M4 ℝ) (h : m.mul n = M4.one) :
    Xf.ofMatrix m = some ⟨m, n⟩ := by
  have hd : m.det ≠ 0 := by
    intro h0
    have := congrArg M4.toMatrix h
    rw [M4.toMatrix_mul, M4.toMatrix_one] at this
    have h2 := congrArg Matrix.det this
    rw [Matrix.det_mul, M4.toMatrix_det, h0, zero_mul, Matrix.det_one] at h2
    exact zero_ne_one h2
  have e : m.inverseEntries = n := by
    have h1 := M4.inverseEntries_mul m hd
    calc m.inverseEntries = m.inverseEntries.mul M4.one := (M4.mul_one _).symm
      _ = m.inverseEntries.mul (m.mul n) := by rw [h]
      _ = (m.inverseEntries.mul m).mul n := by rw [M4.mul_assoc]
      _ = n := by rw [h1, M4.one_mul]
  unfold Xf.ofMatrix M4.inverse
  rw [if_neg hd, e]
  rfl

/-- Conditions under which a camera is usable. -/
structure Persp.Ok (c : Persp) : Prop where
  w : c.width ≠ 0
  h : c.height ≠ 0
  n : 0 < c.near
  nf : c.near < c.far
  f0 : 0 < c.fov
  f1 : c.fov < 180

theorem Persp.Ok.tan_pos {c : Persp} (h : c.Ok) :
    0 < Real.sin (c.fov / 2 * (Real.pi / 180)) ∧ 0 < Real.cos (c.fov / 2 * (Real.pi / 180)) ∧
    0 < Real.tan (c.fov / 2 * (Real.pi / 180)) := by
  have hp := Real.pi_pos
  have h0 := h.f0
  have h1 := h.f1
  have a : 0 < c.fov / 2 * (Real.pi / 180) := by positivity
  have b : c.fov / 2 * (Real.pi / 180) < Real.pi / 2 := by nlinarith
  exact ⟨Real.sin_pos_of_pos_of_lt_pi a (by linarith),
    Real.cos_pos_of_mem_Ioo ⟨by linarith, b⟩, Real.tan_pos_of_pos_of_lt_pi_div_two a b⟩

/-- Where the film position `(u, v) ∈ [0,1]²` lies on the plane `z = 1` of camera space. -/
noncomputable def Persp.filmPoint (c : Persp) (film : V2 ℝ) : V3 ℝ :=
  let k := Real.tan (c.fov / 2 * (Real.pi / 180))
  ⟨(1 - 2 * (film.x / c.width)) * k, (1 - 2 * (film.y / c.height)) * k * (c.height / c.width), 1⟩

theorem point_of_hom {K : Type} [Field K] [DecidableEq K] (t : Xf K) (p : V3 K) (h : V4 K)
    (e : t.mat.mulVec ⟨p.x, p.y, p.z, 1⟩ = h) (hw : h.w ≠ 0) :
    t.point p = some ⟨h.x / h.w, h.y / h.w, h.z / h.w⟩ := by
  unfold Xf.point
  dsimp only
  rw [e, if_neg hw]

open Classical in
theorem sampleToCamera_spec (c : Persp) (h : c.Ok) :
    ∃ s, c.sampleToCamera = some s ∧ ∀ film : V2 ℝ,
      s.point ⟨film.x / c.width, film.y / c.height, 0⟩ = some ((c.filmPoint film).smul c.near) := by
  obtain ⟨hs, hc, ht⟩ := h.tan_pos
  have hw : (c.width : ℝ) ≠ 0 := Nat.cast_ne_zero.mpr h.w
  have hh : (c.height : ℝ) ≠ 0 := Nat.cast_ne_zero.mpr h.h
  have hn := h.n
  have hnf := h.nf
  have e := inverse_unique _ _ (proj_unproj (1 / Real.tan (c.fov / 2 * (Real.pi / 180)))
    ((c.width : ℝ) / (c.height : ℝ)) c.near c.far (one_div_ne_zero ht.ne') (div_ne_zero hw hh) hn.ne'
    (by linarith) (by linarith))
  refine ⟨_, by
    unfold Persp.sampleToCamera
    rw [if_neg (by
      rintro (h1 | h1 | h1 | h1 | h1)
      · exact h.h h1
      · exact h.w h1
      · linarith
      · linarith
      · linarith)]
    dsimp only
    rw [e]
    rfl, fun film => ?_⟩
  rw [point_of_hom _ _ _ rfl (by
    simp only [Xf.inverse, M4.mulVec, unproj]
    rw [show 0 * (film.x / (c.width : ℝ)) + 0 * (film.y / (c.height : ℝ)) +
      -(c.far - c.near) / (c.near * c.far) * 0 + 1 / c.near * 1 = 1 / c.near by ring]
    exact one_div_ne_zero hn.ne')]
  simp only [Xf.inverse, M4.mulVec, unproj]
  rw [show 0 * (film.x / (c.width : ℝ)) + 0 * (film.y / (c.height : ℝ)) +
    -(c.far - c.near) / (c.near * c.far) * 0 + 1 / c.near * 1 = 1 / c.near by ring]
  congr 1
  ext <;> simp only [Persp.filmPoint, V3.smul_x, V3.smul_y, V3.smul_z]
  · field_simp; ring
  · field_simp; ring
  · field_simp; ring

theorem V3.smul_smul (v : V3 ℝ) (a b : ℝ) : (v.smul a).smul b = v.smul (a * b) := by
  ext <;> simp only [V3.smul_x, V3.smul_y, V3.smul_z] <;> ring

theorem V3.norm_smul (v : V3 ℝ) (a : ℝ) : (v.smul a).norm = |a| * v.norm := by
  unfold V3.norm
  rw [← Real.sqrt_mul_self_eq_abs, ← Real.sqrt_mul (mul_self_nonneg a)]
  congr 1
  simp only [V3.smul_x, V3.smul_y, V3.smul_z]
  ring

theorem normalized_smul_pos (v : V3 ℝ) (hv : v ≠ 0) (a : ℝ) (ha : 0 < a) :
    (v.smul a).normalized = some (v.smul (1 / v.norm)) := by
  have hn : v.norm ≠ 0 := fun e => hv ((V3.norm_eq_zero v).mp e)
  unfold V3.normalized
  rw [V3.norm_smul, abs_of_pos ha, if_neg (mul_ne_zero ha.ne' hn)]
  congr 1
  ext <;> simp only [V3.smul_x, V3.smul_y, V3.smul_z] <;> field_simp

end Feign.Camera
