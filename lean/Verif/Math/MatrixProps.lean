import Verif.Math.MatrixLemmas
import Verif.Math.VecRealLemmas
import Mathlib.Tactic.NormNum

/-!
# C19 (matrix inversion), C20 (transforms), C21 (rotations)
-/

set_option linter.unusedSectionVars false

namespace Feign

/-! ### C19 -/

section inversion
variable {K : Type} [Field K] [DecidableEq K]

/-- The accumulated number is the determinant in the mathematical sense. -/
theorem det_correct (m : M4 K) : m.det = m.toMatrix.det := (M4.toMatrix_det m).symm

/-- **C19.** With non-zero determinant the computed matrix is a two-sided inverse (and is the
mathematical inverse); with determinant zero nothing is computed, and indeed no inverse exists. -/
theorem matrix_inverse_two_sided (m : M4 K) :
    (m.det ≠ 0 → ∃ i, m.inverse = some i ∧ i.mul m = M4.one ∧ m.mul i = M4.one ∧
      i.toMatrix = m.toMatrix⁻¹) ∧
    (m.det = 0 → m.inverse = none ∧ ∀ i : M4 K, m.mul i ≠ M4.one ∧ i.mul m ≠ M4.one) := by
  constructor
  · intro h
    refine ⟨m.inverseEntries, by unfold M4.inverse; rw [if_neg h], M4.inverseEntries_mul m h,
      M4.mul_inverseEntries m h, ?_⟩
    symm
    apply Matrix.inv_eq_left_inv
    rw [← M4.toMatrix_mul, M4.inverseEntries_mul m h, M4.toMatrix_one]
  · intro h
    refine ⟨by unfold M4.inverse; rw [if_pos h], fun i => ⟨fun e => ?_, fun e => ?_⟩⟩
    · have := congrArg (fun a => a.toMatrix.det) e
      simp only [M4.toMatrix_mul, M4.toMatrix_one, Matrix.det_mul, M4.toMatrix_det, h, zero_mul,
        Matrix.det_one] at this
      exact zero_ne_one this
    · have := congrArg (fun a => a.toMatrix.det) e
      simp only [M4.toMatrix_mul, M4.toMatrix_one, Matrix.det_mul, M4.toMatrix_det, h, mul_zero,
        Matrix.det_one] at this
      exact zero_ne_one this

/-- Non-vacuity: an invertible and a singular matrix. -/
example : (M4.scale (⟨2, 3, 4⟩ : V3 ℚ)).det = 24 ∧ (M4.scale (⟨2, 0, 4⟩ : V3 ℚ)).det = 0 := by
  constructor <;> norm_num [M4.scale, M4.det]

end inversion

/-! ### C20 -/

namespace Xf
section
variable {K : Type} [Field K] [DecidableEq K]

/-- The stored inverse is a two-sided inverse. -/
def Valid (t : Xf K) : Prop := t.inv.mul t.mat = M4.one ∧ t.mat.mul t.inv = M4.one

/-- Both matrices map points to points without division. -/
def Aff (t : Xf K) : Prop := t.mat.Affine ∧ t.inv.Affine

omit [DecidableEq K] in
theorem valid_one : Valid (one : Xf K) := ⟨M4.one_mul _, M4.one_mul _⟩

theorem valid_ofMatrix (m : M4 K) (t : Xf K) (h : ofMatrix m = some t) : t.mat = m ∧ Valid t := by
  unfold ofMatrix M4.inverse at h
  split_ifs at h with hd
  · simp at h
  · simp only [Option.map_some, Option.some.injEq] at h
    subst h
    exact ⟨rfl, M4.inverseEntries_mul m hd, M4.mul_inverseEntries m hd⟩

omit [DecidableEq K] in
theorem valid_mul (a b : Xf K) (ha : Valid a) (hb : Valid b) : Valid (a.mul b) := by
  constructor
  · simp only [mul]
    rw [M4.mul_assoc, ← M4.mul_assoc a.inv, ha.1, M4.one_mul, hb.1]
  · simp only [mul]
    rw [M4.mul_assoc, ← M4.mul_assoc b.mat, hb.2, M4.one_mul, ha.2]

omit [DecidableEq K] in
theorem valid_inverse (a : Xf K) (ha : Valid a) : Valid a.inverse := ⟨ha.2, ha.1⟩

omit [DecidableEq K] in
theorem aff_of_valid (t : Xf K) (h : Valid t) (hm : t.mat.Affine) : Aff t :=
  ⟨hm, M4.Affine.of_inverse hm h.2⟩

omit [DecidableEq K] in
theorem aff_mul (a b : Xf K) (ha : Aff a) (hb : Aff b) : Aff (a.mul b) :=
  ⟨ha.1.mul hb.1, hb.2.mul ha.2⟩

/-- An affine transform maps a point without division. -/
theorem point_affine (t : Xf K) (h : t.mat.Affine) (p : V3 K) :
    t.point p = some (t.vec p + ⟨t.mat.n3, t.mat.n7, t.mat.n11⟩) := by
  obtain ⟨h1, h2, h3, h4⟩ := h
  unfold point M4.mulVec vec M4.topLeft M3.mulVec
  simp only [h1, h2, h3, h4]
  have hw : (0 : K) * p.x + 0 * p.y + 0 * p.z + 1 * 1 = 1 := by ring
  rw [hw, if_neg one_ne_zero]
  congr 1
  ext <;> simp

/-- **C20, composition of points** (any transforms, also projective ones). -/
theorem mul_point (a b : Xf K) (p q : V3 K) (h : b.point p = some q) :
    (a.mul b).point p = a.point q := by
  unfold point at h
  simp only at h
  split_ifs at h with hw
  obtain rfl := Option.some.inj h
  set g := b.mat.mulVec ⟨p.x, p.y, p.z, 1⟩ with hg
  unfold point mul
  simp only [M4.mul_mulVec, ← hg]
  have hsc : a.mat.mulVec ⟨g.x / g.w, g.y / g.w, g.z / g.w, 1⟩ =
      ⟨(a.mat.mulVec g).x / g.w, (a.mat.mulVec g).y / g.w, (a.mat.mulVec g).z / g.w,
        (a.mat.mulVec g).w / g.w⟩ := by
    unfold M4.mulVec
    simp only [V4.mk.injEq]
    refine ⟨?_, ?_, ?_, ?_⟩ <;> field_simp
  rw [hsc]
  simp only [div_eq_zero_iff, hw, or_false]
  split_ifs with h0
  · rfl
  · congr 1
    ext <;> simp only <;> field_simp

omit [DecidableEq K] in
/-- **C20, composition of directions** (affine). -/
theorem mul_vec (a b : Xf K) (hb : Aff b) (v : V3 K) : (a.mul b).vec v = a.vec (b.vec v) := by
  unfold vec mul
  simp only [M4.topLeft_mul hb.1]
  ext <;> simp only [M3.mulVec, M3.mul] <;> ring

omit [DecidableEq K] in
/-- **C20, composition of normals** (affine). -/
theorem mul_normal (a b : Xf K) (ha : Aff a) (v : V3 K) :
    (a.mul b).normal v = a.normal (b.normal v) := by
  unfold normal mul
  simp only [M4.topLeft_mul ha.2]
  ext <;> simp only [M3.mulVec, M3.mul, M3.transpose] <;> ring

omit [DecidableEq K] in
theorem one_vec (v : V3 K) (t : Xf K) (h : t.mat = M4.one) : t.vec v = v := by
  unfold vec; rw [h]
  ext <;> simp only [M4.one, M4.topLeft, M3.mulVec] <;> ring

omit [DecidableEq K] in
theorem one_normal (v : V3 K) (t : Xf K) (h : t.inv = M4.one) : t.normal v = v := by
  unfold normal; rw [h]
  ext <;> simp only [M4.one, M4.topLeft, M3.mulVec, M3.transpose] <;> ring

theorem one_point (p : V3 K) (t : Xf K) (h : t.mat = M4.one) : t.point p = some p := by
  rw [point_affine t (h ▸ M4.Affine.one), one_vec p t h, h]
  congr 1
  ext <;> simp [M4.one]

/-- **C20, the inverse undoes the transform** on points (whenever the image is finite), directions and
normals. -/
theorem inverse_undoes (t : Xf K) (h : Valid t) :
    (∀ p q, t.point p = some q → t.inverse.point q = some p) ∧
    (Aff t → ∀ v, t.inverse.vec (t.vec v) = v ∧ t.inverse.normal (t.normal v) = v) := by
  constructor
  · intro p q hq
    rw [← mul_point t.inverse t p q hq]
    exact one_point p _ h.1
  · intro ha v
    constructor
    · rw [← mul_vec t.inverse t ha]
      exact one_vec v _ h.1
    · rw [← mul_normal t.inverse t ⟨ha.2, ha.1⟩]
      exact one_normal v _ h.1

/-- **C20, rays**: the point at parameter `u` of the transformed ray is the transformed point at
parameter `u`, and the range is unchanged. -/
theorem ray_points (t : Xf K) (h : t.mat.Affine) (r : Ray K) :
    ∃ r', t.ray r = some r' ∧ r'.near = r.near ∧ r'.far = r.far ∧
      ∀ u, t.point (r.point u) = some (r'.point u) := by
  unfold ray
  rw [point_affine t h]
  refine ⟨_, rfl, rfl, rfl, fun u => ?_⟩
  rw [point_affine t h]
  congr 1
  ext <;> simp only [Ray.point, vec, M3.mulVec, V3.add_x, V3.add_y, V3.add_z, V3.smul_x, V3.smul_y,
    V3.smul_z] <;> ring

omit [DecidableEq K] in
/-- **C20, normals**: the product of a transformed normal with a transformed direction is unchanged, so
orthogonality is preserved in both directions. -/
theorem normal_dot_vec (t : Xf K) (h : Valid t) (ha : Aff t) (n v : V3 K) :
    (t.normal n).dot (t.vec v) = n.dot v := by
  have e : (t.inv.mul t.mat).topLeft = t.inv.topLeft.mul t.mat.topLeft := M4.topLeft_mul ha.1
  rw [h.1] at e
  -- move the transpose to the other side
  have h1 : (t.normal n).dot (t.vec v) = n.dot ((t.inv.topLeft.mul t.mat.topLeft).mulVec v) := by
    simp only [normal, vec, V3.dot, M3.mulVec, M3.mul, M3.transpose]; ring
  rw [h1, ← e]
  simp only [M4.one, M4.topLeft, M3.mulVec, V3.dot]; ring

omit [DecidableEq K] in
/-- Using the matrix itself for normals (instead of the transposed inverse) would be wrong: the property
above separates the two. -/
example : ∃ (t : Xf ℚ), Valid t ∧ Aff t ∧
    (t.vec ⟨1, 1, 0⟩).dot (t.vec ⟨1, -1, 0⟩) ≠ 0 ∧ (⟨1, 1, 0⟩ : V3 ℚ).dot ⟨1, -1, 0⟩ = 0 := by
  refine ⟨⟨M4.scale ⟨2, 1, 1⟩, M4.scale ⟨1 / 2, 1, 1⟩⟩, ⟨?_, ?_⟩, ⟨⟨rfl, rfl, rfl, rfl⟩, rfl, rfl, rfl, rfl⟩, ?_, ?_⟩
  · ext <;> norm_num [M4.mul, M4.scale, M4.one]
  · ext <;> norm_num [M4.mul, M4.scale, M4.one]
  · norm_num [vec, M4.scale, M4.topLeft, M3.mulVec, V3.dot]
  · norm_num [V3.dot]

end
end Xf

/-! ### C21 -/

/-- The linear part of the rotation matrix applied to a vector. -/
theorem rotateCS_vec {K : Type} [Field K] (c s : K) (u v : V3 K) :
    (M4.rotateCS c s u).topLeft.mulVec v =
      v.smul c + u.smul (u.dot v * (1 - c)) - (u.cross v).smul s := by
  ext <;> simp only [M4.rotateCS, M4.topLeft, M3.mulVec, V3.smul, V3.dot, V3.cross, V3.add_x, V3.add_y,
    V3.add_z, V3.sub_x, V3.sub_y, V3.sub_z] <;> ring

/-- **C21** for any cosine/sine pair: dot products (hence lengths and angles) are preserved, the axis is
fixed, orientation is preserved. -/
theorem rotateCS_rigid {K : Type} [Field K] (c s : K) (u : V3 K) (hcs : c * c + s * s = 1)
    (hu : u.sqrNorm = 1) :
    (∀ v w, ((M4.rotateCS c s u).topLeft.mulVec v).dot ((M4.rotateCS c s u).topLeft.mulVec w) = v.dot w) ∧
    (∀ k, (M4.rotateCS c s u).topLeft.mulVec (u.smul k) = u.smul k) ∧
    (M4.rotateCS c s u).det = 1 ∧ (M4.rotateCS c s u).Affine := by
  have hu' : u.x * u.x + u.y * u.y + u.z * u.z = 1 := hu
  refine ⟨fun v w => ?_, fun k => ?_, ?_, rfl, rfl, rfl, rfl⟩
  · rw [rotateCS_vec, rotateCS_vec]
    simp only [V3.smul, V3.dot, V3.cross, V3.add_x, V3.add_y, V3.add_z, V3.sub_x, V3.sub_y, V3.sub_z]
    linear_combination (s * s * (v.x * w.x + v.y * w.y + v.z * w.z) +
      (1 - c) * (1 - c) * ((u.x * v.x + u.y * v.y + u.z * v.z) * (u.x * w.x + u.y * w.y + u.z * w.z))) * hu' +
      ((v.x * w.x + v.y * w.y + v.z * w.z) -
        (u.x * v.x + u.y * v.y + u.z * v.z) * (u.x * w.x + u.y * w.y + u.z * w.z)) * hcs
  · rw [rotateCS_vec]
    ext <;> simp only [V3.smul, V3.dot, V3.cross, V3.add_x, V3.add_y, V3.add_z, V3.sub_x, V3.sub_y,
      V3.sub_z]
    · linear_combination (k * u.x * (1 - c)) * hu'
    · linear_combination (k * u.y * (1 - c)) * hu'
    · linear_combination (k * u.z * (1 - c)) * hu'
  · simp only [M4.rotateCS, M4.det]
    linear_combination hcs + (s * s + (1 - c) * (c * c + s * s * (u.x * u.x + u.y * u.y + u.z * u.z))) * hu'

/-- **C21.** `rotate` about any non-zero axis by any angle is a rigid motion that fixes every multiple of
the axis and has determinant 1; about the zero axis nothing is computed. -/
theorem rotate_rigid (angle : ℝ) (axis : V3 ℝ) :
    (axis ≠ 0 → ∃ m, M4.rotate angle axis = some m ∧ m.det = 1 ∧ m.Affine ∧
      (∀ v w, (m.topLeft.mulVec v).dot (m.topLeft.mulVec w) = v.dot w) ∧
      (∀ v, (m.topLeft.mulVec v).norm = v.norm) ∧
      m.topLeft.mulVec axis = axis) ∧
    (axis = 0 → M4.rotate angle axis = none) := by
  constructor
  · intro h
    obtain ⟨u, hu, h1, h2⟩ := V3.normalized_spec axis h
    set m := M4.rotateCS (Real.cos (angle * Real.pi / 180)) (Real.sin (angle * Real.pi / 180)) u with hm
    obtain ⟨a, b, c, d⟩ := rotateCS_rigid (Real.cos (angle * Real.pi / 180))
      (Real.sin (angle * Real.pi / 180)) u
      (by have := Real.cos_sq_add_sin_sq (angle * Real.pi / 180); nlinarith) h1
    refine ⟨m, by unfold M4.rotate; rw [hu]; rfl, c, d, a, fun v => ?_, ?_⟩
    · have := a v v
      unfold V3.norm
      congr 1
    · have := b axis.norm
      rwa [h2] at this
  · intro h
    unfold M4.rotate
    rw [(V3.normalized_eq_none axis).mpr h]
    rfl

/-- Direction of rotation: with right-handed axes a positive angle turns *clockwise* when looking against
the axis. A quarter turn about z takes x to -y. -/
theorem rotate_direction :
    ∃ m, M4.rotate 90 ⟨0, 0, 1⟩ = some m ∧ m.topLeft.mulVec ⟨1, 0, 0⟩ = ⟨0, -1, 0⟩ := by
  have hn : (⟨0, 0, 1⟩ : V3 ℝ).norm = 1 := by simp [V3.norm]
  have hnorm : (⟨0, 0, 1⟩ : V3 ℝ).normalized = some ⟨0, 0, 1⟩ := by
    unfold V3.normalized
    rw [hn]
    simp
  refine ⟨_, by unfold M4.rotate; rw [hnorm]; rfl, ?_⟩
  have ha : (90 : ℝ) * Real.pi / 180 = Real.pi / 2 := by ring
  rw [ha, Real.cos_pi_div_two, Real.sin_pi_div_two]
  ext <;> simp [M4.rotateCS, M4.topLeft, M3.mulVec]

end Feign
