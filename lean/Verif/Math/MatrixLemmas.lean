import Verif.Math.Matrix
import Mathlib.LinearAlgebra.Matrix.Determinant.Basic
import Mathlib.LinearAlgebra.Matrix.NonsingularInverse
import Mathlib.LinearAlgebra.Matrix.Notation
import Mathlib.Tactic.FieldSimp
import Mathlib.Tactic.Ring
import Mathlib.Tactic.LinearCombination

/-! # Helper lemmas on matrices and transforms -/

set_option linter.unusedSectionVars false

namespace Feign

namespace M4
variable {K : Type} [Field K]

theorem mul_assoc (a b c : M4 K) : (a.mul b).mul c = a.mul (b.mul c) := by
  ext <;> simp only [mul] <;> ring

theorem one_mul (a : M4 K) : one.mul a = a := by
  ext <;> simp only [mul, one] <;> ring

theorem mul_one (a : M4 K) : a.mul one = a := by
  ext <;> simp only [mul, one] <;> ring

theorem mul_mulVec (a b : M4 K) (v : V4 K) : (a.mul b).mulVec v = a.mulVec (b.mulVec v) := by
  ext <;> simp only [mul, mulVec] <;> ring

theorem one_mulVec (v : V4 K) : (one : M4 K).mulVec v = v := by
  ext <;> simp only [mulVec, one] <;> ring

/-- Last row `0 0 0 1`. -/
def Affine (m : M4 K) : Prop := m.n12 = 0 ∧ m.n13 = 0 ∧ m.n14 = 0 ∧ m.n15 = 1

theorem Affine.one : Affine (one : M4 K) := ⟨rfl, rfl, rfl, rfl⟩

theorem Affine.mul {a b : M4 K} (ha : Affine a) (hb : Affine b) : Affine (a.mul b) := by
  obtain ⟨a1, a2, a3, a4⟩ := ha
  obtain ⟨b1, b2, b3, b4⟩ := hb
  refine ⟨?_, ?_, ?_, ?_⟩ <;> simp only [M4.mul, a1, a2, a3, a4, b1, b2, b3, b4] <;> ring

/-- A left inverse of an affine matrix is affine. -/
theorem Affine.of_inverse {a b : M4 K} (ha : Affine a) (h' : a.mul b = M4.one) :
    Affine b := by
  obtain ⟨a1, a2, a3, a4⟩ := ha
  have e12 : (a.mul b).n12 = 0 := by rw [h']; rfl
  have e13 : (a.mul b).n13 = 0 := by rw [h']; rfl
  have e14 : (a.mul b).n14 = 0 := by rw [h']; rfl
  have e15 : (a.mul b).n15 = 1 := by rw [h']; rfl
  simp only [M4.mul, a1, a2, a3, a4] at e12 e13 e14 e15
  exact ⟨by linear_combination e12, by linear_combination e13, by linear_combination e14,
    by linear_combination e15⟩

theorem topLeft_mul {a b : M4 K} (hb : Affine b) : (a.mul b).topLeft = a.topLeft.mul b.topLeft := by
  obtain ⟨b1, b2, b3, b4⟩ := hb
  ext <;> simp only [M4.mul, topLeft, M3.mul, b1, b2, b3] <;> ring

theorem inverseEntries_mul (m : M4 K) (h : m.det ≠ 0) : m.inverseEntries.mul m = one := by
  ext <;>
  · simp only [mul, inverseEntries, one]
    field_simp
    simp only [det, m11, m12, m13, m14, m21, m22, m23, m24, m31, m32, m33, m34, m41, m42, m43, m44]
    ring

theorem mul_inverseEntries (m : M4 K) (h : m.det ≠ 0) : m.mul m.inverseEntries = one := by
  ext <;>
  · simp only [mul, inverseEntries, one]
    field_simp
    simp only [det, m11, m12, m13, m14, m21, m22, m23, m24, m31, m32, m33, m34, m41, m42, m43, m44]
    ring

/-- The matrix as a Mathlib matrix. -/
def toMatrix (m : M4 K) : Matrix (Fin 4) (Fin 4) K :=
  !![m.n0, m.n1, m.n2, m.n3; m.n4, m.n5, m.n6, m.n7; m.n8, m.n9, m.n10, m.n11;
     m.n12, m.n13, m.n14, m.n15]

theorem toMatrix_injective : Function.Injective (toMatrix : M4 K → _) := by
  intro a b h
  have e := fun i j => congrFun (congrFun h i) j
  ext
  · exact e 0 0
  · exact e 0 1
  · exact e 0 2
  · exact e 0 3
  · exact e 1 0
  · exact e 1 1
  · exact e 1 2
  · exact e 1 3
  · exact e 2 0
  · exact e 2 1
  · exact e 2 2
  · exact e 2 3
  · exact e 3 0
  · exact e 3 1
  · exact e 3 2
  · exact e 3 3

theorem toMatrix_mul (a b : M4 K) : (a.mul b).toMatrix = a.toMatrix * b.toMatrix := by
  ext i j
  fin_cases i <;> fin_cases j <;>
    simp [toMatrix, mul, Matrix.mul_apply, Fin.sum_univ_four]

theorem toMatrix_one : (one : M4 K).toMatrix = 1 := by
  ext i j
  fin_cases i <;> fin_cases j <;> simp [toMatrix, one]

theorem toMatrix_transpose (a : M4 K) : a.transpose.toMatrix = a.toMatrix.transpose := by
  ext i j
  fin_cases i <;> fin_cases j <;> simp [toMatrix, transpose]

theorem toMatrix_det (m : M4 K) : m.toMatrix.det = m.det := by
  rw [Matrix.det_succ_row_zero]
  simp [Fin.sum_univ_succ, Matrix.det_fin_three, toMatrix, Fin.succAbove, det]
  ring

end M4
end Feign
