import Verif.Math.Vec
import Mathlib.Tactic.Ring
import Mathlib.Tactic.Linarith
import Mathlib.Tactic.NormNum
import Mathlib.Tactic.Order
import Mathlib.Algebra.Order.Ring.Rat

/-!
# C53: comparison operators; C57: component reductions; vector algebra
-/

namespace Feign

/-! ### C53 -/

/-- **C53 refuted**: two vectors that differ in one component compare neither as equal nor as
different. -/
theorem vec_compare_refuted :
    ∃ a b : V3 ℚ, a ≠ b ∧ a.eqOp b = false ∧ a.neOp b = false :=
  ⟨⟨0, 0, 0⟩, ⟨1, 0, 0⟩, by decide, by decide, by decide⟩

/-- Two-component vectors have the same defect. -/
theorem vec2_compare_refuted :
    ∃ a b : V2 ℚ, a ≠ b ∧ a.eqOp b = false ∧ a.neOp b = false :=
  ⟨⟨0, 0⟩, ⟨1, 0⟩, by decide, by decide, by decide⟩

/-- **C53 (partial)**: `==` is equality; `!=` implies inequality but is only reported when *all*
components differ. Missing: `!=` for vectors that differ in some but not all components. -/
theorem vec_compare_partial {K : Type} [LinearOrder K] (a b : V3 K) :
    (a.eqOp b = true ↔ a = b) ∧ (a.neOp b = true → a ≠ b) ∧
    (a.neOp b = true ↔ a.x ≠ b.x ∧ a.y ≠ b.y ∧ a.z ≠ b.z) ∧
    ¬ (a.eqOp b = true ∧ a.neOp b = true) := by
  have h3 : (a.neOp b = true ↔ a.x ≠ b.x ∧ a.y ≠ b.y ∧ a.z ≠ b.z) := by
    simp [V3.neOp, and_assoc]
  have h1 : (a.eqOp b = true ↔ a = b) := by
    simp [V3.eqOp, V3.ext_iff, and_assoc]
  refine ⟨h1, ?_, h3, ?_⟩
  · intro h hab
    rw [h3] at h
    exact h.1 (by rw [hab])
  · rintro ⟨h, h'⟩
    rw [h1] at h
    rw [h3] at h'
    exact h'.1 (by rw [h])

/-- The two operators are consistent exactly when the vectors are equal or differ everywhere. -/
theorem vec_compare_consistent_iff {K : Type} [LinearOrder K] (a b : V3 K) :
    (a.neOp b = !a.eqOp b) ↔ a = b ∨ (a.x ≠ b.x ∧ a.y ≠ b.y ∧ a.z ≠ b.z) := by
  obtain ⟨h1, -, h3, h4⟩ := vec_compare_partial a b
  rw [← h1, ← h3]
  revert h4
  cases a.eqOp b <;> cases a.neOp b <;> simp

/-! ### C57: component reductions -/

/-- `max()` on a vector returns the *smallest* component (its comparisons are those of `min()`), so the
claim that it returns the largest is false. -/
theorem vec_max_refuted : ∃ a : V3 ℚ, a.maxOp < a.maxValue ∧ ¬ (a.x ≤ a.maxOp ∧ a.y ≤ a.maxOp) :=
  ⟨⟨1, 2, 3⟩, by decide, by decide⟩

/-- **C57 (partial)**: what each reduction returns. `maxValue`, `minValue` and `min()` are right;
`max()` equals `min()`. -/
theorem vec_reductions_partial {K : Type} [LinearOrder K] (a : V3 K) :
    a.maxValue = max (max a.x a.y) a.z ∧ a.minValue = min (min a.x a.y) a.z ∧
    a.minOp = min (min a.x a.y) a.z ∧ a.maxOp = min (min a.x a.y) a.z := by
  refine ⟨?_, ?_, ?_, ?_⟩
  · simp only [V3.maxValue, max_def, gt_iff_lt]
    split_ifs <;> first | rfl | order
  · simp only [V3.minValue, min_def]
    split_ifs <;> first | rfl | (exfalso; order)
  · simp only [V3.minOp, min_def]
    split_ifs <;> first | rfl | (exfalso; order)
  · simp only [V3.maxOp, min_def]
    split_ifs <;> first | rfl | (exfalso; order)

/-- `max()` is the largest component exactly when all components are equal. -/
theorem vec_max_correct_iff {K : Type} [LinearOrder K] (a : V3 K) :
    a.maxOp = max (max a.x a.y) a.z ↔ a.x = a.y ∧ a.y = a.z := by
  rw [(vec_reductions_partial a).2.2.2]
  constructor
  · intro h
    have h1 : min (min a.x a.y) a.z ≤ a.x := (min_le_left _ _).trans (min_le_left _ _)
    have h2 : min (min a.x a.y) a.z ≤ a.y := (min_le_left _ _).trans (min_le_right _ _)
    have h3 : min (min a.x a.y) a.z ≤ a.z := min_le_right _ _
    have g1 : a.x ≤ max (max a.x a.y) a.z := (le_max_left _ _).trans (le_max_left _ _)
    have g2 : a.y ≤ max (max a.x a.y) a.z := (le_max_right _ _).trans (le_max_left _ _)
    have g3 : a.z ≤ max (max a.x a.y) a.z := le_max_right _ _
    rw [← h] at g1 g2 g3
    constructor <;> order
  · rintro ⟨h1, h2⟩
    simp [h1, h2]

/-- `maxIndex` returns the position of the largest component, except that it reports `2` when the first
two components tie above the third. -/
theorem vec_maxIndex_partial {K : Type} [LinearOrder K] (a : V3 K) :
    a.get a.maxIndex = a.maxValue ∨ (a.x = a.y ∧ a.z < a.x ∧ a.maxIndex = 2) := by
  unfold V3.maxIndex V3.maxValue
  dsimp only
  by_cases h0 : a.x > a.y ∧ a.x > a.z
  · left
    obtain ⟨h, h'⟩ := h0
    rw [if_pos ⟨h, h'⟩, if_neg (not_lt.2 h.le), if_neg (not_lt.2 h'.le)]
    rfl
  · rw [if_neg h0]
    by_cases h1 : a.y > a.x ∧ a.y > a.z
    · left
      obtain ⟨h, h'⟩ := h1
      rw [if_pos ⟨h, h'⟩, if_pos h, if_neg (not_lt.2 h'.le)]
      rfl
    · rw [if_neg h1]
      change a.z = _ ∨ _
      rw [not_and_or, not_lt, not_lt] at h0 h1
      rcases lt_trichotomy a.x a.y with h | h | h
      · left
        have hz : a.y ≤ a.z := by
          rcases h1 with h1 | h1 <;> order
        rw [if_pos h]
        split_ifs <;> first | rfl | order
      · rw [if_neg (show ¬ a.y > a.x from not_lt.2 h.ge)]
        by_cases hz : a.z < a.x
        · exact Or.inr ⟨h, hz, rfl⟩
        · left
          split_ifs <;> first | rfl | order
      · left
        have hz : a.x ≤ a.z := by
          rcases h0 with h0 | h0 <;> order
        rw [if_neg (show ¬ a.y > a.x from not_lt.2 h.le)]
        split_ifs <;> first | rfl | order

/-- A tie in the first two components makes `maxIndex` point at the smallest component. -/
theorem vec_maxIndex_refuted : ∃ a : V3 ℚ, a.get a.maxIndex < a.maxValue :=
  ⟨⟨1, 1, 0⟩, by decide⟩

/-! ### Vector algebra used throughout -/

/-- The cross product is orthogonal to both factors, antisymmetric, and satisfies Lagrange's
identity. -/
theorem cross_laws {K : Type} [CommRing K] (a b : V3 K) :
    a.dot (a.cross b) = 0 ∧ b.dot (a.cross b) = 0 ∧ a.cross b = -(b.cross a) ∧
    (a.cross b).sqrNorm = a.sqrNorm * b.sqrNorm - a.dot b * a.dot b := by
  refine ⟨?_, ?_, ?_, ?_⟩
  · simp only [V3.dot, V3.cross]; ring
  · simp only [V3.dot, V3.cross]; ring
  · ext <;> simp only [V3.cross, V3.neg_x, V3.neg_y, V3.neg_z] <;> ring
  · simp only [V3.sqrNorm, V3.dot, V3.cross]; ring

/-- Non-vacuity: some vectors do compare consistently. -/
example : (⟨1, 2, 3⟩ : V3 ℚ).neOp ⟨4, 5, 6⟩ = true ∧ (⟨1, 2, 3⟩ : V3 ℚ).eqOp ⟨1, 2, 3⟩ = true := by
  decide

end Feign
