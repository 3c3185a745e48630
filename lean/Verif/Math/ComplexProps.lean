import Verif.Math.Complex
import Mathlib.Tactic.Ring
import Mathlib.Tactic.LinearCombination
import Mathlib.Algebra.Ring.Int.Defs

/-! # C54: complex arithmetic -/

namespace Feign

/-- **C54 refuted**: subtracting in place does not undo adding in place. -/
theorem complex_sub_assign_refuted :
    ∃ a b : C2 ℤ, (a.addAssign b).subAssign b ≠ a ∧ a.subAssign b ≠ a.sub b :=
  ⟨⟨0, 0⟩, ⟨1, 0⟩, by decide, by decide⟩

/-- In-place subtraction of `Complex2f` agrees with subtraction exactly when twice the operand
vanishes. -/
theorem complex_sub_assign_iff {K : Type} [CommRing K] (a b : C2 K) :
    a.subAssign b = a.sub b ↔ b.re + b.re = 0 ∧ b.im + b.im = 0 := by
  simp only [C2.subAssign, C2.sub, C2.mk.injEq]
  constructor
  · rintro ⟨h1, h2⟩
    constructor
    · linear_combination h1
    · linear_combination h2
  · rintro ⟨h1, h2⟩
    constructor
    · linear_combination h1
    · linear_combination h2

/-- **C54 (partial)**: everything but `Complex2f::operator-=`: the copying operators are mutually
inverse, addition in place agrees with addition, multiplication is commutative, associative and
distributes over addition, and the squared modulus is multiplicative. -/
theorem complex_laws_partial {K : Type} [CommRing K] (a b c : C2 K) (r : K) :
    (a.add b).sub b = a ∧ (a.sub b).add b = a ∧ (a.addF r).subF r = a ∧
    a.addAssign b = a.add b ∧
    a.mul b = b.mul a ∧ (a.mul b).mul c = a.mul (b.mul c) ∧
    a.mul (b.add c) = (a.mul b).add (a.mul c) ∧ (a.mul b).norm = a.norm * b.norm := by
  refine ⟨?_, ?_, ?_, rfl, ?_, ?_, ?_, ?_⟩
  · ext <;> simp only [C2.add, C2.sub] <;> ring
  · ext <;> simp only [C2.add, C2.sub] <;> ring
  · ext <;> simp only [C2.addF, C2.subF]; ring
  · ext <;> simp only [C2.mul] <;> ring
  · ext <;> simp only [C2.mul] <;> ring
  · ext <;> simp only [C2.mul, C2.add] <;> ring
  · simp only [C2.mul, C2.norm]; ring

/-- The three-component numbers: all forms of addition and subtraction are mutually inverse and
multiplication is commutative, associative and distributive. -/
theorem complex3_laws {K : Type} [CommRing K] (a b c : C3 K) :
    (a.add b).sub b = a ∧ (a.addAssign b).subAssign b = a ∧ a.subAssign b = a.sub b ∧
    a.mul b = b.mul a ∧ (a.mul b).mul c = a.mul (b.mul c) ∧
    a.mul (b.add c) = (a.mul b).add (a.mul c) := by
  refine ⟨?_, ?_, rfl, ?_, ?_, ?_⟩
  · ext <;> simp only [C3.add, C3.sub] <;> ring
  · ext <;> simp only [C3.addAssign, C3.subAssign] <;> ring
  · ext <;> simp only [C3.mul] <;> ring
  · ext <;> simp only [C3.mul] <;> ring
  · ext <;> simp only [C3.mul, C3.add] <;> ring

/-- The three-component `norm()` is not multiplicative, unlike the two-component one: `(1 + i)²` has
norm 5, not 4. -/
theorem complex3_norm_not_multiplicative :
    ∃ a : C3 ℤ, (a.mul a).norm ≠ a.norm * a.norm := ⟨⟨1, 1, 0⟩, by decide⟩

/-- Non-vacuity: `i² = -1`. -/
example : (⟨0, 1⟩ : C2 ℤ).mul ⟨0, 1⟩ = ⟨-1, 0⟩ := by decide

end Feign
