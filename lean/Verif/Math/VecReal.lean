import Verif.Math.Matrix
import Mathlib.Analysis.SpecialFunctions.Trigonometric.Basic
import Mathlib.Analysis.SpecialFunctions.Sqrt

/-!
# Vector operations with square roots, and rotations (model)

Over the reals. Division by a zero length has no finite result (`none`).
-/

namespace Feign

namespace V3

/-- `norm()`, `include/feign/math/vector.h:548-553`. -/
noncomputable def norm (v : V3 ℝ) : ℝ := Real.sqrt (v.x * v.x + v.y * v.y + v.z * v.z)

open Classical in
/-- `normalized()`, `vector.h:555-563`; `none` for the zero vector, where the code divides by zero. -/
noncomputable def normalized (v : V3 ℝ) : Option (V3 ℝ) :=
  if v.norm = 0 then none else some ⟨v.x / v.norm, v.y / v.norm, v.z / v.norm⟩

end V3

/-- `Matrix4::rotate(angle, vec)`, `include/feign/math/vector.h:1473-1512`; the angle is in degrees. -/
noncomputable def M4.rotate (angle : ℝ) (v : V3 ℝ) : Option (M4 ℝ) :=
  v.normalized.map fun u =>
    M4.rotateCS (Real.cos (angle * Real.pi / 180)) (Real.sin (angle * Real.pi / 180)) u

end Feign
