import Verif.Math.VecReal
import Verif.Shapes.Mesh

/-!
# What the sphere shader is meant to do (specification)

After the comments in `include/feign/core/shader.h:165-169` and `src/shaders/interp_verts_to_sphere.cpp:50-53`, over the
reals.
-/

namespace Feign.Shaders

open Feign.Shapes

/-- The point of the sphere around `c` with radius `r` that `p` is projected to. -/
noncomputable def onSphere (c : V3 ℝ) (r : ℝ) (p : V3 ℝ) : V3 ℝ := c + (p - c).smul (r / (p - c).norm)

/-- The point `t` of the way from `p` to its projection. -/
noncomputable def toSphere (c : V3 ℝ) (r t : ℝ) (p : V3 ℝ) : V3 ℝ := p.smul (1 - t) + (onSphere c r p).smul t

open Classical in
/-- `n` with length one; upwards if `n` is zero. -/
noncomputable def direction (n : V3 ℝ) : V3 ℝ := if n = 0 then ⟨0, 1, 0⟩ else n.smul (1 / n.norm)

/-- Unit normal of the face with corners at `pos`. -/
noncomputable def faceNormal (pos : ℕ → V3 ℝ) (f : Face) : V3 ℝ :=
  direction ((pos (f.v 1) - pos (f.v 0)).cross (pos (f.v 2) - pos (f.v 0)))

/-- How many corners of the face use normal `j`. -/
def uses (f : Face) (j : ℕ) : ℕ :=
  (if f.n 0 = j then 1 else 0) + (if f.n 1 = j then 1 else 0) + (if f.n 2 = j then 1 else 0)

/-- Sum of the unit normals of the faces that use normal `j`. -/
noncomputable def normalSum (pos : ℕ → V3 ℝ) : List Face → ℕ → V3 ℝ
  | [], _ => 0
  | f :: fs, j => (faceNormal pos f).smul (uses f j) + normalSum pos fs j

end Feign.Shaders
