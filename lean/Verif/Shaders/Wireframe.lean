import Verif.Math.Vec

/-!
# Wireframe material (model)

`src/shaders/wireframe_material.cpp`. Exact arithmetic in an ordered field.
-/

namespace Feign.Shaders

variable {K α : Type} [Field K] [LinearOrder K]

/-- `WireframeMaterialShader::choose_bsdf`, `src/shaders/wireframe_material.cpp:69-82`, for the weights `its.bary`.
`sample`, `evaluate` and `evaluate_mat_only` (`:22-67`) all use the material chosen here. -/
def chooseBsdf (threshold : K) (wire mesh : α) (bary : V3 K) : α :=
  let m := bary.x
  let m := if bary.y < m then bary.y else m
  let m := if bary.z < m then bary.z else m
  if m < threshold then wire else mesh

/-- `its.bary` after a hit on a mesh, `src/shapes/objmesh.cpp:418-420`. -/
def meshBary (u v : K) : V3 K := ⟨1 - u - v, u, v⟩

/-- `its.bary` after a hit on a distance function: `SDFAccel::intersect` (`src/accel/ray_sdf.cpp:121-181`) does not
write it, so it has the value of the default constructor of `Vec3` (`include/feign/math/vector.h:312-317`). -/
def sdfBary : V3 K := ⟨0, 0, 0⟩

end Feign.Shaders
