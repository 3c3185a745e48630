import Verif.Integrators.VolPath
import Verif.Basic

/-!
# The transmittance view (model)

`VolPathTrans_Integrator::Li`, `src/integrators/volpath_trans.cpp:28-72`. Scalars are an arbitrary ordered field with
exact arithmetic.
-/

namespace Feign.Integrators

variable {K M : Type} [Field K] [LinearOrder K]

/-- A hit of `Scene::intersect_full`: distance, and the inside of the medium boundary of the mesh. `boundary = none`: the
mesh has no boundary; `some none`: it has one without inside; `some (some none)`: the node of the inside holds no
medium. -/
structure TransHit (K M : Type) where
  t : K
  boundary : Option (Option (Option M))

/-- `VolPathTrans_Integrator::Li`. `hit s` is the answer of `intersect_full` for the ray from distance `s` on the camera
ray (the accelerators leave `its` alone when nothing is hit, `src/accel/ray_embree.cpp:74-101`); `trans m s near far` is
`Media::transmittance` of medium `m` from `near` to `far` on that ray. -/
def transLi (eps : K) (hit : K → Option (TransHit K M)) (trans : M → K → K → K → V3 K) : Res (V3 K) :=
  match hit 0 with
  | none => .ok white
  | some h =>
    match h.boundary with
    | none => .ok white
    | some none => .ub "inside of the boundary is null"
    | some (some none) => .ok white
    | some (some (some m)) =>
      match hit h.t with
      | some h2 => .ok (trans m h.t eps h2.t)
      | none => .ok (trans m h.t eps h.t)

end Feign.Integrators
