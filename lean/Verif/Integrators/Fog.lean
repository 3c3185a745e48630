import Verif.Integrators.Mist
import Verif.Integrators.Room
import Verif.Media.Model
import Verif.Media.Phase
import Verif.Math.VecReal

/-!
# Scenes with homogeneous media (model)

The scene of `Integrators/Mist` for rays given by origin and direction, surfaces as in `Integrators/Room`, and media with
a constant density, the analytic sampler of distances, the homogeneous transmittance and the isotropic phase function
(`Media/Model`, `Media/Phase`). What a ray hits is given from outside, as are the light samples. Every ray begins at
`Epsilon` (`src/integrators/volpath.cpp:106-110`, `:149-153`, `:193-197`); the model takes this for the camera's rays too.
The medium's transform is the identity.
-/

namespace Feign.Integrators

open Sampling Bsdf Media

/-- A medium of constant density: the density, and the coefficients of absorption and scattering
(`include/feign/media/media.h:94-96`, `density_func.h:39-73`). -/
structure Fluid where
  density : V3 ℝ
  abs : V3 ℝ
  sca : V3 ℝ

/-- `sigma_t`, `src/media/standard.cpp:31`. -/
def Fluid.sigmaT (f : Fluid) : V3 ℝ := f.abs + f.sca

/-- `density->D(p)`, the same at every point. -/
noncomputable def Fluid.D (f : Fluid) : V3 ℝ := Density.D f.sigmaT 0 (.constant f.density)

open Classical in
/-- `Media::sample` (`standard.cpp:44-70`) for a ray from `near` to `dist`: a medium that scatters draws one number
(`src/media/sampling/analytic.cpp:23`), one that does not draws none. The last case does not occur for coefficients that
are not negative, see `free_scatter` and `free_absorb`. -/
noncomputable def Fluid.free (f : Fluid) (near dist : ℝ) (ω : Stream) : Flight × Stream :=
  match sampleMedium .analytical .homogenous (fun _ => f.D) f.abs f.sca near dist [(next ω).1] 0 with
  | .ok (some e) => ((e.weight, decide (e.scatters dist), e.sampledT.untopD 0), if f.sca.eqOp 0 then ω else (next ω).2)
  | _ => ((white, false, 0), ω)

/-- A scene with media. `room` gives surfaces and environment; its light samples are not used. `dist` is `its.t`, `null`,
`boundary` are those of the surface that is hit, `glints` and `motes` the light samples at surfaces and in media. -/
structure Fog (M : Type) where
  room : Room
  dist : Ray → ℝ
  fluid : M → Fluid
  null : Ray → Bool
  boundary : Ray → Option (Boundary ℝ M)
  glints : Option M → Ray → Stream → List (VRay ℝ) × Stream
  motes : M → Ray → ℝ → Stream → List (VRay ℝ) × Stream

variable {M : Type}

/-- `wi.normalized()`, `volpath.cpp:107`. The directions drawn are not zero (`uniSph_ne`), so the first case does not
occur. -/
noncomputable def heading (v : V3 ℝ) : V3 ℝ :=
  match v.normalized with
  | none => v
  | some u => u

/-- `IsotropicPhase::sample`, `include/feign/media/phase.h:41-47`, with two numbers of the sampler
(`volpath.cpp:91`): the direction. It does not depend on the medium or the ray. -/
noncomputable def isoTurn (ω : Stream) : V3 ℝ × Stream := (Warp.uniSph ⟨(next2 ω).1.1, (next2 ω).1.2⟩, (next2 ω).2)

/-- The scene as the volumetric path integrator sees it. -/
noncomputable def Fog.mist (S : Fog M) : Mist Ray M where
  escapes r := !S.room.seen r
  env := S.room.env
  free m r ω := (S.fluid m).free S.room.eps (S.dist r) ω
  inside := S.motes
  turn _ _ ω := isoTurn ω
  phase _ _ _ := 1 / (4 * Real.pi)
  onward r t v := (r.1 + r.2.smul t, heading v)
  null := S.null
  boundary := S.boundary
  past r := (S.room.point r, r.2)
  delta r := (S.room.material r).isDelta
  emitted := S.room.emitted
  lights := S.glints
  mat r := diffuseEval (S.room.albedo r) (S.room.wi r)
  scatter := S.room.scatter

end Feign.Integrators
