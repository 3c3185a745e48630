import Verif.Integrators.Model
import Verif.Basic

/-!
# The volumetric path integrators (model)

`VolPath_Integrator::Li` (`src/integrators/volpath.cpp:26-210`) and `VolPathNonExp_Integrator::Li`
(`src/integrators/volpath_nonexp.cpp:27-226`). The second differs in sampling every light at each vertex and in keeping
track of `closure.last_event`; that is only read when `NONEXPMEDIA` is set, which it is not (`include/feign/common.h:41`),
so both are modelled by the same loop, the light samples of a vertex being part of the answers. As in `Verif/Integrators/Model.lean`, what the scene, the media, the
sampler and the materials answer in each pass of the loop is given from outside, one `VolAnswer` per pass, so the
results hold for every scene and every random number. Scalars are an arbitrary ordered field with exact arithmetic;
quotients are an arbitrary function `quot`. The timers of the ray queries are left out (`Verif/Integrators/Clock.lean`
has them for the surface integrators).
-/

namespace Feign.Integrators

variable {K M : Type} [Field K] [LinearOrder K]

/-- `EmitterEval`, `include/feign/core/closure.h:23-28`. -/
structure VRay (K : Type) where
  valid : Bool
  throughput : V3 K
  dir : V3 K

/-- What is answered at a point of a medium at which light scatters.
* `rays`: `closure.shadow_rays` after `Scene::eval_one_emitter` or `eval_all_emitters`, `src/scene.cpp:361-535`;
* `phase`: the phase function of the medium, for the direction the path arrives from;
* `wi`: the direction drawn by `Media::sample_phase`, `include/feign/media/media.h:78-83`, which returns `phase wi`
  (C47: every phase function that can be drawn from returns its own value at the direction drawn);
* `u`: the random number drawn for termination. -/
structure MediumVertex (K : Type) where
  rays : List (VRay K)
  phase : V3 K → K
  wi : V3 K
  u : K

/-- Result of `Media::sample`, `src/media/standard.cpp:44-70`: the colour it returns, and the scattering point if
`handleScatter()` (`closure.h:145-148`) then holds. -/
structure MediumSample (K : Type) where
  weight : V3 K
  scatter : Option (MediumVertex K)

/-- `MediumBoundry` of a mesh together with `cosTheta(its.toLocal(-ray.dir))` at the hit point. A missing side is
`none`. -/
structure Boundary (K M : Type) where
  cos : K
  inside : Option M
  outside : Option M

/-- A surface with a material. Like `Surface`, but the light samples carry their direction and `mat` is what
`evaluate_mat_only` writes to the albedo for the local direction of a light sample, so that a light sample taken
elsewhere can be evaluated here. -/
structure VSurface (K : Type) where
  shader : Shader
  delta : Bool
  emitted : V3 K
  rays : List (VRay K)
  mat : V3 K → V3 K
  scatter : Scatter K
  cos : K
  u : K

/-- What is hit: a mesh with `is_null`, or a surface with a material. -/
inductive Target (K : Type) where
  | null
  | surface (s : VSurface K)

/-- Answers in one pass of the loop: nothing is hit, or something is, possibly with a medium boundary. `medium m` is
the answer of medium `m` on the way there. -/
inductive VolAnswer (K M : Type) where
  | escape (env : V3 K)
  | hit (medium : M → MediumSample K) (boundary : Option (Boundary K M)) (target : Target K)

/-- The variables of the loop: `closure.shadow_rays` is `rays`, `closure.media` is `media`. -/
structure VolState (K M : Type) where
  Li : V3 K
  beta : V3 K
  closure : Closure K
  rays : List (VRay K)
  media : Option M
  bounces : ℕ

/-- The light samples of a medium vertex, `volpath.cpp:93-104`: all are weighted with the phase function at the
direction drawn. -/
def mediumNee (beta : V3 K) (v : MediumVertex K) : V3 K :=
  v.rays.foldl (fun nee r => if r.valid then nee + beta.smul (v.phase v.wi) * r.throughput else nee) 0

/-- `evaluate` of the material shader, `src/shaders/simple_material.cpp:24-59` and `wireframe_material.cpp:29-61`,
with the list of light samples it finds in the closure. -/
def vEvaluate (s : VSurface K) (c : Closure K) (rays : List (VRay K)) : Closure K × List (VRay K) :=
  let c := { c with isSpecular := s.delta }
  let c := if c.lastSpec then { c with emission := s.emitted } else c
  if c.isSpecular then ({ c with lastSpec := c.isSpecular }, rays)
  else
    let rays := if c.acceptsShadows then s.rays else rays
    match s.shader with
    | .simple => ({ c with lastSpec := c.isSpecular, acceptsShadows := true }, rays)
    | .wireframe => (c, rays)

/-- `MaterialClosure::accumulate_shadow_rays`, `src/closure/material.cpp:72-94`; it also empties the list. -/
def vAccumulate (s : VSurface K) (rays : List (VRay K)) (c : Closure K) : Closure K :=
  rays.foldl (fun c r => if r.valid then { c with nee := c.nee + r.throughput * s.mat r.dir } else c) c

/-- `sample` of the material shader. -/
def vSample (s : VSurface K) (c : Closure K) : Closure K :=
  match s.scatter with
  | .bsdf a p => { c with albedo := a, pdf := p }
  | .null => { c with albedo := white, acceptsShadows := false }

/-- Outcome of a pass: `Li` is returned, or the loop goes on. -/
inductive VolStep (K M : Type) where
  | done (Li : V3 K)
  | next (st : VolState K M)

/-- A scattering point of a medium, `volpath.cpp:70-125`; `beta` already contains the weight of the medium. The
random number is drawn after the direct light. -/
def scatterStep (quot : K → K → K) (beta : V3 K) (v : MediumVertex K) (st : VolState K M) : VolStep K M :=
  let nee := mediumNee beta v
  let c := { st.closure with
    emission := 0, nee := nee, albedo := 0, lastSpec := st.closure.isSpecular, isSpecular := false }
  let rr := min beta.maxValue 1
  let Li := st.Li + nee
  if v.u > rr then .done Li
  else .next { st with
    Li := Li, beta := divBy quot beta rr, closure := c, rays := v.rays, bounces := st.bounces + 1 }

/-- A null surface, `volpath.cpp:130-157`: `bounces` is decremented and then incremented by the loop. -/
def nullStep (beta : V3 K) (b : Option (Boundary K M)) (st : VolState K M) : VolStep K M :=
  .next { st with
    beta := beta
    media := match b with
      | none => st.media
      | some b => if b.cos ≤ 0 then b.outside else b.inside }

/-- A surface with a material, `volpath.cpp:159-206`: its boundary is not looked at. -/
def surfaceStep (quot : K → K → K) (beta : V3 K) (s : VSurface K) (st : VolState K M) : VolStep K M :=
  let c := { st.closure with emission := 0, nee := 0, albedo := 0 }
  let e := vEvaluate s c st.rays
  let c := vAccumulate s e.2 e.1
  let rr := min beta.maxValue 1
  if s.u > rr then .done (st.Li + beta * (c.emission + c.nee))
  else
    let c := vSample s c
    if c.pdf = 0 then .done (st.Li + beta * (c.emission + c.nee))
    else
      let cos := if s.cos < 0 then -s.cos else s.cos
      let cos := if c.isSpecular then 1 else cos
      .next { st with
        Li := st.Li + beta * (c.nee + c.emission)
        beta := beta * divBy quot (c.albedo.smul cos) (c.pdf * rr)
        closure := c
        rays := []
        bounces := st.bounces + 1 }

/-- `beta` after `volpath.cpp:62-66` and the scattering point, if there is one. -/
def throughMedium (medium : M → MediumSample K) (st : VolState K M) : V3 K × Option (MediumVertex K) :=
  match st.media with
  | none => (st.beta, none)
  | some m => (st.beta * (medium m).weight, (medium m).scatter)

/-- One pass of the loop, `volpath.cpp:49-207`; a negative `max_bounces` is the bound 0. -/
def volStep (quot : K → K → K) (maxBounces : ℕ) (a : VolAnswer K M) (st : VolState K M) : VolStep K M :=
  if st.bounces < maxBounces then
    if isZero st.beta then .done st.Li
    else match a with
      | .escape env => .done (st.Li + st.beta * env)
      | .hit medium b t =>
        match throughMedium medium st with
        | (beta, some v) => scatterStep quot beta v st
        | (beta, none) =>
          match t with
          | .null => nullStep beta b st
          | .surface s => surfaceStep quot beta s st
  else .done st.Li

/-- The loop from pass `i` on; `none`: still running after `fuel` passes. -/
def volLoop (quot : K → K → K) (maxBounces : ℕ) (ans : ℕ → VolAnswer K M) : ℕ → ℕ → VolState K M → Option (V3 K)
  | 0, _, _ => none
  | fuel + 1, i, st =>
    match volStep quot maxBounces (ans i) st with
    | .done Li => some Li
    | .next st => volLoop quot maxBounces ans fuel (i + 1) st

/-- `Li`; `env` is the medium of `scene->env_medium_node`, if there is one. -/
def volLi (quot : K → K → K) (maxBounces : ℕ) (env : Option M) (ans : ℕ → VolAnswer K M) (fuel : ℕ) : Option (V3 K) :=
  volLoop quot maxBounces ans fuel 0 ⟨0, white, Closure.fresh, [], env, 0⟩

end Feign.Integrators
