import Verif.Integrators.Clock
import Verif.Math.Vec
import Mathlib.Algebra.Order.Ring.Abs

/-!
# Surface integrators (model)

`Li` of the path, Whitted, ambient-occlusion and debug integrators, with their timers. What the scene, the
sampler and the materials answer at each vertex is given from outside, one `Answer` per vertex, so the results
hold for every scene, every random number and every material. Scalars are an arbitrary ordered field with exact
arithmetic; a quotient of scalars is an arbitrary function `quot` that the theorems constrain where needed, so no
value is invented for a division by zero.
-/

namespace Feign.Integrators

variable {K : Type} [Field K] [LinearOrder K]

/-- `Vec3::isZero`, `include/feign/math/vector.h:789-794`. -/
def isZero (v : V3 K) : Bool :=
  decide (|v.x| < 1 / 10000) && decide (|v.y| < 1 / 10000) && decide (|v.z| < 1 / 10000)

/-- `Color3f(1.f)`. -/
def white : V3 K := ⟨1, 1, 1⟩

/-- `operator/(T c)`, `vector.h:392-399`. -/
def divBy (quot : K → K → K) (v : V3 K) (c : K) : V3 K := ⟨quot v.x c, quot v.y c, quot v.z c⟩

/-- The two material shaders, `src/shaders/simple_material.cpp` and `src/shaders/wireframe_material.cpp`. -/
inductive Shader where
  | simple | wireframe
  deriving DecidableEq, Repr

/-- What sampling the material does: `null` is `NullBSDF::sample` (`src/bsdfs/null.cpp:18-29`), which leaves the
density alone and switches direct light off; every other material writes an albedo and a density. -/
inductive Scatter (K : Type) where
  | bsdf (albedo : V3 K) (pdf : K)
  | null

/-- An entry of `MaterialClosure::shadow_rays` together with the albedo that `evaluate_mat_only` yields for it. -/
structure ShadowRay (K : Type) where
  valid : Bool
  throughput : V3 K
  albedo : V3 K

/-- What the scene, the material and the sampler answer at a vertex.
* `delta`: `isDelta()` of the material in use at the hit point;
* `emitted`: result of `Scene::accumulate_emission`, `src/scene.cpp:674-690`;
* `shadowRays`: result of `Scene::eval_one_emitter`, `src/scene.cpp:445-535`, if it is called, and
  `shadowQueries` the ray queries it makes;
* `cos`: `its.s_frame.n % ray.dir` for the sampled direction;
* `u`: the random number drawn for termination. -/
structure Surface (K : Type) where
  shader : Shader
  delta : Bool
  emitted : V3 K
  shadowRays : List (ShadowRay K)
  shadowQueries : ℕ
  scatter : Scatter K
  cos : K
  u : K

/-- Result of `Scene::intersect_non_null` (`queries` ray queries) and what follows from it; `env` is
`Scene::env_emission`, `src/scene.cpp:692-707`. -/
inductive Answer (K : Type) where
  | escape (queries : ℕ) (env : V3 K)
  | surface (queries : ℕ) (s : Surface K)

/-- The fields of `MaterialClosure` the surface integrators use, `include/feign/core/closure.h`. -/
structure Closure (K : Type) where
  emission : V3 K
  nee : V3 K
  albedo : V3 K
  pdf : K
  isSpecular : Bool
  lastSpec : Bool
  acceptsShadows : Bool

/-- The constructors with `last_bounce_specular = true`, `src/closure/material.cpp:20-70`. -/
def Closure.fresh : Closure K := ⟨0, 0, 0, 1, true, true, true⟩

/-- `SimpleMaterialShader::evaluate` (`simple_material.cpp:24-59`) and `WireframeMaterialShader::evaluate`
(`wireframe_material.cpp:29-61`), for `sample_all_emitters = false`; the second component is the list of shadow
rays, and the third the number of ray queries. -/
def evaluate (s : Surface K) (c : Closure K) : Closure K × List (ShadowRay K) × ℕ :=
  let c := { c with isSpecular := s.delta }
  let c := if c.lastSpec then { c with emission := s.emitted } else c
  if c.isSpecular then ({ c with lastSpec := c.isSpecular }, [], 0)
  else
    let rays := if c.acceptsShadows then (s.shadowRays, s.shadowQueries) else ([], 0)
    match s.shader with
    | .simple => ({ c with lastSpec := c.isSpecular, acceptsShadows := true }, rays)
    | .wireframe => (c, rays)

/-- `MaterialClosure::accumulate_shadow_rays`, `material.cpp:72-94`. -/
def accumulate (rays : List (ShadowRay K)) (c : Closure K) : Closure K :=
  rays.foldl (fun c r => if r.valid then { c with nee := c.nee + r.throughput * r.albedo } else c) c

/-- `sample` of the shader, `simple_material.cpp:18-21`, `wireframe_material.cpp:22-26`. -/
def sample (s : Surface K) (c : Closure K) : Closure K :=
  match s.scatter with
  | .bsdf a p => { c with albedo := a, pdf := p }
  | .null => { c with albedo := white, acceptsShadows := false }

/-- The variables of the loop of the path integrator. -/
structure PathState (K : Type) where
  Li : V3 K
  beta : V3 K
  closure : Closure K

/-- The loop of `Path_Unidirectional_Integrator::Li`, `src/integrators/path_unidir.cpp:43-142`, with `n` bounces
left, at vertex `i`. -/
def pathLoop (quot : K → K → K) (ans : ℕ → Answer K) : ℕ → ℕ → PathState K → Clk (V3 K)
  | 0, _, st => pure st.Li
  | n + 1, i, st =>
    if isZero st.beta then pure st.Li
    else do
      startClock .intersect
      match ans i with
      | .escape q env => do
        embreeQueries q
        endClock .intersect
        pure (st.Li + st.beta * env)
      | .surface q s => do
        embreeQueries q
        startTwoStopOne .shader .surface .intersect
        let c := { st.closure with emission := 0, nee := 0, albedo := 0 }
        startClock .surfaceEval
        let e := evaluate s c
        embreeQueries e.2.2
        startStopOne .nee .surfaceEval
        let c := accumulate e.2.1 e.1
        startOneStopThree .rr .nee .surface .shader
        let rr := min st.beta.maxValue 1
        if s.u > rr then do
          endClock .rr
          pure (st.Li + st.beta * (c.emission + c.nee))
        else do
          startThreeStopOne .shader .surface .surfaceSample .rr
          let c := sample s c
          if c.pdf = 0 then do
            stopThree .surfaceSample .surface .shader
            pure (st.Li + st.beta * (c.emission + c.nee))
          else do
            startOneStopThree .eval .surfaceSample .surface .shader
            let cos := if s.cos < 0 then -s.cos else s.cos
            let cos := if c.isSpecular then 1 else cos
            endClock .eval
            pathLoop quot ans n (i + 1)
              ⟨st.Li + st.beta * (c.nee + c.emission),
                st.beta * divBy quot (c.albedo.smul cos) (c.pdf * rr), c⟩

/-- `Path_Unidirectional_Integrator::Li`, `path_unidir.cpp:28-145`. -/
def pathLi (quot : K → K → K) (maxBounces : ℕ) (ans : ℕ → Answer K) : Clk (V3 K) :=
  pathLoop quot ans maxBounces 0 ⟨0, white, Closure.fresh⟩

/-- `WhittedIntegrator::Li`, `src/integrators/whitted.cpp:31-128`. The recursion has no depth limit: `fuel` bounds
the number of nested calls looked at, `none` means still running. Every call makes a fresh closure. The division
of one by the continuation probability `0.95f` is exact. -/
def whittedLi (ans : ℕ → Answer K) : ℕ → ℕ → Clk (Option (V3 K))
  | 0, _ => pure none
  | fuel + 1, i => do
    startClock .intersect
    match ans i with
    | .escape q env => do
      embreeQueries q
      endClock .intersect
      pure (some env)
    | .surface q s => do
      embreeQueries q
      startTwoStopOne .shader .surface .intersect
      startClock .surfaceEval
      let e := evaluate s Closure.fresh
      embreeQueries e.2.2
      startStopOne .nee .surfaceEval
      let c := accumulate e.2.1 e.1
      endClock .nee
      if c.isSpecular then do
        startClock .surfaceSample
        let c := sample s c
        startOneStopThree .rr .surfaceSample .surface .shader
        if s.u > 19 / 20 then do
          endClock .rr
          pure (some 0)
        else do
          startStopOne .eval .rr
          let beta := c.albedo.smul (1 / (19 / 20))
          endClock .eval
          if isZero beta then pure (some (c.nee + c.emission))
          else do
            let recur ← whittedLi ans fuel (i + 1)
            match recur with
            | none => pure none
            | some v => pure (some (beta * v + c.nee + c.emission))
      else do
        stopTwo .surface .shader
        pure (some (c.emission + c.nee + c.emission))

/-- `Ambient_Occlusion_Integrator::Li`, `src/integrators/amb_occ.cpp:33-77`: `camera` is the answer of
`intersect_non_null` for the camera ray and `occluded` that for the occlusion ray leaving a given hit. -/
def ambOccLi {Its : Type} (qCamera qShadow : ℕ) (camera : Option Its) (occluded : Its → Bool) : Clk (V3 K) := do
  startClock .intersect
  embreeQueries qCamera
  match camera with
  | none => do
    endClock .intersect
    pure 0
  | some its => do
    startStopOne .eval .intersect
    embreeQueries qShadow
    if ! occluded its then do
      endClock .eval
      pure white
    else do
      endClock .eval
      pure 0

/-- `NormalIntegrator::Li`, `src/debug_integrators/normal.cpp:30-59`: an early return in the middle skips the
stop of the timer. -/
def normalLi (q : ℕ) (hit : Option (V3 K)) : Clk (V3 K) := do
  startClock .intersect
  embreeQueries q
  match hit with
  | none => do
    endClock .intersect
    pure 0
  | some n => do
    startStopOne .eval .intersect
    let a := n.absV
    if a.x < 0 ∨ a.y < 0 ∨ a.z < 0 then pure 0
    else do
      endClock .eval
      pure ⟨a.x, a.y, a.z⟩

/-- `NiceNormalIntegrator::Li`, `src/debug_integrators/nice_normal.cpp:30-54`. -/
def niceNormalLi (q : ℕ) (hit : Option (V3 K)) : Clk (V3 K) := do
  startClock .intersect
  embreeQueries q
  match hit with
  | none => do
    endClock .intersect
    pure 0
  | some n => do
    startStopOne .eval .intersect
    let a := (n + ⟨1, 1, 1⟩).smul (1 / 2)
    endClock .eval
    pure ⟨a.x, a.y, a.z⟩

/-- `CosineTermIntegrator::Li`, `src/debug_integrators/cosine_term.cpp:33-59`: minus two where the ray escapes. -/
def cosineLi (q : ℕ) (dir : V3 K) (hit : Option (V3 K)) : Clk (V3 K) := do
  startClock .intersect
  embreeQueries q
  match hit with
  | none => do
    endClock .intersect
    pure ⟨-2, -2, -2⟩
  | some n => do
    startStopOne .eval .intersect
    let c := n.dot dir
    endClock .eval
    pure ⟨c, c, c⟩

/-- `BarycentricIntegrator::Li`, `src/debug_integrators/barycentric.cpp:38-69`; `threshold` is `0.01`. -/
def barycentricLi (q : ℕ) (hit : Option (V3 K)) : Clk (V3 K) := do
  startClock .intersect
  embreeQueries q
  match hit with
  | none => do
    endClock .intersect
    pure ⟨-2, -2, -2⟩
  | some b => do
    startStopOne .eval .intersect
    let m := b.x
    let m := if b.y < m then b.y else m
    let m := if b.z < m then b.z else m
    endClock .eval
    if m < 1 / 100 then pure white else pure 0

/-- The timers of one pass of the sample loop of `Integrator::render`, `src/integrators/integrator.cpp:54-103`,
around the radiance computation `li`. -/
def renderSample {α : Type} (li : Clk α) : Clk α := do
  startClock .cameraRay
  startStopOne .integrator .cameraRay
  let v ← li
  startStopOne .filter .integrator
  endClock .filter
  pure v

/-- The timers of `Integrator::render`, `integrator.cpp:39-130`: all samples in order, then the pass that divides
by the filter weights (`:108-129`). -/
def renderTimers {α : Type} : List (Clk α) → Clk (List α)
  | [] => do
    startClock .filter
    endClock .filter
    pure []
  | li :: rest => do
    let v ← renderSample li
    let vs ← renderTimers rest
    pure (v :: vs)

end Feign.Integrators
