import Verif.Integrators.VolPath

/-!
# The sandbox integrator (model)

`Sandbox_Integrator::Li`, `src/debug_integrators/sandbox.cpp:28-192`, which scenes can choose with the type `sandbox`
(`src/api/api.cpp:663-667`). As for the other integrators, the answers of the scene, the media, the sampler and the
materials are given from outside. The loop runs once (`sandbox.cpp:44`), so what it stores for a next pass is left out.
-/

namespace Feign.Integrators

variable {K M : Type} [Field K] [LinearOrder K]

/-- Answers for a camera ray, `sandbox.cpp:52-70`: nothing is hit, a surface with a material, or a mesh with `is_null`.
For the latter `boundary` is the pointer `boundry`, its `inside` and the `media` of that, each of which can be missing;
`medium` is the answer of a medium on the way to what comes next, and `beyond` what is hit next. -/
inductive FirstHit (K M : Type) where
  | nothing
  | surface (s : VSurface K)
  | null (boundary : Option (Option (Option M))) (medium : M → MediumSample K) (beyond : Option (Target K))

/-- The light added at a surface, `sandbox.cpp:145-188`. -/
def sandboxSurface (beta : V3 K) (s : VSurface K) : V3 K :=
  let e := vEvaluate s { Closure.fresh with emission := 0, nee := 0, albedo := 0 } []
  let c := vAccumulate s e.2 e.1
  let rr := min beta.maxValue 1
  if s.u > rr then beta * (c.emission + c.nee)
  else
    let c := vSample s c
    if c.pdf = 0 then beta * (c.emission + c.nee)
    else beta * (c.nee + c.emission)

/-- `Sandbox_Integrator::Li`, `sandbox.cpp:28-192`. The test of `beta` at `:46` is left out: `beta` is one. A null
pointer that is followed (`:61`) is undefined. -/
def sandboxLi : FirstHit K M → Res (V3 K)
  | .nothing => .ok 0
  | .surface s => .ok (0 + sandboxSurface white s)
  | .null none _ _ => .ub "null mesh without boundary"
  | .null (some none) _ _ => .ub "boundary without a medium inside"
  | .null (some (some none)) _ _ => .ok 0
  | .null (some (some (some m))) medium beyond =>
    let beta := white * (medium m).weight
    match (medium m).scatter with
    | some v => .ok (0 + mediumNee beta v)
    | none =>
      match beyond with
      | none => .ok 0
      | some .null => .ok 0
      | some (.surface s) => .ok (0 + sandboxSurface beta s)

end Feign.Integrators
