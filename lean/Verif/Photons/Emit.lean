import Verif.Lights.Emitters
import Verif.Sampling.LightSelect
import Verif.Photons.Scatter
import Mathlib.Algebra.Order.Archimedean.Real.Basic

/-!
# Where photon paths start (model)

The first half of the loop of `PhotonMapping::scatter_photons` (`src/integrators/photon.cpp:69-91`): a light is chosen,
asked for a ray, and the power it returns is divided by both probabilities. Over the reals with exact arithmetic.
-/

namespace Feign.Photons

open Feign.Lights Feign.Sampling Feign.Warp

/-- A photon path before its first bounce. -/
structure Start where
  pos : V3 ℝ
  dir : V3 ℝ
  power : V3 ℝ

/-- `sample_ray`: the ray, the returned power and the value written to `*pdf`. Point light
`src/emitters/point.cpp:51-61` (its `I` is the light's power, line 59); every other light throws: `spot.cpp:57-63`,
`directional.cpp:39-45`, `mesh.cpp:88-94`, `directional_mesh.cpp:72-78`, `environment.cpp:32-39`. -/
noncomputable def sampleRay (dirSample : V2 ℝ) : Light → Res (Start × ℝ)
  | .point I pos =>
    .ok (⟨pos, uniSph dirSample, I.smul (1 / (4 * Real.pi))⟩, uniSphPdf (uniSph dirSample))
  | .spot .. => .throw "spot emitter sample ray"
  | .directional .. => .throw "emitter directional"
  | .mesh .. => .throw "mesh emitter sample ray"
  | .dirMesh .. => .throw "emitter directional"
  | .environment .. => .throw "emitter environment sample ray"

/-- `photon.cpp:76-91`: `u` is the number that chooses the light, `dirSample` the pair for the direction. -/
noncomputable def launch (ls : List Light) (u : ℝ) (dirSample : V2 ℝ) : Res Start := do
  let (i, pdf) ← chooseEmitterAny (ls.map fun l => ⟨l.meshNode⟩) u
  let l ← getAt ls i
  let (s, q) ← sampleRay dirSample l
  if pdf * q = 0 then .ub "division by zero"
  else pure { s with power := ⟨s.power.x / (pdf * q), s.power.y / (pdf * q), s.power.z / (pdf * q)⟩ }

end Feign.Photons
