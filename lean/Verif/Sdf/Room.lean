import Verif.Sdf.Model
import Verif.Integrators.Lit

/-!
# Scenes of distance functions as the path integrator sees them (model)

The scene of `Integrators/Room` for a list of distance functions: what a ray hits is the answer of `SDFAccel::intersect`
(`src/accel/ray_sdf.cpp:121-181`), which looks at neither end of the ray's interval. No shape is null, so
`Scene::intersect_non_null` (`src/scene.cpp:181-202`) and `Scene::intersect_transmittance` (`:212-335`) each ask once.
-/

namespace Feign.Sdf

open Integrators

/-- What the material and the light of a shape say: kind, colour, the two indices of refraction, and what
`Scene::accumulate_emission` (`src/scene.cpp:674-690`) adds for a ray with this direction in the local frame. -/
structure Look where
  material : Material
  albedo : V3 ℝ
  intIor : ℝ
  extIor : ℝ
  emitted : V3 ℝ → V3 ℝ

/-- What a ray hits. A failed assertion ends the program; it is not a hit here (`march_sound` excludes it for well-formed
shapes). -/
noncomputable def hitOf (fs : List (V3 ℝ → Option ℝ)) (box : Option (B3 ℝ)) (r : Integrators.Ray) : Option Hit :=
  match intersect fs box ⟨r.1, r.2, Ext.fin eps, ⊤⟩ with
  | .ok (.hit h) => some h
  | _ => none

/-- `its.s_frame`, `src/accel/ray_sdf.cpp:171-172`. The frame of a unit vector is always defined; the other value is not
used. -/
noncomputable def frameOf (n : V3 ℝ) : Frame := (Frame.ofNormal n).getD ⟨0, 0, n⟩

/-- The scene. `looks i` belongs to shape `i`, `env` is `Scene::env_emission` (`src/scene.cpp:692-707`), which depends
on the direction only. The values where nothing is hit are not used. -/
noncomputable def room (fs : List (V3 ℝ → Option ℝ)) (box : Option (B3 ℝ)) (looks : ℕ → Look) (env : V3 ℝ → V3 ℝ) :
    Room where
  eps := eps
  seen r := (hitOf fs box r).isSome
  env r := env r.2
  point r := ((hitOf fs box r).map (·.p)).getD r.1
  frame r := ((hitOf fs box r).map fun h => frameOf h.normal).getD ⟨⟨1, 0, 0⟩, ⟨0, 1, 0⟩, ⟨0, 0, 1⟩⟩
  material r := ((hitOf fs box r).map fun h => (looks h.shape).material).getD .diffuse
  albedo r := ((hitOf fs box r).map fun h => (looks h.shape).albedo).getD 0
  intIor r := ((hitOf fs box r).map fun h => (looks h.shape).intIor).getD 1
  extIor r := ((hitOf fs box r).map fun h => (looks h.shape).extIor).getD 1
  emitted r := ((hitOf fs box r).map fun h =>
    (looks h.shape).emitted ((frameOf h.normal).toLocal r.2)).getD 0
  lights _ ω := ([], ω)

/-- Whether a shadow ray is blocked: `Scene::intersect_transmittance` without null shapes, `src/scene.cpp:230-314`. -/
noncomputable def blockedBy (fs : List (V3 ℝ → Option ℝ)) (box : Option (B3 ℝ)) : Blocked :=
  fun p d _ => (hitOf fs box (p, d)).isSome

/-- The scene with point lights. -/
noncomputable def litRoom (fs : List (V3 ℝ → Option ℝ)) (box : Option (B3 ℝ)) (looks : ℕ → Look) (env : V3 ℝ → V3 ℝ)
    (lamps : List Lamp) : Room :=
  (room fs box looks env).lit lamps (blockedBy fs box)

end Feign.Sdf
