import Verif.Sdf.Room
import Verif.Integrators.SkyProps
import Verif.Integrators.DebugProps

/-!
# Scenes of distance functions as the other views see them (model)

Ambient occlusion and the debug views ask `Scene::intersect_non_null` (`src/scene.cpp:181-202`), which asks the accelerator
once because no shape is null.
-/

namespace Feign.Sdf

open Integrators

/-- What ambient occlusion asks, `src/integrators/amb_occ.cpp:44, 57-63`. The geometric frame is the one around the normal of
the distance functions, `src/accel/ray_sdf.cpp:171`. The values where nothing is hit are not used. -/
noncomputable def skyOf (fs : List (V3 ℝ → Option ℝ)) (box : Option (B3 ℝ)) : Sky where
  seen r := (hitOf fs box r).isSome
  point r := ((hitOf fs box r).map (·.p)).getD r.1
  geom r := ((hitOf fs box r).map fun h => frameOf h.normal).getD ⟨⟨1, 0, 0⟩, ⟨0, 1, 0⟩, ⟨0, 0, 1⟩⟩
  blocked r := (hitOf fs box r).isSome

/-- What the debug views ask (`src/debug_integrators/normal.cpp:39`, `nice_normal.cpp:39`, `cosine_term.cpp:42`): the
shading frame is the geometric one, `src/accel/ray_sdf.cpp:172`. The accelerator leaves the weights of the corners of a triangle
as they were constructed, see `sdfBary`. -/
noncomputable def seenIn (fs : List (V3 ℝ → Option ℝ)) (box : Option (B3 ℝ)) : Seen Integrators.Ray where
  hit r := (hitOf fs box r).isSome
  normal r := ((hitOf fs box r).map fun h => (frameOf h.normal).n).getD ⟨0, 0, 1⟩
  bary _ := Shaders.sdfBary

end Feign.Sdf
