import Verif.Integrators.Room
import Verif.Lights.Nee

/-!
# Scenes lit by point lights (model)

The light samples of `Integrators/Room` for a list of point lights, as `Scene::eval_one_emitter`
(`src/scene.cpp:445-535`, modelled in `Lights/Nee`) takes them: one number chooses the light
(`scene.cpp:634-661`), two more are drawn for the light itself (`scene.cpp:460-462`), which a point light does not use.
There are no media, so shadow rays are either blocked or not attenuated.
-/

namespace Feign.Integrators

open Sampling Bsdf Lights

/-- A point light: intensity and position (`include/feign/core/emitter.h`, `PointEmitter`). -/
abbrev Lamp := V3 ℝ × V3 ℝ

/-- Whether a shadow ray from a point in a direction up to a distance is blocked. -/
abbrev Blocked := V3 ℝ → V3 ℝ → ℝ → Bool

/-- The entry of `shadow_rays` with the material's value (`src/closure/material.cpp:79-84`). -/
noncomputable def shadowRay (albedo wi : V3 ℝ) (e : LightEval) : ShadowRay ℝ :=
  ⟨(toEntry e).valid, (toEntry e).throughput, diffuseEval albedo wi (toEntry e).dir⟩

/-- The queries of the point that a ray hits. -/
def queries (blocked : Blocked) (p : V3 ℝ) : Lights.World :=
  ⟨fun _ => none, fun d far => (blocked p d far, ⟨1, 1, 1⟩), false⟩

/-- `eval_one_emitter` at the hit of a ray. Without lights nothing is drawn and the one entry stays invalid
(`scene.cpp:447-456`). An outcome that is not defined (only for choice numbers outside `[0, 1)`) gives no entry. -/
noncomputable def lampLight (S : Room) (lamps : List Lamp) (blocked : Blocked) (r : Ray) (ω : Stream) :
    List (ShadowRay ℝ) × Stream :=
  if lamps.length = 0 then ([⟨false, 0, 0⟩], ω)
  else
    match evalOne (queries blocked (S.point r)) ⟨S.point r, (S.frame r).n, S.frame r, 0⟩ false
        (lamps.map fun l => .point l.1 l.2) (next ω).1
        ⟨(next2 (next ω).2).1.1, (next2 (next ω).2).1.2⟩ with
    | .ok es => (es.map (shadowRay (S.albedo r) (S.wi r)), (next2 (next ω).2).2)
    | _ => ([], (next2 (next ω).2).2)

/-- The scene with these lights. -/
noncomputable def Room.lit (S : Room) (lamps : List Lamp) (blocked : Blocked) : Room :=
  { S with lights := lampLight S lamps blocked }

end Feign.Integrators
