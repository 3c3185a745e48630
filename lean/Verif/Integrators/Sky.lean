import Verif.Integrators.Model
import Verif.Integrators.Room

/-!
# Ambient occlusion with its random numbers (model)

`ambOccLi` (in `Integrators/Model`) takes the two answers of the scene. Here they come from a scene and a stream of
random numbers.
-/

namespace Feign.Integrators

open Sampling Warp

/-- What the integrator asks of the scene: whether a camera ray hits a surface (`amb_occ.cpp:44`), the point and the
geometric frame of the hit (`:57-58`), and whether a ray that starts `Epsilon` away from a point hits anything (`:63`).
`its.toWorldGeom` uses the geometric frame, `src/misc/intersection.cpp:41-44`. -/
structure Sky where
  seen : Ray → Bool
  point : Ray → V3 ℝ
  geom : Ray → Frame
  blocked : Ray → Bool

/-- The occlusion ray for a pair of random numbers, `src/integrators/amb_occ.cpp:53-60`. -/
noncomputable def Sky.shadowRay (S : Sky) (r : Ray) (s : ℝ × ℝ) : Ray :=
  (S.point r, (S.geom r).toWorld (cosHemi ⟨s.1, s.2⟩))

/-- `Ambient_Occlusion_Integrator::Li`, `src/integrators/amb_occ.cpp:33-77`, for the random numbers `ω`. -/
noncomputable def Sky.Li (S : Sky) (qCamera qShadow : ℕ) (r : Ray) (ω : Stream) : Clk (V3 ℝ) :=
  ambOccLi qCamera qShadow (if S.seen r then some r else none) fun r => S.blocked (S.shadowRay r (next2 ω).1)

/-- The stream after the call: two numbers are drawn if the camera ray hits a surface (`amb_occ.cpp:53`). -/
def Sky.left (S : Sky) (r : Ray) (ω : Stream) : Stream := if S.seen r then (next2 ω).2 else ω

/-- A program that draws from the sampler is the ambient occlusion integrator for this scene. -/
def Sky.Renders (S : Sky) (Li : Ray → Stream → V3 ℝ × Stream) : Prop :=
  ∀ r ω, (∀ qCamera qShadow t, Idle t → S.Li qCamera qShadow r ω t = .ok ((Li r ω).1, t)) ∧ (Li r ω).2 = S.left r ω

end Feign.Integrators
