import Verif.Integrators.RoomLemmas
import Verif.Integrators.Carried

/-!
# Specification: what a surface sends on

For light arriving from each direction, the light a diffuse or mirror surface sends back along the ray that hit it.
-/

namespace Feign.Integrators

open Sampling MeasureTheory Warp
open scoped ENNReal

/-- The direction of a ray after it is reflected by a surface with normal `n`. -/
def mirrorImage (n d : V3 ℝ) : V3 ℝ := d - n.smul (2 * d.dot n)

/-- The ray meets the side of the surface that the normal points to. -/
def Room.Front (S : Room) (r : Ray) : Prop := 0 < (-r.2).dot (S.frame r).n

/-- Lambert: colour over π, times the cosine, over the hemisphere. (`ENNReal.ofReal` of a negative cosine is zero, so
the integral over all directions is one over the hemisphere.) -/
noncomputable def Room.lambert (S : Room) (i : Fin 3) (r : Ray) (L : Ray → ℝ≥0∞) : ℝ≥0∞ :=
  ∫⁻ v, ENNReal.ofReal ((S.albedo r).get i / Real.pi) * ENNReal.ofReal ((S.frame r).n.dot v) * L (S.point r, v) ∂solidAngle

/-- Mirror: colour times the light from the mirror direction. -/
noncomputable def Room.specular (S : Room) (i : Fin 3) (r : Ray) (L : Ray → ℝ≥0∞) : ℝ≥0∞ :=
  ENNReal.ofReal ((S.albedo r).get i) * L (S.point r, mirrorImage (S.frame r).n r.2)

end Feign.Integrators
