import Verif.Integrators.Facets
import Verif.Integrators.RoomSpec

/-!
# Specification: scenes of triangles

Written without rays: the points of a triangle, and how far lamps are from other objects.
-/

namespace Feign.Integrators

open scoped ENNReal in
open Classical in
/-- The rendering equation, for light that arrives along rays: the environment along a ray that hits nothing; what the
surface emits and Lambert's integral of the light that arrives there, for a diffuse surface; what it emits and the light
from the mirror direction, for a mirror. A surface seen from behind sends nothing on. (Glass is left open.) -/
structure Room.Physical (S : Room) (i : Fin 3) (L : Ray → ℝ≥0∞) : Prop where
  sky : ∀ r, S.seen r = false → L r = ENNReal.ofReal ((S.env r).get i)
  diffuse : ∀ r, S.seen r = true → S.material r = .diffuse →
    L r = ENNReal.ofReal ((S.emitted r).get i) + if S.Front r then S.lambert i r L else 0
  mirror : ∀ r, S.seen r = true → S.material r = .mirror →
    L r = ENNReal.ofReal ((S.emitted r).get i) + if S.Front r then S.specular i r L else 0

/-- The points of the triangle: the weighted averages of its corners. -/
def Facet.Holds (T : Facet) (q : V3 ℝ) : Prop :=
  ∃ a b : ℝ, 0 ≤ a ∧ 0 ≤ b ∧ a + b ≤ 1 ∧ q = T.p0.smul (1 - a - b) + T.p1.smul a + T.p2.smul b

/-- The triangle has an area, and its colours are not negative. -/
structure Facet.Proper (T : Facet) : Prop where
  area : T.cross ≠ 0
  albedo : NonNeg T.albedo
  glow : ∀ I, T.glow = some I → NonNeg I

/-- Every lamp keeps a distance of at least `Epsilon` from every other object. -/
def LampsClear (fs : List Facet) : Prop :=
  ∀ (j k : ℕ) (T T' : Facet), fs[j]? = some T → fs[k]? = some T' → j ≠ k → T.glow.isSome →
    ∀ q q', T.Holds q → T'.Holds q' → 1 / 1000 ≤ (q - q').norm

end Feign.Integrators
