import Verif.Sdf.Spec
import Verif.Shapes.Mesh
import Verif.Camera.Perspective
import Verif.Integrators.Lit

/-!
# Specification of a change of unit

Every length of a scene is multiplied by the same number `k`: centimetres instead of metres. Directions, angles, colours
and texture coordinates stay. The intensity of a light that is given as power falls off with the square of the distance,
so it is multiplied by `k²`; radiances stay.
-/

namespace Feign

/-- A ray in the new unit, up to the range of its parameter. -/
structure Ray.ScaledTo {K : Type} [Field K] [LinearOrder K] (k : K) (r r' : Ray K) : Prop where
  origin : r'.origin = r.origin.smul k
  dir : r'.dir = r.dir
  near : ∀ t, r'.near ≤ Ext.fin (k * t) ↔ r.near ≤ Ext.fin t
  far : ∀ t, Ext.fin (k * t) ≤ r'.far ↔ Ext.fin t ≤ r.far

/-- A hit of a triangle in the new unit. -/
def Shapes.TriHit.scaled {K : Type} [Field K] (k : K) (h : Shapes.TriHit K) : Shapes.TriHit K := ⟨h.u, h.v, k * h.t⟩

/-- A mesh in the new unit. -/
def Shapes.Mesh.scaled {K : Type} [Field K] (k : K) (m : Shapes.Mesh K) : Shapes.Mesh K :=
  { m with vs := m.vs.map (·.smul k) }

/-- A distance-function shape in the new unit. -/
def Sdf.Shape.scaled (k : ℝ) : Sdf.Shape → Sdf.Shape
  | .sphere c r => .sphere (c.smul k) (k * r)
  | .plane c n => .plane (c.smul k) n
  | .box t b => .box (t.smul k) (b.smul k)
  | .cylinder a b r => .cylinder (a.smul k) (b.smul k) (k * r)
  | .cone a b r s => .cone (a.smul k) (b.smul k) (k * r) (k * s)

/-- A light in the new unit. -/
noncomputable def Lights.Light.scaled (k : ℝ) : Lights.Light → Lights.Light
  | .point I pos => .point (I.smul (k * k)) (pos.smul k)
  | .spot pos dir radiance c => .spot (pos.smul k) dir radiance c
  | .directional dir radiance => .directional dir radiance
  | .mesh intensity inst m cdf => .mesh intensity inst (m.scaled k) cdf
  | .dirMesh dir intensity inst => .dirMesh dir (intensity.smul (k * k)) inst
  | .environment intensity => .environment intensity

/-- A light sample in the new unit: only the squared distance changes. -/
def Lights.LightSample.scaled (k : ℝ) (s : Lights.LightSample) : Lights.LightSample :=
  { s with sqrDist := s.sqrDist.map fun d => k * k * d }

namespace Lights

/-- The queries of the scene in the new unit: the extra ray finds the same object, and shadow rays, which end a little
before the light (`scene.cpp:402-405`), are blocked alike. -/
structure World.ScaledTo (k : ℝ) (w w' : World) : Prop where
  first : ∀ d, w'.first d = (w.first d).map fun a => (a.1, a.2.smul k)
  shadow : ∀ d L, w'.shadow d (k * L - eps) = w.shadow d (L - eps)
  ignore : w'.ignoreShadows = w.ignoreShadows

/-- The shaded point in the new unit. -/
def Spot.scaled (k : ℝ) (s : Spot) : Spot := { s with p := s.p.smul k }

end Lights

/-- A camera in the new unit. -/
def Camera.Persp.scaled (k : ℝ) (c : Camera.Persp) : Camera.Persp :=
  { c with radius := k * c.radius, focal := k * c.focal, near := k * c.near, far := k * c.far }

namespace Integrators

/-- A ray given by origin and direction, in the new unit. -/
def scaledRay (k : ℝ) (r : Integrators.Ray) : Integrators.Ray := (r.1.smul k, r.2)

/-- A lamp in the new unit. -/
def scaledLamp (k : ℝ) (l : Lamp) : Lamp := (l.1.smul (k * k), l.2.smul k)

/-- One scene is the other in the new unit: corresponding rays meet the same things, at corresponding points. -/
structure ScaledRoom (k : ℝ) (S S' : Room) : Prop where
  eps : S'.eps = S.eps
  seen : ∀ r, S'.seen (scaledRay k r) = S.seen r
  env : ∀ r, S'.env (scaledRay k r) = S.env r
  point : ∀ r, S'.point (scaledRay k r) = (S.point r).smul k
  frame : ∀ r, S'.frame (scaledRay k r) = S.frame r
  material : ∀ r, S'.material (scaledRay k r) = S.material r
  albedo : ∀ r, S'.albedo (scaledRay k r) = S.albedo r
  intIor : ∀ r, S'.intIor (scaledRay k r) = S.intIor r
  extIor : ∀ r, S'.extIor (scaledRay k r) = S.extIor r
  emitted : ∀ r, S'.emitted (scaledRay k r) = S.emitted r

end Integrators
end Feign
