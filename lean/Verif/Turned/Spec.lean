import Verif.Sdf.Spec
import Verif.Shapes.Mesh
import Verif.Camera.Perspective
import Verif.Integrators.Lit
import Verif.Math.FrameProps

/-!
# Specification of turning a scene

Everything is turned about the origin. The turn is given by the three directions `Q.s`, `Q.t`, `Q.n` that the axes of the
world are turned to, so that a point or direction `v` goes to `Q.toWorld v`. The three directions are perpendicular unit
vectors; they are right-handed for a turn, and left-handed for a turn together with a reflection.
-/

namespace Feign

/-- A rotation about the origin. -/
structure Frame.Rotation (Q : Frame) : Prop where
  rigid : Q.Orthonormal
  right : Q.RightHanded

/-- A turned ray. -/
def Ray.turned (Q : Frame) (r : Ray ℝ) : Ray ℝ := { r with origin := Q.toWorld r.origin, dir := Q.toWorld r.dir }

/-- A turned mesh: the vertices and the normals, if there are any. -/
def Shapes.Mesh.turned (Q : Frame) (m : Shapes.Mesh ℝ) : Shapes.Mesh ℝ :=
  { m with vs := m.vs.map Q.toWorld, ns := m.ns.map Q.toWorld }

/-- A turned shape, unless it is a box: boxes are always parallel to the axes. -/
def Sdf.Shape.turned (Q : Frame) : Sdf.Shape → Option Sdf.Shape
  | .sphere c r => some (.sphere (Q.toWorld c) r)
  | .plane c n => some (.plane (Q.toWorld c) (Q.toWorld n))
  | .box _ _ => none
  | .cylinder a b r => some (.cylinder (Q.toWorld a) (Q.toWorld b) r)
  | .cone a b r s => some (.cone (Q.toWorld a) (Q.toWorld b) r s)

/-- A turned light. -/
noncomputable def Lights.Light.turned (Q : Frame) : Lights.Light → Lights.Light
  | .point I pos => .point I (Q.toWorld pos)
  | .spot pos dir radiance c => .spot (Q.toWorld pos) (Q.toWorld dir) radiance c
  | .directional dir radiance => .directional (Q.toWorld dir) radiance
  | .mesh intensity inst m cdf => .mesh intensity inst (m.turned Q) cdf
  | .dirMesh dir intensity inst => .dirMesh (Q.toWorld dir) intensity inst
  | .environment intensity => .environment intensity

/-- A light sample whose direction has been turned. -/
def Lights.LightSample.turned (Q : Frame) (s : Lights.LightSample) : Lights.LightSample := { s with wi := Q.toWorld s.wi }

namespace Lights

/-- The queries of the turned scene: the turned extra ray finds the same object at the turned place, and the turned shadow
rays are blocked and attenuated alike. -/
structure World.TurnedTo (Q : Frame) (w w' : World) : Prop where
  first : ∀ d, w'.first (Q.toWorld d) = (w.first d).map fun a => (a.1, Q.toWorld a.2)
  shadow : ∀ d far, w'.shadow (Q.toWorld d) far = w.shadow d far
  ignore : w'.ignoreShadows = w.ignoreShadows

/-- The turned point: place and normals are turned. The tangents of the shading frame may be any. -/
structure Spot.TurnedTo (Q : Frame) (s s' : Spot) : Prop where
  p : s'.p = Q.toWorld s.p
  gn : s'.gn = Q.toWorld s.gn
  normal : s'.frame.n = Q.toWorld s.frame.n
  inst : s'.inst = s.inst

/-- The same light, told in the tangents of the turned point: its direction is the turned direction. -/
noncomputable def LightEval.turned (Q f f' : Frame) : LightEval → LightEval
  | .nan => .nan
  | .hidden => .hidden
  | .seen d v => .seen (f'.toLocal (Q.toWorld (f.toWorld d))) v

/-- Outcomes for a list of lights, turned. -/
noncomputable def turnedEvals (Q f f' : Frame) : Res (List LightEval) → Res (List LightEval)
  | .ok x => .ok (x.map (LightEval.turned Q f f'))
  | .throw e => .throw e
  | .ub e => .ub e

end Lights

namespace Integrators

/-- A ray given by origin and direction, turned. -/
def turnedRay (Q : Frame) (r : Integrators.Ray) : Integrators.Ray := (Q.toWorld r.1, Q.toWorld r.2)

/-- A turned lamp. -/
def turnedLamp (Q : Frame) (l : Lamp) : Lamp := (l.1, Q.toWorld l.2)

/-- One scene is the other turned: turned rays meet the same things, at turned points with turned normals. Nothing is said
about the tangents. -/
structure TurnedRoom (Q : Frame) (S S' : Room) : Prop where
  eps : S'.eps = S.eps
  seen : ∀ r, S'.seen (turnedRay Q r) = S.seen r
  env : ∀ r, S'.env (turnedRay Q r) = S.env r
  point : ∀ r, S'.point (turnedRay Q r) = Q.toWorld (S.point r)
  normal : ∀ r, (S'.frame (turnedRay Q r)).n = Q.toWorld (S.frame r).n
  material : ∀ r, S'.material (turnedRay Q r) = S.material r
  albedo : ∀ r, S'.albedo (turnedRay Q r) = S.albedo r
  intIor : ∀ r, S'.intIor (turnedRay Q r) = S.intIor r
  extIor : ∀ r, S'.extIor (turnedRay Q r) = S.extIor r
  emitted : ∀ r, S'.emitted (turnedRay Q r) = S.emitted r

end Integrators
end Feign
