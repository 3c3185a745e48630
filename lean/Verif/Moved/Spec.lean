import Verif.Sdf.Room
import Verif.Shapes.Mesh
import Verif.Camera.Perspective
import Verif.Lights.Nee

/-!
# Specification of moving a scene

Everything that has a place is moved by the same vector `v`; directions, sizes and colours stay.
-/

namespace Feign

/-- A ray from the moved place. -/
def Ray.moved {K : Type} [CommRing K] (v : V3 K) (r : Ray K) : Ray K := { r with origin := r.origin + v }

/-- A box at the moved place. -/
def B3.moved {K : Type} [CommRing K] (v : V3 K) (b : B3 K) : B3 K := ⟨b.min + v, b.max + v⟩

/-- A mesh whose vertices have moved. -/
def Shapes.Mesh.moved {K : Type} [CommRing K] (v : V3 K) (m : Shapes.Mesh K) : Shapes.Mesh K :=
  { m with vs := m.vs.map (· + v) }

/-- A distance-function shape at the moved place. -/
def Sdf.Shape.moved (v : V3 ℝ) : Sdf.Shape → Sdf.Shape
  | .sphere c r => .sphere (c + v) r
  | .plane c n => .plane (c + v) n
  | .box t b => .box (t + v) (b + v)
  | .cylinder a b r => .cylinder (a + v) (b + v) r
  | .cone a b r s => .cone (a + v) (b + v) r s

/-- A reported hit at the moved place. -/
def Sdf.Hit.moved (v : V3 ℝ) (h : Sdf.Hit) : Sdf.Hit := { h with p := h.p + v }

/-- The outcome of a query at the moved place. -/
def Sdf.March.moved (v : V3 ℝ) : Sdf.March → Sdf.March
  | .hit h => .hit (h.moved v)
  | .passed d => .passed d
  | .nothing => .nothing
  | .exhausted d => .exhausted d

/-- A light at the moved place. -/
def Lights.Light.moved (v : V3 ℝ) : Lights.Light → Lights.Light
  | .point I pos => .point I (pos + v)
  | .spot pos dir radiance c => .spot (pos + v) dir radiance c
  | .directional dir radiance => .directional dir radiance
  | .mesh intensity inst m cdf => .mesh intensity inst (m.moved v) cdf
  | .dirMesh dir intensity inst => .dirMesh dir intensity inst
  | .environment intensity => .environment intensity

namespace Integrators

/-- A ray given by origin and direction, from the moved place. -/
def movedRay (v : V3 ℝ) (r : Integrators.Ray) : Integrators.Ray := (r.1 + v, r.2)

/-- A lamp at the moved place. -/
def movedLamp (v : V3 ℝ) (l : Lamp) : Lamp := (l.1, l.2 + v)

/-- One scene is the other moved by `v`: rays that have been moved too meet the same things, at moved points. -/
structure MovedRoom (v : V3 ℝ) (S S' : Room) : Prop where
  eps : S'.eps = S.eps
  seen : ∀ r, S'.seen (movedRay v r) = S.seen r
  env : ∀ r, S'.env (movedRay v r) = S.env r
  point : ∀ r, S'.point (movedRay v r) = S.point r + v
  frame : ∀ r, S'.frame (movedRay v r) = S.frame r
  material : ∀ r, S'.material (movedRay v r) = S.material r
  albedo : ∀ r, S'.albedo (movedRay v r) = S.albedo r
  intIor : ∀ r, S'.intIor (movedRay v r) = S.intIor r
  extIor : ∀ r, S'.extIor (movedRay v r) = S.extIor r
  emitted : ∀ r, S'.emitted (movedRay v r) = S.emitted r

end Integrators
end Feign
