import Verif.Integrators.Walk
import Verif.Bsdf.Model

/-!
# Scenes of diffuse, mirror and glass surfaces (model)

The scene of `Integrators/Walk` for rays given by origin and direction (`near = Epsilon`, `far = ∞` for every ray after
the first, `src/integrators/path_unidir.cpp:126-130`) and surfaces whose materials are those of `Bsdf/Model`. What a
ray hits is given from outside, as are the light samples.
-/

namespace Feign.Integrators

open Sampling Bsdf

/-- Origin and direction. -/
abbrev Ray := V3 ℝ × V3 ℝ

inductive Material where
  | diffuse | mirror | glass
  deriving DecidableEq

instance : MeasurableSpace Material := ⊤

/-- What rays hit: whether there is a surface, the point, the shading frame, the material with its colour and its two
indices of refraction (used by glass), emission, light samples, and the environment for rays that hit nothing. `eps` is
`Epsilon` (`include/feign/common.h:87`). -/
structure Room where
  eps : ℝ
  seen : Ray → Bool
  env : Ray → V3 ℝ
  point : Ray → V3 ℝ
  frame : Ray → Frame
  material : Ray → Material
  albedo : Ray → V3 ℝ
  intIor : Ray → ℝ
  extIor : Ray → ℝ
  emitted : Ray → V3 ℝ
  lights : Ray → Stream → List (ShadowRay ℝ) × Stream

/-- `closure.wi`, `path_unidir.cpp:68` and `:107`: `its.toLocal(-ray.dir)`. -/
def Room.wi (S : Room) (r : Ray) : V3 ℝ := (S.frame r).toLocal (-r.2)

/-- The next ray and the cosine for a sampled direction, `path_unidir.cpp:126-132`. -/
def Room.onward (S : Room) (r : Ray) (s : Sample) : Bounce Ray :=
  (s.albedo, s.pdf, (S.frame r).n.dot ((S.frame r).toWorld s.wo), (S.point r, (S.frame r).toWorld s.wo))

/-- Black with density zero (`diffuse.cpp:22-26`, `mirror.cpp:20-24`); the ray does not matter. -/
def Room.black (r : Ray) : Bounce Ray := (0, 0, 0, r)

/-- `sample` of the material: `Diffuse` draws two numbers unless the surface is seen from behind (`diffuse.cpp:20-34`),
`Mirror` draws none (`mirror.cpp:18-39`), `Dielectric` one (`dielectric.cpp:18-69`). -/
noncomputable def Room.scatter (S : Room) (r : Ray) (ω : Stream) : Bounce Ray × Stream :=
  match S.material r with
  | .diffuse =>
    match diffuseSample (S.albedo r) (S.wi r) ⟨(next2 ω).1.1, (next2 ω).1.2⟩ with
    | none => (Room.black r, ω)
    | some s => (S.onward r s, (next2 ω).2)
  | .mirror =>
    match mirrorSample (S.albedo r) (S.wi r) with
    | none => (Room.black r, ω)
    | some s => (S.onward r s, ω)
  | .glass =>
    (S.onward r (dielectricSample S.eps (S.intIor r) (S.extIor r) (S.albedo r) (S.wi r) (next ω).1), (next ω).2)

/-- `isDelta()`: `include/feign/core/bsdf.h:53` (`Diffuse`), `:79` (`Mirror`) and `:186` (`Dielectric`). -/
def Material.isDelta : Material → Bool
  | .diffuse => false
  | .mirror | .glass => true

/-- The scene as the path integrator sees it. -/
noncomputable def Room.world (S : Room) : World Ray where
  escapes r := !S.seen r
  env := S.env
  delta r := (S.material r).isDelta
  emitted := S.emitted
  lights := S.lights
  scatter := S.scatter

end Feign.Integrators
