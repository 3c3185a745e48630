import Verif.Parser.Exec
import Verif.Api.Flush
import Verif.Api.TransformCmd
import Verif.Sdf.Room
import Verif.Camera.Perspective

/-!
# What is drawn of an assembled scene (model)

After `flush_renders` has assembled the scene (`Verif/Api/Flush.lean`), rendering follows the node pointers: from a shape
to the object with its number, from there to the material shader, the BSDF and its colours, from the scene to the camera, the
integrator and the sampler, and through the list of lights. `drawn` collects what is found there, for scenes of distance
functions without media whose lights are point lights and skies of one colour. `none`: the scene is not of this kind, or a
pointer leads nowhere.
-/

namespace Feign.Parser

open Api (St Def Ptr Asm)

/-- No media on either side and not null: `boundry` stays `nullptr`, `src/api/api.cpp:853-861`. -/
def BoundaryP.plain (b : BoundaryP) : Bool := b.inside == "null" && b.outside == "null" && !b.isNull

/-- The distance function built by `fr_mesh`, `src/api/api.cpp:849-950`. Its transform is set
(`Shape::transform`, `:1525`) but neither `evaluate` nor `boundingBox` of any distance function reads it
(`src/shapes/sdf_sphere.cpp`, `sdf_plane.cpp`, `sdf_box.cpp`, `sdf_cylinder.cpp`, `sdf_cone.cpp`). -/
def MeshP.solid : MeshP ℝ → Option Sdf.Shape
  | .sphere c r _ b => if b.plain then some (.sphere c r) else none
  | .plane c n _ b => if b.plain then some (.plane c n) else none
  | .box t r b => if b.plain then some (.box t r) else none
  | .cylinder p q r b => if b.plain then some (.cylinder p q r) else none
  | .cone p q r1 r2 b => if b.plain then some (.cone p q r1 r2) else none
  | .obj .. | .grid .. => none

/-- The BSDF built by `fr_bsdf`, `src/api/api.cpp:1366-1381`. The parser gives a dielectric no colour, so it is white
(`include/feign/core/bsdf.h:170-171`). Indices of refraction of the other two are not used. -/
noncomputable def BsdfP.look : BsdfP ℝ → Option Sdf.Look
  | .diffuse a => some ⟨.diffuse, a, 1, 1, fun _ => 0⟩
  | .mirror a => some ⟨.mirror, a, 1, 1, fun _ => 0⟩
  | .dielectric i e => some ⟨.glass, ⟨1, 1, 1⟩, i, e, fun _ => 0⟩
  | .phong .. | .blinn .. => none

/-- Shape of a defined mesh. -/
def Call.solid : Call ℝ → Option Sdf.Shape
  | .mesh _ _ p => p.solid
  | _ => none

/-- Colours of a defined BSDF. -/
noncomputable def Call.look : Call ℝ → Option Sdf.Look
  | .bsdf _ _ p => p.look
  | _ => none

/-- A light: a lamp (intensity and position) or a sky of one colour. -/
inductive Light where
  | lamp (l : Integrators.Lamp)
  | sky (c : V3 ℝ)

/-- The light built by `fr_emitter`, `src/api/api.cpp:1274-1297`; a sky without texture has one colour,
`src/emitters/environment.cpp:50-53`. -/
def Call.light : Call ℝ → Option Light
  | .emitter _ _ (.point i p) => some (.lamp (i, p))
  | .emitter _ _ (.environment i t) => if Api.reserved .texture t then some (.sky i) else none
  | _ => none

variable {T : Type}

/-- Follow a node pointer to what the node is defined as. -/
def defOf (s : St (Call ℝ) T) (p : Ptr) : Option (Def (Call ℝ) T) := (p.bind s.node).bind (·.payload)

/-- Colours of the object `o` without light: `(*(*objects[id]).material_shader)()` (`src/scene.cpp:354`), a simple material
shader, and `(*bsdf)()` there (`src/shaders/simple_material.cpp:18-28`). -/
noncomputable def lookOf (s : St (Call ℝ) T) (o : Nat) : Option Sdf.Look := do
  let d ← defOf s (some o)
  -- the object carries no light, `src/scene.cpp:679`
  if d.refs[2]? = some none then
    let sh ← defOf s d.refs[1]?.join
    if sh.type = "simple_material" then
      let b ← defOf s sh.refs.head?.join
      b.data.bind Call.look
    else none
  else none

/-- The shape of mesh node `m` and what it looks like: `Scene::getShapeMaterialShader`, `src/scene.cpp:350-355`. -/
noncomputable def thing (s : St (Call ℝ) T) (a : Asm T) (m : Nat) : Option (Sdf.Shape × Sdf.Look) := do
  let d ← defOf s (some m)
  let shape ← d.data.bind Call.solid
  let o ← a.shadedAs m
  let look ← lookOf s o
  return (shape, look)

/-- What is drawn: the distance functions in the order in which the accelerator holds them with their looks, the lamps and
the skies in the order of the scene's lists, the camera with the transform it was declared under, the kind of integrator, the
bounce limit and the number of samples per pixel. -/
structure Drawn (T : Type) where
  things : List (Sdf.Shape × Sdf.Look)
  lamps : List Integrators.Lamp
  skies : List (V3 ℝ)
  camera : CameraP ℝ
  placed : T
  view : String
  bounces : Int
  samples : Int

/-- `Scene::addEmitter`, `src/scene.cpp:337-343`: skies go to `env_emitters`, lamps to `emitters`. -/
def lampsOf (ls : List Light) : List Integrators.Lamp := ls.filterMap fun | .lamp l => some l | .sky _ => none

/-- See `lampsOf`. -/
def skiesOf (ls : List Light) : List (V3 ℝ) := ls.filterMap fun | .sky c => some c | .lamp _ => none

/-- What is drawn of the assembled scene `a`: `Scene::preProcess`, `src/scene.cpp:56-125`, and `Scene::renderScene`,
`:127-172`. The kind of integrator is the type it was declared with (`src/api/api.cpp:606-671`). There is no medium around the
scene. -/
noncomputable def drawn (s : St (Call ℝ) T) (a : Asm T) : Option (Drawn T) := do
  let sc ← s.scene
  if s.sdfOnly = true ∧ sc.media = none then
    let things ← a.shapes.mapM (thing s a)
    let lights ← s.lights.mapM fun p => (defOf s (some p)).bind fun d => d.data.bind Call.light
    let cam ← defOf s sc.camera
    let int ← defOf s sc.integrator
    let sam ← defOf s sc.sampler
    match cam.data, cam.xf, int.data, sam.data with
    | some (.camera _ _ c), some x, some (.integrator _ ty _ p _), some (.sampler _ _ n _) =>
      some ⟨things, lampsOf lights, skiesOf lights, c, x, ty, p.maxBounces, n⟩
    | _, _, _, _ => none
  else none

/-- The colours of the shape with number `i`; a number without a shape does not occur. -/
def looksOf (ts : List (Sdf.Shape × Sdf.Look)) (i : ℕ) : Sdf.Look :=
  ((ts[i]?).map (·.2)).getD ⟨.diffuse, 0, 1, 1, fun _ => 0⟩

/-- The scene as the path integrator sees it (`src/api/api.cpp:638-642`), which does not use a light accelerator; the sky is `Scene::env_emission`, `src/scene.cpp:692-707`. -/
noncomputable def Drawn.room (d : Drawn T) (box : Option (B3 ℝ)) : Integrators.Room :=
  Sdf.litRoom ((d.things.map (·.1)).map Sdf.Shape.eval) box (looksOf d.things) (fun _ => d.skies.foldl (· + ·) 0) d.lamps

/-- The camera's parameters, `src/api/api.cpp:723-729`; a film size below zero is not representable. -/
def CameraP.persp (c : CameraP ℝ) : Camera.Persp :=
  ⟨c.appRadius, c.focalDist, c.fov, c.near, c.far, c.imageRes.1.toNat, c.imageRes.2.toNat⟩

/-- Transforms as pairs of matrices; `none`: some entry is not finite (`Verif/Api/TransformCmd.lean`). -/
noncomputable def matrices : Xf ℝ (Option (Feign.Xf ℝ)) where
  one := some Feign.Xf.one
  scale v t := t.bind fun c => Api.stepT c (.scale v)
  translate v t := t.bind fun c => Api.stepT c (.translate v)
  rotate a v t := t.bind fun c => Api.stepT c (.rotate a v)

end Feign.Parser
