import Mathlib.Data.Nat.Notation
import Verif.Math.Vec

/-!
# Scene description files (model)

`src/parsers/json_parser.cpp`. A parse is the list of API calls it makes and how it ends. API calls return
nothing, so the parser's control flow depends on the file only; a call that throws ends the parse after that
call (`Verif/Parser/Exec.lean`).

* `rapidjson` is external (not in the repository). A document is a tree `Js` with the members of an object in
  file order; `HasMember`, `operator[]`, `GetString`, … are modelled after its documentation: `operator[]`
  takes the first member with the name, an accessor used on the wrong type or outside an array violates an
  assertion of the library and is `Stop.ub`. A file that is not JSON leaves a `null` document.
* Numbers without fraction and exponent are `int`, others `real`; `fl` rounds to `Float`.
* `assert(false)` is `Stop.abort` (no build type is set in `CMakeLists.txt`, so asserts are active);
  `throw` is `Stop.thrown`.
* Console output and the timer `SCENE_PARSE` are left out (`Verif/Integrators/Timer.lean` models timers).
-/

namespace Feign.Parser

/-- A JSON value. -/
inductive Js where
  | null
  | bool (b : Bool)
  | int (z : Int)
  | real (q : Rat)
  | str (s : String)
  | arr (xs : List Js)
  | obj (ms : List (String × Js))

/-- How a parse ends early. -/
inductive Stop where
  | thrown | abort | ub
  deriving DecidableEq, Repr

variable {F : Type}

/-- `Perspective::Params`, `include/feign/core/camera.h:53-83`, in the order of the constructor. -/
structure CameraP (F : Type) where
  origin : V3 F
  target : V3 F
  up : V3 F
  fov : F
  near : F
  far : F
  focalDist : F
  appRadius : F
  imageRes : Int × Int

/-- `Integrator::Params`, `include/feign/core/integrator.h:29-54`, in the order of the constructor. -/
structure IntegratorP where
  maxTime : Int
  maxHeuristic : Int
  location : String
  maxBounces : Int
  fbEmitterSamples : Int := 1

/-- Media and null flag shared by the shapes' `Params`. -/
structure BoundaryP where
  inside : String
  outside : String
  isNull : Bool

/-- The `Params` of the shapes, `include/feign/shapes/objmesh.h:23-44`, `grid_obj.h:20-32`,
`include/feign/core/sdf.h:336-357, 388-409, 440-458, 488-509, 541-565`. -/
inductive MeshP (F : Type) where
  | obj (filename shader : String) (flip : Bool) (b : BoundaryP)
  | grid (texture shader : String) (resolution : Int × Int)
  | sphere (center : V3 F) (radius interp : F) (b : BoundaryP)
  | plane (center normal : V3 F) (interp : F) (b : BoundaryP)
  | box (tlc brc : V3 F) (b : BoundaryP)
  | cylinder (first second : V3 F) (radius : F) (b : BoundaryP)
  | cone (first second : V3 F) (radius1 radius2 : F) (b : BoundaryP)

/-- The `Params` of the lights, `include/feign/core/emitter.h:144-151, 185-200, 239-246, 330-336, 381-388,
433-440`. -/
inductive EmitterP (F : Type) where
  | point (intensity pos : V3 F)
  | mesh (intensity : V3 F)
  | environment (intensity : V3 F) (texture : String)
  | directional (lightDir radiance : V3 F)
  | directionalMesh (lightDir intensity : V3 F)
  | spot (lightPos lightDir radiance : V3 F) (lightAngle : F)

/-- The `Params` of the materials, `include/feign/core/bsdf.h:40-46, 66-72, 107-115, 138-146, 168-179`. -/
inductive BsdfP (F : Type) where
  | diffuse (albedo : V3 F)
  | mirror (albedo : V3 F)
  | dielectric (intIor extIor : F)
  | phong (kd : V3 F) (ks exponent : F)
  | blinn (kd ks : V3 F) (exponent : F)

/-- The `Params` of the shaders, `include/feign/core/shader.h:36-42, 173-180`. -/
inductive ShaderP (F : Type) where
  | interp (prop proxy : F)
  | simple (bsdf : String)

/-- API calls made by the parser, `include/feign/core/api.h`. -/
inductive Call (F : Type) where
  | scene (name integrator sampler camera medium keywords description : String) (sdf : Bool)
  | media (name transEst phase sampling density transFunc : String) (abs scat : V3 F)
  | density (name type : String) (dense radius : F)
  | accel (name type : String) (cells : Option (Int × Int × Int))
  | integrator (name type filter : String) (p : IntegratorP) (photons : Option Int)
  | sampler (name type : String) (count : Int) (seed : ℕ)
  | camera (name type : String) (p : CameraP F)
  | object (name mesh shader emitter : String)
  | mesh (name type : String) (p : MeshP F)
  | emitter (name type : String) (p : EmitterP F)
  | bsdf (name type : String) (p : BsdfP F)
  | shader (name type : String) (p : ShaderP F)
  | texture (name type filename : String) (scale : V3 F)
  | clearTransform
  | scale (v : V3 F)
  | translate (v : V3 F)
  | rotate (angle : F) (axis : V3 F)
  | flush

/-- The API calls made so far and the value or the early end. -/
structure Tr (F α : Type) where
  calls : List (Call F)
  out : Except Stop α

namespace Tr

variable {α β : Type}

def ret (a : α) : Tr F α := ⟨[], .ok a⟩

def bind (t : Tr F α) (f : α → Tr F β) : Tr F β :=
  match t.out with
  | .ok a => ⟨t.calls ++ (f a).calls, (f a).out⟩
  | .error e => ⟨t.calls, .error e⟩

instance : Monad (Tr F) where
  pure := ret
  bind := bind

def stop (e : Stop) : Tr F α := ⟨[], .error e⟩

def emit (c : Call F) : Tr F Unit := ⟨[c], .ok ()⟩

end Tr

/-! ### Reading values -/

/-- A C string ends at the first NUL: what `strcmp` and `std::string(const char *)` see of the buffer that
`GetString` returns. -/
def cstr (s : String) : String := String.ofList (s.toList.takeWhile (· ≠ '\x00'))

/-- The first member with the name: `HasMember` and `operator[]`. -/
def find (v : Js) (k : String) : Tr F (Option Js) :=
  match v with
  | .obj ms => .ret (ms.lookup k)
  | _ => .stop .ub

/-- `value[k]`, which must exist. -/
def member (v : Js) (k : String) : Tr F Js := do
  match ← find v k with
  | some j => .ret j
  | none => .stop .ub

/-- `value[i]` for an array. -/
def elem (v : Js) (i : ℕ) : Tr F Js :=
  match v with
  | .arr xs => match xs[i]? with
    | some j => .ret j
    | none => .stop .ub
  | _ => .stop .ub

/-- `GetString`, copied to a `std::string`. -/
def getStr (v : Js) : Tr F String :=
  match v with
  | .str s => .ret (cstr s)
  | _ => .stop .ub

/-- `GetBool`. -/
def getBool (v : Js) : Tr F Bool :=
  match v with
  | .bool b => .ret b
  | _ => .stop .ub

/-- `GetInt`: a whole number in the range of `int`. -/
def getInt (v : Js) : Tr F Int :=
  match v with
  | .int z => if -2 ^ 31 ≤ z ∧ z < 2 ^ 31 then .ret z else .stop .ub
  | _ => .stop .ub

/-- `GetFloat`: any number. -/
def getFloat (fl : Rat → F) (v : Js) : Tr F F :=
  match v with
  | .int z => .ret (fl z)
  | .real q => .ret (fl q)
  | _ => .stop .ub

/-- Three consecutive floats of an array, from index `i`. -/
def getVec (fl : Rat → F) (i : ℕ) (v : Js) : Tr F (V3 F) := do
  let x ← getFloat fl (← elem v i)
  let y ← getFloat fl (← elem v (i + 1))
  let z ← getFloat fl (← elem v (i + 2))
  .ret ⟨x, y, z⟩

/-- Two integers of an array. -/
def getInt2 (v : Js) : Tr F (Int × Int) := do
  let x ← getInt (← elem v 0)
  let y ← getInt (← elem v 1)
  .ret (x, y)

/-- `if (value.HasMember(k)) x = value[k].Get…();` with `x` initialised to `d`. -/
def fld {α : Type} (v : Js) (k : String) (get : Js → Tr F α) (d : α) : Tr F α := do
  match ← find v k with
  | some j => get j
  | none => .ret d

/-- `Color3f(x)` and alike: all components equal. -/
def splat (x : F) : V3 F := ⟨x, x, x⟩

variable (fl : Rat → F)

/-! ### The sections -/

/-- Section "scene", `src/parsers/json_parser.cpp:92-147`. -/
def sceneSec (v : Js) : Tr F Unit := do
  let name ← fld v "name" getStr "default"
  let integrator ← fld v "integrator" getStr "default"
  let sampler ← fld v "sampler" getStr "default"
  let camera ← fld v "camera" getStr "default"
  let medium ← fld v "medium" getStr "default"
  let keywords ← fld v "keywords" getStr ""
  let description ← fld v "description" getStr ""
  let sdf ← fld v "sdf_mode" getBool false
  .emit (.scene name integrator sampler camera medium keywords description sdf)

/-- Section "media", `:148-199`. Absorption, scattering and transform cannot be set in a file. -/
def mediaSec (v : Js) : Tr F Unit := do
  let name ← fld v "name" getStr "env_medium"
  let density ← fld v "density" getStr "default"
  let sampling ← fld v "sampling" getStr "default"
  let phase ← fld v "phase" getStr "default"
  let transEst ← fld v "trans_est" getStr "default"
  let transFunc ← fld v "trans_func" getStr "default"
  .emit (.media name transEst phase sampling density transFunc (splat (fl 1)) (splat (fl 0)))

/-- Section "media_density", `:200-243`. -/
def densitySec (v : Js) : Tr F Unit := do
  let name ← fld v "name" getStr "media_density"
  let type ← fld v "type" getStr "sphere"
  if type = "sphere" then
    let dense ← fld v "density" (getFloat fl) (fl 1)
    let radius ← fld v "radius" (getFloat fl) (fl 1)
    .emit (.density name type dense radius)
  else .stop .thrown

/-- Section "accel", `:247-290`: other types are passed over. -/
def accelSec (v : Js) : Tr F Unit := do
  let type ← fld v "type" getStr "light_naive"
  let name ← fld v "name" getStr "light_accel"
  if type = "light_naive" then .emit (.accel name type none)
  else if type = "light_spatial" then
    let width ← fld v "width" getInt 1
    let height ← fld v "height" getInt 1
    let depth ← fld v "depth" getInt 1
    .emit (.accel name type (some (width, height, depth)))
  else .ret ()

/-- Section "integrator", `:291-366`. `PhotonMapping::Params` hands its `verbose` (`false`) to the base
class as the number of first-bounce light samples (`include/feign/core/integrator.h:282-297`). -/
def integratorSec (v : Js) : Tr F Unit := do
  let type ← fld v "type" getStr "normal"
  let name ← fld v "name" getStr "integrator"
  let filter ← fld v "filter" getStr "default"
  let maxTime ← fld v "max_time" getInt (-1)
  let maxHeuristic ← fld v "max_heuristic" getInt (-1)
  let maxBounces ← fld v "max_bounces" getInt 10
  let location ← fld v "location" getStr ""
  if type = "photon" then
    let photons ← fld v "photons" getInt 1024
    .emit (.integrator name type filter ⟨maxTime, maxHeuristic, location, maxBounces, 0⟩ (some photons))
  else .emit (.integrator name type filter ⟨maxTime, maxHeuristic, location, maxBounces, 1⟩ none)

/-- Section "sampler", `:367-405`; the seed is converted to `uint32_t`. -/
def samplerSec (v : Js) : Tr F Unit := do
  let name ← fld v "name" getStr "sampler"
  let type ← fld v "type" getStr "independent"
  if type = "independent" then
    let spp ← fld v "sample_count" getInt 8
    let seed ← fld v "seed" getInt 0x12345678
    .emit (.sampler name type spp (seed % 2 ^ 32).toNat)
  else .stop .thrown

/-- `if (value.HasMember(k)) throw …`. -/
def reject (v : Js) (k : String) : Tr F Unit := do
  match ← find v k with
  | some _ => .stop .thrown
  | none => .ret ()

/-- `lookat`: nine numbers, `:474-487`. -/
def getLookat (v : Js) : Tr F (V3 F × V3 F × V3 F) := do
  let o ← getVec fl 0 v
  let t ← getVec fl 3 v
  let u ← getVec fl 6 v
  .ret (o, t, u)

/-- Section "camera", `:406-507`. -/
def cameraSec (v : Js) : Tr F Unit := do
  let name ← fld v "name" getStr "camera"
  let type ← fld v "type" getStr "perspective"
  if type = "perspective" then
    reject v "origin"
    reject v "target"
    reject v "up"
    let fov ← fld v "fov" (getFloat fl) (fl 30)
    let near ← fld v "near" (getFloat fl) (fl (1 / 10000))
    let far ← fld v "far" (getFloat fl) (fl 10000)
    let appRadius ← fld v "app_radius" (getFloat fl) (fl 0)
    let focalDist ← fld v "focal_dist" (getFloat fl) (fl 10)
    let width ← fld v "width" getInt 512
    let height ← fld v "height" getInt 512
    let l ← fld v "lookat" (getLookat fl) (⟨fl 0, fl 1, fl 0⟩, splat (fl 0), ⟨fl 0, fl 1, fl 0⟩)
    .emit (.camera name type ⟨l.1, l.2.1, l.2.2, fov, near, far, focalDist, appRadius, (width, height)⟩)
  else .stop .thrown

/-- A transform given by a member of an object or light, `:536-554` and `:846-864`; `none`: the member is not
a transform. -/
def transformOf (k : String) (j : Js) : Option (Tr F Unit) :=
  if k = "scale" then some (do .emit (.scale (← getVec fl 0 j)))
  else if k = "translate" then some (do .emit (.translate (← getVec fl 0 j)))
  else if k = "rotate" then some (do
    let a ← getFloat fl (← elem j 0)
    .emit (.rotate a (← getVec fl 1 j)))
  else none

/-- The names collected by the loop over an object's members. -/
structure ObjNames where
  name : String := "obj"
  mesh : String := "default"
  shader : String := "null"
  emitter : String := "null"

/-- One pass of the loop `:519-559` for a member with (NUL-terminated) name `k`. -/
def objectMember (o : ObjNames) (k : String) (j : Js) : Tr F ObjNames :=
  if k = "name" then do .ret { o with name := ← getStr j }
  else if k = "mesh" then do .ret { o with mesh := ← getStr j }
  else if k = "material_shader" then do .ret { o with shader := ← getStr j }
  else if k = "emitter" then do .ret { o with emitter := ← getStr j }
  else match transformOf fl k j with
    | some t => do t; .ret o
    | none => .ret o

/-- The loop `:519-559`. -/
def objectMembers : ObjNames → List (String × Js) → Tr F ObjNames
  | o, [] => .ret o
  | o, (k, j) :: ms => do objectMembers (← objectMember fl o (cstr k) j) ms

/-- `MemberBegin()` … `MemberEnd()`. -/
def members (v : Js) : Tr F (List (String × Js)) :=
  match v with
  | .obj ms => .ret ms
  | _ => .stop .ub

/-- Section "object", `:508-567`. -/
def objectSec (v : Js) : Tr F Unit := do
  .emit .clearTransform
  let o ← objectMembers fl {} (← members v)
  .emit (.object o.name o.mesh o.shader o.emitter)
  .emit .clearTransform

/-- The types of section "mesh", `:599-819`. The value read for "interp" of a box is not used. -/
def meshOf (type : String) (b : BoundaryP) (v : Js) : Tr F (MeshP F) :=
  if type = "triangle_mesh" then do
    let filename ← fld v "filename" getStr "default"
    let shader ← fld v "geom_shader" getStr "default"
    let flip ← fld v "flip_norms" getBool false
    .ret (.obj filename shader flip b)
  else if type = "grid" then do
    let texture ← fld v "texture" getStr "default"
    let shader ← fld v "geom_shader" getStr "default"
    let res ← fld v "resolution" getInt2 (2, 2)
    .ret (.grid texture shader res)
  else if type = "sdf_sphere" then do
    let center ← fld v "center" (getVec fl 0) (splat (fl 0))
    let radius ← fld v "radius" (getFloat fl) (fl 1)
    let interp ← fld v "interp" (getFloat fl) (fl 0)
    .ret (.sphere center radius interp b)
  else if type = "sdf_plane" then do
    let center ← fld v "center" (getVec fl 0) (splat (fl 0))
    let norm ← fld v "normal" (getVec fl 0) ⟨fl 0, fl 1, fl 0⟩
    let interp ← fld v "interp" (getFloat fl) (fl 0)
    .ret (.plane center norm interp b)
  else if type = "sdf_box" then do
    let tlc ← fld v "tlc" (getVec fl 0) (splat (fl 1))
    let brc ← fld v "brc" (getVec fl 0) (splat (fl 0))
    let _ ← fld v "interp" (getFloat fl) (fl 0)
    .ret (.box tlc brc b)
  else if type = "sdf_cylinder" then do
    let first ← fld v "first" (getVec fl 0) (splat (fl 1))
    let second ← fld v "second" (getVec fl 0) (splat (fl 0))
    let radius ← fld v "radius" (getFloat fl) (fl 0)
    .ret (.cylinder first second radius b)
  else if type = "sdf_cone" then do
    let first ← fld v "first" (getVec fl 0) (splat (fl 1))
    let second ← fld v "second" (getVec fl 0) (splat (fl 0))
    let radius1 ← fld v "radius_1" (getFloat fl) (fl 0)
    let radius2 ← fld v "radius_2" (getFloat fl) (fl 0)
    .ret (.cone first second radius1 radius2 b)
  else .stop .thrown

/-- Section "mesh", `:568-820`. -/
def meshSec (v : Js) : Tr F Unit := do
  let name ← fld v "name" getStr "mesh"
  let type ← fld v "type" getStr "default"
  let isNull ← fld v "is_null" getBool false
  let inside ← fld v "inside_media" getStr "null"
  let outside ← fld v "outside_media" getStr "null"
  let p ← meshOf fl type ⟨inside, outside, isNull⟩ v
  .emit (.mesh name type p)

/-- The loop over a light's members, `:841-865`. -/
def emitterMembers : List (String × Js) → Tr F Unit
  | [] => .ret ()
  | (k, j) :: ms =>
    match transformOf fl (cstr k) j with
    | some t => do t; emitterMembers ms
    | none => emitterMembers ms

/-- The types of section "emitter", `:867-1008`. -/
def emitterOf (type : String) (v : Js) : Tr F (EmitterP F) :=
  if type = "point" then do
    let pos ← fld v "position" (getVec fl 0) (splat (fl 0))
    let intensity ← fld v "intensity" (getVec fl 0) (splat (fl 1))
    .ret (.point intensity pos)
  else if type = "mesh" then do
    let intensity ← fld v "intensity" (getVec fl 0) (splat (fl 1))
    .ret (.mesh intensity)
  else if type = "environment" then do
    let intensity ← fld v "intensity" (getVec fl 0) (splat (fl 1))
    let texture ← fld v "texture" getStr ""
    .ret (.environment intensity texture)
  else if type = "directional" then do
    let lightDir ← fld v "light_dir" (getVec fl 0) ⟨fl 1, fl 0, fl 0⟩
    let radiance ← fld v "radiance" (getVec fl 0) (splat (fl 1))
    .ret (.directional lightDir radiance)
  else if type = "directional_mesh" then do
    let intensity ← fld v "intensity" (getVec fl 0) (splat (fl 1))
    let lightDir ← fld v "light_dir" (getVec fl 0) ⟨fl 1, fl 0, fl 0⟩
    .ret (.directionalMesh lightDir intensity)
  else if type = "spot" then do
    let lightPos ← fld v "light_pos" (getVec fl 0) (splat (fl 0))
    let lightDir ← fld v "light_dir" (getVec fl 0) ⟨fl 1, fl 0, fl 0⟩
    let radiance ← fld v "radiance" (getVec fl 0) (splat (fl 1))
    let lightAngle ← fld v "light_angle" (getFloat fl) (fl 25)
    .ret (.spot lightPos lightDir radiance lightAngle)
  else .stop .thrown

/-- Section "emitter", `:821-1011`. -/
def emitterSec (v : Js) : Tr F Unit := do
  let name ← fld v "name" getStr "emitter"
  let type ← fld v "type" getStr "point"
  .emit .clearTransform
  emitterMembers fl (← members v)
  let p ← emitterOf fl type v
  .emit (.emitter name type p)
  .emit .clearTransform

/-- The types of section "bsdf", `:1028-1131`. -/
def bsdfOf (type : String) (v : Js) : Tr F (BsdfP F) :=
  if type = "diffuse" then do
    let albedo ← fld v "albedo" (getVec fl 0) (splat (fl (8 / 10)))
    .ret (.diffuse albedo)
  else if type = "mirror" then do
    let albedo ← fld v "albedo" (getVec fl 0) (splat (fl 1))
    .ret (.mirror albedo)
  else if type = "dielectric" then do
    let intIor ← fld v "int_ior" (getFloat fl) (fl (3 / 2))
    let extIor ← fld v "ext_ior" (getFloat fl) (fl 1)
    .ret (.dielectric intIor extIor)
  else if type = "phong" then do
    let kd ← fld v "kd" (getVec fl 0) (splat (fl (1 / 2)))
    let ks ← fld v "ks" (getFloat fl) (fl (1 / 2))
    let exponent ← fld v "exponent" (getFloat fl) (fl 2)
    .ret (.phong kd ks exponent)
  else if type = "blinn" then do
    let kd ← fld v "kd" (getVec fl 0) (splat (fl (1 / 2)))
    let ks ← fld v "ks" (getVec fl 0) (splat (fl (1 / 2)))
    let exponent ← fld v "exponent" (getFloat fl) (fl 2)
    .ret (.blinn kd ks exponent)
  else .stop .thrown

/-- Section "bsdf", `:1012-1132`. -/
def bsdfSec (v : Js) : Tr F Unit := do
  let name ← fld v "name" getStr "bsdf"
  let type ← fld v "type" getStr "diffuse"
  let p ← bsdfOf fl type v
  .emit (.bsdf name type p)

/-- The types of section "shader", `:1149-1183`. -/
def shaderOf (type : String) (v : Js) : Tr F (ShaderP F) :=
  if type = "interp_verts_to_sphere" then do
    let prop ← fld v "prop_of_minor_axis" (getFloat fl) (fl 0)
    let proxy ← fld v "proxy" (getFloat fl) (fl 0)
    .ret (.interp prop proxy)
  else if type = "simple_material" then do
    let bsdf ← fld v "bsdf" getStr "defualt"
    .ret (.simple bsdf)
  else .stop .thrown

/-- Section "shader", `:1133-1184`. -/
def shaderSec (v : Js) : Tr F Unit := do
  let name ← fld v "name" getStr "shader"
  let type ← fld v "type" getStr "none"
  let p ← shaderOf fl type v
  .emit (.shader name type p)

/-- The image's scale, `:1204-1215`: looked for under "proxy", read from "scale". -/
def textureScale (v : Js) : Tr F (V3 F) := do
  match ← find v "proxy" with
  | some _ => getVec fl 0 (← member v "scale")
  | none => .ret (splat (fl 1))

/-- Section "texture", `:1185-1225`. -/
def textureSec (v : Js) : Tr F Unit := do
  let name ← fld v "name" getStr "texture"
  let type ← fld v "type" getStr "image"
  if type = "image" then
    let filename ← fld v "filename" getStr ""
    let scale ← textureScale fl v
    .emit (.texture name type filename scale)
  else .stop .thrown

/-- One member of the document, `:92-1230`, with (NUL-terminated) name `k`. -/
def sectionOf (k : String) (v : Js) : Tr F Unit :=
  if k = "scene" then sceneSec v
  else if k = "media" then mediaSec fl v
  else if k = "media_density" then densitySec fl v
  else if k = "accel" then accelSec v
  else if k = "integrator" then integratorSec v
  else if k = "sampler" then samplerSec v
  else if k = "camera" then cameraSec fl v
  else if k = "object" then objectSec fl v
  else if k = "mesh" then meshSec fl v
  else if k = "emitter" then emitterSec fl v
  else if k = "bsdf" then bsdfSec fl v
  else if k = "shader" then shaderSec fl v
  else if k = "texture" then textureSec fl v
  else .stop .abort

/-- The loop `:89-1231`. -/
def sections : List (String × Js) → Tr F Unit
  | [] => .ret ()
  | (k, v) :: ms => do
    sectionOf fl (cstr k) v
    sections ms

/-- `JsonParser::actually_parse`, `:79-1239`. -/
def parse (doc : Js) : Tr F Unit := do
  sections fl (← members doc)
  .emit .flush

/-- `JsonParser::parse_and_run`, `:24-54` and `:57-76`: `file` is `none` if the file cannot be opened — the
null pointer is passed on unchecked. -/
def parseFile (file : Option Js) : Tr F Unit :=
  match file with
  | none => .stop .ub
  | some doc => parse fl doc

/-- The timings that `flush_renders` fills in, for the two overloads of `parse_and_run`: with an image
(`:50`) and without (`:75`, which calls `actually_parse` with its default, a null pointer). -/
def timingsPassed {T : Type} (withImage : Bool) (clockings : Option T) : Option T :=
  if withImage then clockings else none

end Feign.Parser
