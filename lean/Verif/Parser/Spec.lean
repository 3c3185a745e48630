import Verif.Parser.Json

/-!
# Scene description files: what a file means

The format as a table: for each section and type the fields, their kind, the value if the field is missing,
and the parameter of the API call they set. Nothing here refers to the parser's functions; `Js`, `Call` and
`cstr` are the only definitions used.
-/

namespace Feign.Parser

variable {F : Type}

/-- A parameter value. -/
inductive Val (F : Type) where
  | s (x : String)
  | b (x : Bool)
  | i (x : Int)
  | f (x : F)
  | v (x : V3 F)
  | ii (x : Int × Int)

/-- Kinds of field. -/
inductive Ty where
  | str | bool | int | float | int2
  /-- three numbers of an array, from the given index -/
  | vec (at_ : ℕ)

/-- A field: its name in the file, kind, default, and the parameter it sets. -/
structure Field (F : Type) where
  key : String
  ty : Ty
  dflt : Val F
  param : String

/-- A section of a given type (`none`: the section has no type). -/
structure Row (F : Type) where
  sec : String
  type : Option String
  fields : List (Field F)
  /-- fields that are rejected -/
  rejected : List String := []

/-- The number that a JSON number stands for. -/
def number (fl : Rat → F) : Js → Option F
  | .int z => some (fl z)
  | .real q => some (fl q)
  | _ => none

/-- The value a JSON value has when read as the given kind; `none`: it is not of that kind. -/
def decode (fl : Rat → F) : Ty → Js → Option (Val F)
  | .str, .str s => some (.s (cstr s))
  | .bool, .bool x => some (.b x)
  | .int, .int z => if -2 ^ 31 ≤ z ∧ z < 2 ^ 31 then some (.i z) else none
  | .float, j => (number fl j).map .f
  | .int2, .arr xs =>
    match (xs[0]? : Option Js), (xs[1]? : Option Js) with
    | some (.int x), some (.int y) =>
      if (-2 ^ 31 ≤ x ∧ x < 2 ^ 31) ∧ (-2 ^ 31 ≤ y ∧ y < 2 ^ 31) then some (.ii (x, y)) else none
    | _, _ => none
  | .vec i, .arr xs =>
    match xs[i]?.bind (number fl), xs[i + 1]?.bind (number fl), xs[i + 2]?.bind (number fl) with
    | some x, some y, some z => some (.v ⟨x, y, z⟩)
    | _, _, _ => none
  | _, _ => none

/-- The meaning of a field in a section: the first member of that name if there is one, otherwise the
default; `none`: the section is not an object or the member is of the wrong kind. -/
def valOf (fl : Rat → F) (f : Field F) : Js → Option (Val F)
  | .obj ms =>
    match ms.lookup f.key with
    | none => some f.dflt
    | some j => decode fl f.ty j
  | _ => none

/-- The section `v` is of the kind described by the row: of the row's type, with every field of the right
kind and no rejected field. -/
def Meets (fl : Rat → F) (r : Row F) (v : Js) : Prop :=
  (∀ f ∈ r.fields, (valOf fl f v).isSome = true) ∧
  (∀ t ∈ r.type, ∀ f ∈ r.fields, f.param = "type" → valOf fl f v = some (.s t)) ∧
  (∀ k ∈ r.rejected, ∀ ms, v = .obj ms → ms.lookup k = none)

/-- Which API call is it? -/
def Call.api : Call F → String
  | .scene .. => "scene"
  | .media .. => "media"
  | .density .. => "media_density"
  | .accel .. => "accel"
  | .integrator .. => "integrator"
  | .sampler .. => "sampler"
  | .camera .. => "camera"
  | .object .. => "object"
  | .mesh .. => "mesh"
  | .emitter .. => "emitter"
  | .bsdf .. => "bsdf"
  | .shader .. => "shader"
  | .texture .. => "texture"
  | .clearTransform => "clear_transform"
  | .scale .. => "scale"
  | .translate .. => "translate"
  | .rotate .. => "rotate"
  | .flush => "flush"

def BoundaryP.args (b : BoundaryP) : List (String × Val F) :=
  [("inside_media", .s b.inside), ("outside_media", .s b.outside), ("is_null", .b b.isNull)]

def MeshP.args : MeshP F → List (String × Val F)
  | .obj f s fl b => [("filename", .s f), ("shader", .s s), ("flip_norms", .b fl)] ++ b.args
  | .grid t s r => [("texture", .s t), ("shader", .s s), ("resolution", .ii r)]
  | .sphere c r i b => [("center", .v c), ("radius", .f r), ("interp", .f i)] ++ b.args
  | .plane c n i b => [("center", .v c), ("normal", .v n), ("interp", .f i)] ++ b.args
  | .box t r b => [("tlc", .v t), ("brc", .v r)] ++ b.args
  | .cylinder f s r b => [("first", .v f), ("second", .v s), ("radius", .f r)] ++ b.args
  | .cone f s r q b => [("first", .v f), ("second", .v s), ("radius_1", .f r), ("radius_2", .f q)] ++ b.args

def EmitterP.args : EmitterP F → List (String × Val F)
  | .point i p => [("intensity", .v i), ("pos", .v p)]
  | .mesh i => [("intensity", .v i)]
  | .environment i t => [("intensity", .v i), ("texture", .s t)]
  | .directional d r => [("light_dir", .v d), ("radiance", .v r)]
  | .directionalMesh d i => [("light_dir", .v d), ("intensity", .v i)]
  | .spot p d r a => [("light_pos", .v p), ("light_dir", .v d), ("radiance", .v r), ("light_angle", .f a)]

def BsdfP.args : BsdfP F → List (String × Val F)
  | .diffuse a => [("albedo", .v a)]
  | .mirror a => [("albedo", .v a)]
  | .dielectric i e => [("int_ior", .f i), ("ext_ior", .f e)]
  | .phong d s e => [("kd", .v d), ("ks", .f s), ("exponent", .f e)]
  | .blinn d s e => [("kd", .v d), ("ks", .v s), ("exponent", .f e)]

def ShaderP.args : ShaderP F → List (String × Val F)
  | .interp p q => [("prop", .f p), ("proxy", .f q)]
  | .simple b => [("bsdf", .s b)]

/-- The parameters of a declaring call, by name. -/
def Call.args : Call F → List (String × Val F)
  | .scene n i s c m k d x => [("name", .s n), ("integrator", .s i), ("sampler", .s s), ("camera", .s c),
      ("medium", .s m), ("keywords", .s k), ("description", .s d), ("sdf_mode", .b x)]
  | .media n te ph sa de tf a s => [("name", .s n), ("trans_node", .s te), ("phase_node", .s ph),
      ("sampling_node", .s sa), ("density_func_node", .s de), ("trans_func_node", .s tf), ("abs", .v a),
      ("scat", .v s)]
  | .density n t d r => [("name", .s n), ("type", .s t), ("density", .f d), ("radius", .f r)]
  | .accel n t none => [("name", .s n), ("type", .s t)]
  | .accel n t (some c) => [("name", .s n), ("type", .s t), ("width", .i c.1), ("height", .i c.2.1),
      ("depth", .i c.2.2)]
  | .integrator n t f p ph => [("name", .s n), ("type", .s t), ("filter", .s f), ("max_time", .i p.maxTime),
      ("max_heuristic", .i p.maxHeuristic), ("location", .s p.location), ("max_bounces", .i p.maxBounces)] ++
      (ph.map fun k => ("num_photons", Val.i k)).toList
  | .sampler n t c s => [("name", .s n), ("type", .s t), ("sample_cnt", .i c), ("seed", .i s)]
  | .camera n t p => [("name", .s n), ("type", .s t), ("origin", .v p.origin), ("target", .v p.target),
      ("up", .v p.up), ("fov", .f p.fov), ("near", .f p.near), ("far", .f p.far),
      ("focal_dist", .f p.focalDist), ("app_radius", .f p.appRadius), ("width", .i p.imageRes.1),
      ("height", .i p.imageRes.2)]
  | .object n m s e => [("name", .s n), ("mesh", .s m), ("material_shader", .s s), ("emitter", .s e)]
  | .mesh n t p => [("name", .s n), ("type", .s t)] ++ p.args
  | .emitter n t p => [("name", .s n), ("type", .s t)] ++ p.args
  | .bsdf n t p => [("name", .s n), ("type", .s t)] ++ p.args
  | .shader n t p => [("name", .s n), ("type", .s t)] ++ p.args
  | .texture n t f s => [("name", .s n), ("type", .s t), ("filename", .s f), ("scale", .v s)]
  | _ => []

/-- The call `c` says what the section `v` says, according to the row. -/
def Says (fl : Rat → F) (r : Row F) (v : Js) (c : Call F) : Prop :=
  c.api = r.sec ∧ ∀ f ∈ r.fields, c.args.lookup f.param = valOf fl f v

section Table

variable (fl : Rat → F)

def fStr (key dflt param : String) : Field F := ⟨key, .str, .s dflt, param⟩
def fInt (key : String) (dflt : Int) (param : String) : Field F := ⟨key, .int, .i dflt, param⟩
def fFlag (key param : String) : Field F := ⟨key, .bool, .b false, param⟩
def fNum (fl : Rat → F) (key : String) (dflt : Rat) (param : String) : Field F :=
  ⟨key, .float, .f (fl dflt), param⟩
def fVec (fl : Rat → F) (key : String) (x y z : Rat) (param : String) : Field F :=
  ⟨key, .vec 0, .v ⟨fl x, fl y, fl z⟩, param⟩

/-- Fields of all integrators. -/
def integratorFields : List (Field F) :=
  [fStr "name" "integrator" "name", fStr "type" "normal" "type", fStr "filter" "default" "filter",
   fInt "max_time" (-1) "max_time", fInt "max_heuristic" (-1) "max_heuristic",
   fInt "max_bounces" 10 "max_bounces", fStr "location" "" "location"]

/-- Fields of all meshes with media. -/
def meshFields : List (Field F) :=
  [fStr "name" "mesh" "name", fStr "type" "default" "type", fFlag "is_null" "is_null",
   fStr "inside_media" "null" "inside_media", fStr "outside_media" "null" "outside_media"]

/-- Sections that make a single API call. The seed of a sampler and the "scale" of a texture are described
separately. -/
def rows : List (Row F) :=
  [⟨"scene", none, [fStr "name" "default" "name", fStr "integrator" "default" "integrator",
      fStr "sampler" "default" "sampler", fStr "camera" "default" "camera", fStr "medium" "default" "medium",
      fStr "keywords" "" "keywords", fStr "description" "" "description", fFlag "sdf_mode" "sdf_mode"], []⟩,
   ⟨"media", none, [fStr "name" "env_medium" "name", fStr "density" "default" "density_func_node",
      fStr "sampling" "default" "sampling_node", fStr "phase" "default" "phase_node",
      fStr "trans_est" "default" "trans_node", fStr "trans_func" "default" "trans_func_node"], []⟩,
   ⟨"media_density", some "sphere", [fStr "name" "media_density" "name", fStr "type" "sphere" "type",
      fNum fl "density" 1 "density", fNum fl "radius" 1 "radius"], []⟩,
   ⟨"accel", some "light_naive", [fStr "name" "light_accel" "name", fStr "type" "light_naive" "type"], []⟩,
   ⟨"accel", some "light_spatial", [fStr "name" "light_accel" "name", fStr "type" "light_naive" "type",
      fInt "width" 1 "width", fInt "height" 1 "height", fInt "depth" 1 "depth"], []⟩,
   ⟨"integrator", some "photon", integratorFields ++ [fInt "photons" 1024 "num_photons"], []⟩,
   ⟨"camera", some "perspective", [fStr "name" "camera" "name", fStr "type" "perspective" "type",
      fNum fl "fov" 30 "fov", fNum fl "near" (1 / 10000) "near", fNum fl "far" 10000 "far",
      fNum fl "app_radius" 0 "app_radius", fNum fl "focal_dist" 10 "focal_dist",
      fInt "width" 512 "width", fInt "height" 512 "height",
      ⟨"lookat", .vec 0, .v ⟨fl 0, fl 1, fl 0⟩, "origin"⟩, ⟨"lookat", .vec 3, .v ⟨fl 0, fl 0, fl 0⟩, "target"⟩,
      ⟨"lookat", .vec 6, .v ⟨fl 0, fl 1, fl 0⟩, "up"⟩], ["origin", "target", "up"]⟩,
   ⟨"mesh", some "triangle_mesh", meshFields ++ [fStr "filename" "default" "filename",
      fStr "geom_shader" "default" "shader", fFlag "flip_norms" "flip_norms"], []⟩,
   ⟨"mesh", some "sdf_sphere", meshFields ++ [fVec fl "center" 0 0 0 "center", fNum fl "radius" 1 "radius",
      fNum fl "interp" 0 "interp"], []⟩,
   ⟨"mesh", some "sdf_plane", meshFields ++ [fVec fl "center" 0 0 0 "center", fVec fl "normal" 0 1 0 "normal",
      fNum fl "interp" 0 "interp"], []⟩,
   ⟨"mesh", some "sdf_cylinder", meshFields ++ [fVec fl "first" 1 1 1 "first", fVec fl "second" 0 0 0 "second",
      fNum fl "radius" 0 "radius"], []⟩,
   ⟨"mesh", some "sdf_cone", meshFields ++ [fVec fl "first" 1 1 1 "first", fVec fl "second" 0 0 0 "second",
      fNum fl "radius_1" 0 "radius_1", fNum fl "radius_2" 0 "radius_2"], []⟩,
   ⟨"bsdf", some "diffuse", [fStr "name" "bsdf" "name", fStr "type" "diffuse" "type",
      fVec fl "albedo" (8 / 10) (8 / 10) (8 / 10) "albedo"], []⟩,
   ⟨"bsdf", some "mirror", [fStr "name" "bsdf" "name", fStr "type" "diffuse" "type",
      fVec fl "albedo" 1 1 1 "albedo"], []⟩,
   ⟨"bsdf", some "dielectric", [fStr "name" "bsdf" "name", fStr "type" "diffuse" "type",
      fNum fl "int_ior" (3 / 2) "int_ior", fNum fl "ext_ior" 1 "ext_ior"], []⟩,
   ⟨"bsdf", some "phong", [fStr "name" "bsdf" "name", fStr "type" "diffuse" "type",
      fVec fl "kd" (1 / 2) (1 / 2) (1 / 2) "kd", fNum fl "ks" (1 / 2) "ks", fNum fl "exponent" 2 "exponent"], []⟩,
   ⟨"bsdf", some "blinn", [fStr "name" "bsdf" "name", fStr "type" "diffuse" "type",
      fVec fl "kd" (1 / 2) (1 / 2) (1 / 2) "kd", fVec fl "ks" (1 / 2) (1 / 2) (1 / 2) "ks",
      fNum fl "exponent" 2 "exponent"], []⟩,
   ⟨"shader", some "interp_verts_to_sphere", [fStr "name" "shader" "name", fStr "type" "none" "type",
      fNum fl "prop_of_minor_axis" 0 "prop", fNum fl "proxy" 0 "proxy"], []⟩,
   ⟨"shader", some "simple_material", [fStr "name" "shader" "name", fStr "type" "none" "type",
      fStr "bsdf" "defualt" "bsdf"], []⟩]

/-- Samplers, without the seed. -/
def samplerRow : Row F :=
  ⟨"sampler", some "independent", [fStr "name" "sampler" "name", fStr "type" "independent" "type",
    fInt "sample_count" 8 "sample_cnt"], []⟩

/-- The seed of a sampler. -/
def seedField : Field F := fInt "seed" 0x12345678 "seed"

/-- Integrators other than the photon mapper: any type. -/
def integratorRow (t : String) : Row F := ⟨"integrator", some t, integratorFields, []⟩

/-- Grids have no media, but the media fields are read. -/
def gridRow : Row F :=
  ⟨"mesh", some "grid", [fStr "name" "mesh" "name", fStr "type" "default" "type",
    fStr "texture" "default" "texture", fStr "geom_shader" "default" "shader",
    ⟨"resolution", .int2, .ii (2, 2), "resolution"⟩], []⟩

/-- Boxes: the "interp" field is read but has no effect. -/
def boxRow : Row F :=
  ⟨"mesh", some "sdf_box", meshFields ++ [fVec fl "tlc" 1 1 1 "tlc", fVec fl "brc" 0 0 0 "brc"], []⟩

/-- Fields that are read and have no effect. -/
def unusedGrid : List (Field F) :=
  [fFlag "is_null" "is_null", fStr "inside_media" "null" "inside_media", fStr "outside_media" "null" "outside_media"]

def unusedBox : List (Field F) := [fNum fl "interp" 0 "interp"]

/-- Lights. -/
def emitterRows : List (Row F) :=
  [⟨"emitter", some "point", [fStr "name" "emitter" "name", fStr "type" "point" "type",
      fVec fl "position" 0 0 0 "pos", fVec fl "intensity" 1 1 1 "intensity"], []⟩,
   ⟨"emitter", some "mesh", [fStr "name" "emitter" "name", fStr "type" "point" "type",
      fVec fl "intensity" 1 1 1 "intensity"], []⟩,
   ⟨"emitter", some "environment", [fStr "name" "emitter" "name", fStr "type" "point" "type",
      fVec fl "intensity" 1 1 1 "intensity", fStr "texture" "" "texture"], []⟩,
   ⟨"emitter", some "directional", [fStr "name" "emitter" "name", fStr "type" "point" "type",
      fVec fl "light_dir" 1 0 0 "light_dir", fVec fl "radiance" 1 1 1 "radiance"], []⟩,
   ⟨"emitter", some "directional_mesh", [fStr "name" "emitter" "name", fStr "type" "point" "type",
      fVec fl "intensity" 1 1 1 "intensity", fVec fl "light_dir" 1 0 0 "light_dir"], []⟩,
   ⟨"emitter", some "spot", [fStr "name" "emitter" "name", fStr "type" "point" "type",
      fVec fl "light_pos" 0 0 0 "light_pos", fVec fl "light_dir" 1 0 0 "light_dir",
      fVec fl "radiance" 1 1 1 "radiance", fNum fl "light_angle" 25 "light_angle"], []⟩]

/-- Textures, as the format names the fields. -/
def textureRow : Row F :=
  ⟨"texture", some "image", [fStr "name" "texture" "name", fStr "type" "image" "type",
    fStr "filename" "" "filename", fVec fl "scale" 1 1 1 "scale"], []⟩

end Table

/-- The types a section supports, and the type it has if none is given. `none`: the section takes any
type. -/
def supported : List (String × String × List String) :=
  [("media_density", "sphere", ["sphere"]),
   ("accel", "light_naive", ["light_naive", "light_spatial"]),
   ("sampler", "independent", ["independent"]),
   ("camera", "perspective", ["perspective"]),
   ("mesh", "default", ["triangle_mesh", "grid", "sdf_sphere", "sdf_plane", "sdf_box", "sdf_cylinder",
     "sdf_cone"]),
   ("emitter", "point", ["point", "mesh", "environment", "directional", "directional_mesh", "spot"]),
   ("bsdf", "diffuse", ["diffuse", "mirror", "dielectric", "phong", "blinn"]),
   ("shader", "none", ["interp_verts_to_sphere", "simple_material"]),
   ("texture", "image", ["image"])]

/-- The sections of the format. -/
def sectionNames : List String :=
  ["scene", "media", "media_density", "accel", "integrator", "sampler", "camera", "object", "mesh", "emitter",
   "bsdf", "shader", "texture"]

/-- The transform a member of an object or light stands for. -/
def ownTransform (fl : Rat → F) (m : String × Js) : Option (Call F) :=
  match cstr m.1, m.2 with
  | "scale", .arr xs =>
    match decode fl (.vec 0) (.arr xs) with
    | some (.v x) => some (.scale x)
    | _ => none
  | "translate", .arr xs =>
    match decode fl (.vec 0) (.arr xs) with
    | some (.v x) => some (.translate x)
    | _ => none
  | "rotate", .arr xs =>
    match xs[0]?.bind (number fl), decode fl (.vec 1) (.arr xs) with
    | some a, some (.v x) => some (.rotate a x)
    | _, _ => none
  | _, _ => none

/-- Is the member a transform that cannot be read? -/
def BadTransform (fl : Rat → F) (m : String × Js) : Prop :=
  cstr m.1 ∈ ["scale", "translate", "rotate"] ∧ ownTransform fl m = none

/-- The transforms listed in a section, in order. -/
def ownTransforms (fl : Rat → F) (ms : List (String × Js)) : List (Call F) := ms.filterMap (ownTransform fl)

/-- Transform commands. -/
def Call.isTransform : Call F → Bool
  | .clearTransform | .scale _ | .translate _ | .rotate _ _ => true
  | _ => false

end Feign.Parser
