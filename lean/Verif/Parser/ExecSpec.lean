import Verif.Parser.Exec
import Verif.Parser.Spec
import Verif.Api.NameSpec

/-!
# The scene a file describes (specification)

What a reader of a scene file has in mind: a list of declarations, one per section, each with the transform
written in its own section. `describe` turns such a list into the scene by names, without any notion of calls
being carried out one after the other.
-/

namespace Feign.Parser

open Api (Key Kind ADef ANode AScene Desc ref fresh closure reserved)

variable {F T : Type}

/-- The type a parameter block belongs to. -/
def MeshP.type : MeshP F → String
  | .obj .. => "triangle_mesh"
  | .grid .. => "grid"
  | .sphere .. => "sdf_sphere"
  | .plane .. => "sdf_plane"
  | .box .. => "sdf_box"
  | .cylinder .. => "sdf_cylinder"
  | .cone .. => "sdf_cone"

def EmitterP.type : EmitterP F → String
  | .point .. => "point"
  | .mesh .. => "mesh"
  | .environment .. => "environment"
  | .directional .. => "directional"
  | .directionalMesh .. => "directional_mesh"
  | .spot .. => "spot"

def BsdfP.type : BsdfP F → String
  | .diffuse .. => "diffuse"
  | .mirror .. => "mirror"
  | .dielectric .. => "dielectric"
  | .phong .. => "phong"
  | .blinn .. => "blinn"

def ShaderP.type : ShaderP F → String
  | .interp .. => "interp_verts_to_sphere"
  | .simple .. => "simple_material"

/-- The name a declaration defines. -/
def Call.key : Call F → Option Key
  | .media name .. => some (.media, name)
  | .density name .. => some (.density, name)
  | .integrator name .. => some (.integrator, name)
  | .sampler name .. => some (.sampler, name)
  | .camera name .. => some (.camera, name)
  | .object name .. => some (.object, name)
  | .mesh name .. => some (.mesh, name)
  | .emitter name .. => some (.emitter, name)
  | .bsdf name .. => some (.bsdf, name)
  | .shader name _ (.interp ..) => some (.geomShader, name)
  | .shader name _ (.simple ..) => some (.matShader, name)
  | .texture name .. => some (.texture, name)
  | _ => none

/-- The emitter an object is declared to carry. -/
def Call.carried : Call F → Option String
  | .object _ _ _ e => if e = "null" ∨ e = "" then none else some e
  | _ => none

/-- Media on both sides of a shape; not looked at if neither is given. -/
def BoundaryP.media (b : BoundaryP) : List Key :=
  if b.inside = "null" ∧ b.outside = "null" then [] else [(.media, b.inside), (.media, b.outside)]

/-- What a shape refers to. -/
def MeshP.uses : MeshP F → List Key
  | .obj _ shader _ b => (.geomShader, shader) :: b.media
  | .grid texture shader _ => [(.geomShader, shader), (.texture, texture)]
  | .sphere _ _ _ b | .plane _ _ _ b | .box _ _ b | .cylinder _ _ _ b | .cone _ _ _ _ b => b.media

/-- The names a declaration refers to. -/
def Call.uses : Call F → List Key
  | .scene _ i s cam med _ _ _ =>
    [(.integrator, i), (.sampler, s), (.camera, cam)] ++ if med = "" then [] else [(.media, med)]
  | .media _ transEst phase sampling dens transFunc _ _ =>
    [(.transEst, transEst), (.phase, phase), (.medSampling, sampling), (.density, dens), (.transFunc, transFunc)]
  | .integrator _ _ filter _ _ => [(.filter, filter)]
  | .object _ me sh e =>
    [(.mesh, me), (.matShader, sh)] ++ if e = "null" ∨ e = "" then [] else [(.emitter, e)]
  | .mesh _ _ p => p.uses
  | .emitter _ _ (.environment _ tex) => [(.texture, tex)]
  | .shader _ _ (.simple b) => [(.bsdf, b)]
  | _ => []

/-- The type written in a declaration. -/
def Call.type : Call F → String
  | .density _ type _ _ | .integrator _ type _ _ _ | .sampler _ type _ _ | .camera _ type _
  | .mesh _ type _ | .emitter _ type _ | .bsdf _ type _ | .shader _ type _ | .texture _ type _ _ => type
  | .object .. => "object"
  | _ => ""

/-- The definition a declaration gives its name, with transform `x` in its section. -/
def built (x : T) (c : Call F) : ADef (Call F) T :=
  match c with
  | .object _ mesh shader emitter =>
    ⟨"object", [some (.mesh, mesh), some (.matShader, shader),
      if emitter = "null" ∨ emitter = "" then none else some (.emitter, emitter)], none, some x⟩
  | .camera _ type _ => ⟨type, [], some c, some x⟩
  | _ => ⟨c.type, c.uses.map ref, some c, none⟩

/-- The declaration of a section with the transform written in the section. -/
abbrev Entry (F T : Type) := T × Call F

/-- All names a list of declarations talks about. -/
def talksOf (l : List (Entry F T)) : List Key := l.flatMap fun p => p.2.key.toList ++ p.2.uses

/-- The definition of a name, if the list has one. -/
def definedAs (l : List (Entry F T)) (k : Key) : Option (ADef (Call F) T) :=
  l.findSome? fun p => if p.2.key = some k then some (built p.1 p.2) else none

/-- The last object declared to carry a name, which has to be an emitter's. -/
def ownerOf (l : List (Entry F T)) (k : Key) : Option Key :=
  l.reverse.findSome? fun p => if p.2.carried.map (fun e => (Kind.emitter, e)) = some k then p.2.key else none

/-- The scene's settings. -/
def settings : Call F → Option (AScene (Call F))
  | c@(.scene name integrator sampler camera medium _ _ _) =>
    some ⟨name, ref (.integrator, integrator), ref (.sampler, sampler), ref (.camera, camera),
      if medium = "" then none else ref (.media, medium), some c⟩
  | _ => none

/-- The flag of the scene section. -/
def modeOf : Call F → Option Bool
  | .scene _ _ _ _ _ _ _ sdf => some sdf
  | _ => none

/-- The type of a light accelerator. -/
def accelOf : Call F → Option String
  | .accel _ type _ => some type
  | _ => none

/-- The scene a list of declarations describes. A name that is talked about has an entry: what it was declared
as, or else what the renderer provides under that name. -/
def describe (one : T) (l : List (Entry F T)) : Desc (Call F) T where
  entry k :=
    if k ∈ closure (talksOf l) ∧ reserved k.1 k.2 = false then
      some ⟨(definedAs l k).or (fresh k).payload, ownerOf l k⟩
    else none
  scene := l.findSome? fun p => settings p.2
  lights := l.filterMap fun p => if p.2.api = "emitter" then p.2.key else none
  accel := l.reverse.findSome? fun p => accelOf p.2
  sdfOnly := (l.findSome? fun p => modeOf p.2).getD true
  cur := one
  apiOn := false

/-- The declaration of a section, with the transform of its own commands; none if there is nothing to declare
(`accel` of an unknown type). -/
def sectionEntry (fl : Rat → F) (m : Xf F T) (sec : String × Js) : Option (Entry F T) :=
  ((sectionOf fl (cstr sec.1) sec.2).calls.find? fun c => !c.isTransform).map fun c =>
    (((sectionOf fl (cstr sec.1) sec.2).calls.takeWhile Call.isTransform).foldl m.act m.one, c)

/-- The declarations of a file. -/
def entries (fl : Rat → F) (m : Xf F T) (ms : List (String × Js)) : List (Entry F T) :=
  ms.filterMap (sectionEntry fl m)

/-- Names a file may not define: those standing for "nothing" and those the renderer provides. -/
def takenNames : List Key :=
  [(.emitter, "null"), (.media, "null"), (.media, "default"), (.texture, ""), (.texture, "default"), (.density, ""),
   (.bsdf, "default"), (.matShader, "default")]

/-- The integrators there are. -/
def integratorTypes : List String :=
  ["ao", "normal", "nice_normal", "whitted", "cosine_term", "barycentric", "path", "volpath", "volpath_nonexp",
   "volpath_trans", "photon", "sandbox"]

/-- Can declaration `c` follow the declarations `l`? -/
structure Fits (l : List (Call F)) (c : Call F) : Prop where
  /-- its name is free -/
  name : ∀ k, c.key = some k → k ∉ takenNames ∧ ∀ c' ∈ l, c'.key ≠ some k
  /-- there is one scene -/
  scene : c.api = "scene" → ∀ c' ∈ l, c'.api ≠ "scene"
  /-- lights and their accelerator belong to a scene -/
  light : c.api = "emitter" ∨ c.api = "accel" → ∃ c' ∈ l, c'.api = "scene"
  integrator : c.api = "integrator" → c.type ∈ integratorTypes

/-- Each declaration can follow those before it. -/
def AllFit (l : List (Entry F T)) : Prop := ∀ A p B, l = A ++ p :: B → Fits (A.map (·.2)) p.2

/-- Lights and light accelerators come after the scene. -/
def LightsLater (l : List (Entry F T)) : Prop :=
  ∀ A p B, l = A ++ p :: B → p.2.api = "emitter" ∨ p.2.api = "accel" → ∃ q ∈ A, q.2.api = "scene"

/-- A name with a declaration. -/
def Declared (l : List (Call F)) (k : Key) : Prop := ∃ c ∈ l, c.key = some k

/-- The declarations refer to nothing that is missing when the scene is put together. -/
structure Whole (l : List (Call F)) : Prop where
  scene : ∃ c ∈ l, c.api = "scene"
  /-- the scene's camera, sampler and integrator; the integrator's filter is the one the renderer provides -/
  settings : ∀ n i s cam med kw ds sdf, .scene n i s cam med kw ds sdf ∈ l →
    Declared l (.camera, cam) ∧ Declared l (.sampler, s) ∧ ∃ t p ph, .integrator i t "default" p ph ∈ l
  /-- the shape of each object, and the light it carries -/
  objects : ∀ n me sh e, .object n me sh e ∈ l →
    Declared l (.mesh, me) ∧ (e ≠ "null" → e ≠ "" → Declared l (.emitter, e))
  /-- media -/
  media : ∀ c ∈ l, ∀ n, (Kind.media, n) ∈ c.uses → n ≠ "null" → n ≠ "default" → Declared l (.media, n)
  /-- what a medium is made of: the provided estimator and sampling, some transmittance, a density -/
  optics : ∀ n te ph sa de tf a s, .media n te ph sa de tf a s ∈ l →
    te = "default" ∧ sa = "default" ∧ tf ≠ "" ∧ de ≠ "" ∧ Declared l (.density, de)

end Feign.Parser
