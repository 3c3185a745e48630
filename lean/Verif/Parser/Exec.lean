import Verif.Parser.Json
import Verif.Api.Registry

/-!
# Running a scene file (model)

`src/parsers/json_parser.cpp:24-76` with the calls of `src/api/api.cpp`: the calls a file leads to
(`Verif/Parser/Json.lean`) are carried out on a new session (`Verif/Api/Registry.lean`), in order.

* The parameters of a definition are the parser's call itself, with its parameter block.
* How transforms compose is a parameter (`Xf`; `Verif/Api/TransformCmd.lean` models it).
* Neither `parse_and_run` nor `actually_parse` catches anything, so the first call that does not return ends
  the run.
* What happens in `flush_renders` is `Verif/Api/Flush.lean`; a run that gets there ends here as `rendered`.
-/

namespace Feign.Parser

/-- The transform commands, `api.cpp:1457-1497`: `one` is the cleared transform. -/
structure Xf (F T : Type) where
  one : T
  scale : V3 F → T → T
  translate : V3 F → T → T
  rotate : F → V3 F → T → T

variable {F T : Type}

/-- A command on the current transform. -/
def Xf.act (m : Xf F T) (t : T) : Call F → T
  | .clearTransform => m.one
  | .scale v => m.scale v t
  | .translate v => m.translate v t
  | .rotate a v => m.rotate a v t
  | _ => t

/-- Names in a shape's parameter block that `fr_mesh` looks up, `api.cpp:803-954`: shader, texture, media
inside and outside. -/
def MeshP.names : MeshP F → String × String × String × String
  | .obj _ shader _ b => (shader, "", b.inside, b.outside)
  | .grid texture shader _ => (shader, texture, "null", "null")
  | .sphere _ _ _ b | .plane _ _ _ b | .box _ _ b | .cylinder _ _ _ b | .cone _ _ _ _ b =>
    ("", "", b.inside, b.outside)

/-- The texture of an environment light, `api.cpp:1288-1295`. -/
def EmitterP.texture : EmitterP F → String
  | .environment _ texture => texture
  | _ => ""

/-- The BSDF of a material, `api.cpp:977-989`. -/
def ShaderP.bsdf : ShaderP F → String
  | .simple b => b
  | .interp _ _ => ""

/-- The parser's calls as calls of the session; `none` is `flush_renders`. Objects are declared with the
default index −1 (`include/feign/core/api.h:126-131`). -/
def toApi (m : Xf F T) (c : Call F) : Option (Api.Call (Call F) T) :=
  match c with
  | .scene name i s cam med _ _ sdf => some (.scene name i s cam med c sdf)
  | .media name te ph sa de tf _ _ => some (.media name te ph sa de tf c)
  | .density name type _ _ => some (.density name type c)
  | .accel _ type _ => some (.accel type)
  | .integrator name type filter _ _ => some (.integrator name type filter c)
  | .sampler name type _ _ => some (.sampler name type c)
  | .camera name type _ => some (.camera name type c)
  | .object name mesh shader emitter => some (.object name mesh shader emitter (-1))
  | .mesh name type p =>
    some (.mesh name type p.names.1 p.names.2.1 p.names.2.2.1 p.names.2.2.2 c)
  | .emitter name type p => some (.emitter name type p.texture c)
  | .bsdf name type _ => some (.bsdf name type c)
  | .shader name type p => some (.shader name type p.bsdf "" c)
  | .texture name type _ _ => some (.texture name type c)
  | .clearTransform | .scale _ | .translate _ | .rotate _ _ => some (.transform fun t => m.act t c)
  | .flush => none

/-- Carry out calls until one does not return. `none`: never (`exec_total`). -/
def exec (m : Xf F T) : Api.St (Call F) T → List (Call F) → Option (Api.Out × Api.St (Call F) T)
  | s, [] => some (.ok, s)
  | s, c :: cs =>
    match toApi m c with
    | none => exec m s cs
    | some a =>
      match Api.step true s a with
      | none => none
      | some (.ok, s') => exec m s' cs
      | some (o, s') => some (o, s')

/-- How the run of a file ends. -/
inductive End (F T : Type) where
  /-- `flush_renders` is reached, in this state -/
  | rendered (s : Api.St (Call F) T)
  /-- the parser gave up on the file -/
  | stopped (e : Stop)
  /-- a call did not return -/
  | failed (o : Api.Out)

/-- `JsonParser::parse_and_run`, `json_parser.cpp:24-76`, after the file was read, up to `flush_renders`. -/
def runFile (fl : Rat → F) (m : Xf F T) (doc : Js) : Option (End F T) :=
  match exec m (Api.St.init m.one) (parse fl doc).calls with
  | none => none
  | some (.ok, s) =>
    match (parse fl doc).out with
    | .ok _ => some (.rendered s)
    | .error e => some (.stopped e)
  | some (o, _) => some (.failed o)

end Feign.Parser
