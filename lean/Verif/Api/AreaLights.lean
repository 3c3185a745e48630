import Verif.Api.Flush
import Verif.Api.FlushLemmas
import Verif.Basic

/-!
# Attaching area lights to shapes (model)

How a light declared as "mesh" or "directional_mesh" gets the shape it shines from: the emitter loop of
`FeignRenderer::flush_renders`, `src/api/api.cpp:1538-1544`, the object loop of `Scene::preProcess`,
`src/scene.cpp:108-118`, and who reads it: `MeshEmitter::sample_nee`, `src/emitters/mesh.cpp:44-58`, and
`Scene::accumulate_emission`, `src/scene.cpp:674-690`. Lights that were named but never declared are the subject of C61
and take no part here.
-/

namespace Feign.Api
variable {D T : Type}

/-- The emitter node of an object, `ObjectNode::emitter` (`api.cpp:791-796`). -/
def St.emitterOf (s : St D T) (o : Nat) : Option Nat := do
  let nd ← s.node o
  let d ← nd.payload
  (← d.refs[2]?)

/-- Does the emitter override `setMeshNode` (`include/feign/core/emitter.h:93, 356, 408`)? -/
def St.isArea (s : St D T) (e : Nat) : Bool :=
  match (s.node e).bind (·.payload) with
  | some d => d.type == "mesh" || d.type == "directional_mesh"
  | none => false

/-- The fields `mesh` and `sa_pdf` of an area light: the mesh node, and the mesh node whose triangle areas were
tabulated. Both start as null pointers, `src/emitters/mesh.cpp:14-19`. -/
structure Lamp where
  mesh : Option Nat
  table : Option Nat
  deriving DecidableEq

/-- All lamps, by emitter node. -/
abbrev Lamps := Nat → Lamp

/-- Before `flush_renders`. -/
def Lamps.none : Lamps := fun _ => ⟨.none, .none⟩

/-- Change one lamp. -/
def Lamps.set (l : Lamps) (e : Nat) (x : Lamp) : Lamps := fun e' => if e' = e then x else l e'

/-- One round of the loop `api.cpp:1538-1544`: the mesh of the object recorded in the emitter node. -/
def attach (s : St D T) (l : Lamps) (e : Nat) : Lamps :=
  match (s.node e).bind (·.owner) with
  | none => l
  | some o => if s.isArea e then l.set e ⟨s.meshOf o, (l e).table⟩ else l

/-- One round of the loop `src/scene.cpp:109-118`: `setMeshNode` and `preProcess` (`src/emitters/mesh.cpp:26-42`) for
the emitter of an object. -/
def prepare (s : St D T) (l : Lamps) (o : Nat) : Lamps :=
  match s.emitterOf o with
  | none => l
  | some e => if s.isArea e then l.set e ⟨s.meshOf o, s.meshOf o⟩ else l

/-- The lamps when rendering starts. -/
def lamps (s : St D T) (os es : List Nat) : Lamps := os.foldl (prepare s) (es.foldl (attach s) Lamps.none)

/-- What `MeshEmitter::sample_nee` reads, `mesh.cpp:48-58`: the table of areas picks the triangle, the mesh has it. -/
def Lamp.sample (l : Lamp) : Res (Nat × Nat) :=
  match l.table, l.mesh with
  | some t, some m => .ok (t, m)
  | _, _ => .ub "null pointer"

/-- The emitter that a hit on the shape of mesh node `m` glows with: `Scene::accumulate_emission`, `scene.cpp:676-684`. -/
def Asm.glows (s : St D T) (a : Asm T) (m : Nat) : Option Nat := (a.shadedAs m).bind s.emitterOf

end Feign.Api
