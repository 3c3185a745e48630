import Verif.Api.Registry

/-!
# Scene descriptions by name (specification)

What a user of the API has in mind: there are no nodes and pointers, only names. Each kind has a table from
names to entries; a definition refers to other entries by name.
-/

namespace Feign.Api

/-- The name of an entry. -/
abbrev Key := Kind × String

/-- A definition with references by name; `none` is "no such thing" (a reserved name). -/
structure ADef (D T : Type) where
  type : String
  refs : List (Option Key)
  data : Option D
  xf : Option T
  deriving DecidableEq

/-- An entry: its definition, if it was given yet, and for emitters the object carrying it. -/
structure ANode (D T : Type) where
  payload : Option (ADef D T)
  owner : Option Key
  deriving DecidableEq

/-- The scene's settings by name. -/
structure AScene (D : Type) where
  name : String
  integrator : Option Key
  sampler : Option Key
  camera : Option Key
  media : Option Key
  data : Option D
  deriving DecidableEq

/-- The description as seen through names. -/
@[ext] structure Desc (D T : Type) where
  entry : Key → Option (ANode D T)
  scene : Option (AScene D)
  lights : List Key
  accel : Option String
  sdfOnly : Bool
  cur : T
  apiOn : Bool

variable {D T : Type}

/-- Name of the node behind a pointer. -/
def St.key (s : St D T) (p : Ptr) : Option Key := (p.bind s.node).map fun n => (n.kind, n.name)

/-- A node's definition with names instead of pointers. -/
def St.viewDef (s : St D T) (d : Def D T) : ADef D T := ⟨d.type, d.refs.map s.key, d.data, d.xf⟩

/-- A node with names instead of pointers. -/
def St.viewNode (s : St D T) (n : Node D T) : ANode D T := ⟨n.payload.map s.viewDef, s.key n.owner⟩

/-- The scene record with names instead of pointers. -/
def St.viewScene (s : St D T) (r : SceneRec D) : AScene D :=
  ⟨r.name, s.key r.integrator, s.key r.sampler, s.key r.camera, s.key r.media, r.data⟩

/-- The description a session state stands for. -/
def St.view (s : St D T) : Desc D T where
  entry k := ((s.lookup k.1 k.2).bind s.node).map s.viewNode
  scene := s.scene.map s.viewScene
  lights := s.lights.filterMap fun p => s.key (some p)
  accel := s.accel
  sdfOnly := s.sdfOnly
  cur := s.cur
  apiOn := s.apiOn

/-- What a name refers to: nothing for reserved names. -/
def ref (k : Key) : Option Key := if reserved k.1 k.2 then none else some k

/-- The entry a name has before anybody defines it. -/
def fresh (k : Key) : ANode D T :=
  if k = (.matShader, "default") then
    ⟨some ⟨"simple_material", [some (.bsdf, "default")], none, none⟩, none⟩
  else ⟨(predefined k.1 k.2 : Option (Def D T)).map fun d => ⟨d.type, [], d.data, d.xf⟩, none⟩

/-- Mentioning names makes entries for them. -/
def closure (ks : List Key) : List Key :=
  ks.flatMap fun k => if k = (.matShader, "default") then [k, (.bsdf, "default")] else [k]

/-- The description after some names were mentioned: names not seen before get their fresh entry. -/
def Desc.mention (a : Desc D T) (ks : List Key) : Desc D T :=
  { a with entry := fun k =>
      (a.entry k).or (if k ∈ closure ks ∧ reserved k.1 k.2 = false then some (fresh k) else none) }

/-- Give entry `k` the definition `d`. -/
def Desc.define (a : Desc D T) (k : Key) (d : ADef D T) : Desc D T :=
  { a with entry := fun k' => if k' = k then (a.entry k).map fun n => { n with payload := some d }
                              else a.entry k' }

/-- Record the object carrying emitter `e`. -/
def Desc.own (a : Desc D T) (e o : Key) : Desc D T :=
  { a with entry := fun k' => if k' = e then (a.entry e).map fun n => { n with owner := some o }
                              else a.entry k' }

end Feign.Api
