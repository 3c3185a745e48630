import Mathlib.Data.List.Basic
import Mathlib.Tactic.DeriveFintype

/-!
# Scene description calls (model)

`src/api/api.cpp:158-1497`. The session state holds a heap of nodes addressed by pointers (indices; `none` is
`nullptr`), one table from names to nodes per kind (`std::unordered_map<std::string, XNode *>`), the scene,
the current transform and the `API` timer flag.

* `D`: parameters of a definition (colours, file names, …), opaque. `T`: transforms, opaque here
  (`Verif/Api/TransformCmd.lean` models them).
* A node's definition (`node->bsdf`, `node->mesh`, …) is the type string, the nodes it refers to, its
  parameters and, for cameras and objects, the current transform when it was declared.
* `throw` (`throw new …`), `abort` (failing `assert`; no build type is set in `CMakeLists.txt`, so asserts
  are active) and `ub` (null dereference) are distinct outcomes; a throwing call keeps the state changes made
  before the throw.
* `void *` parameter blocks are assumed to be of the right type and not null where the code reads them.
* `clk`: the compile-time switch `CLOCKING` (`include/feign/common.h`), `true` in the code.
-/

namespace Feign.Api

/-- The kinds of node: one registry each, `include/feign/core/api.h`. -/
inductive Kind where
  | integrator | sampler | camera | mesh | emitter | media | bsdf | filter | object
  | geomShader | matShader | texture | density | phase | medSampling | transEst | transFunc
  deriving DecidableEq, Repr

/-- Outcome of a call. -/
inductive Out where
  | ok | throw | abort | ub
  deriving DecidableEq, Repr

/-- A node pointer; `none` is `nullptr`. -/
abbrev Ptr := Option Nat

/-- What a node is defined as. -/
structure Def (D T : Type) where
  type : String
  refs : List Ptr
  data : Option D
  xf : Option T
  deriving DecidableEq

/-- `struct Node` and its subclasses: `name` and the owned definition (initially null); `owner` is
`EmitterNode::objectNode`, `include/feign/core/emitter.h:476-494`. -/
structure Node (D T : Type) where
  kind : Kind
  name : String
  payload : Option (Def D T)
  owner : Ptr
  deriving DecidableEq

/-- The scene created by `fr_scene`: name and the nodes it refers to. -/
structure SceneRec (D : Type) where
  name : String
  integrator : Ptr
  sampler : Ptr
  camera : Ptr
  media : Ptr
  data : Option D
  deriving DecidableEq

/-- State of `FeignRenderer::instance` plus `global_params.sdf_only` and the `API` timer flag. -/
structure St (D T : Type) where
  nodes : List (Node D T)
  reg : List ((Kind × String) × Nat)
  scene : Option (SceneRec D)
  lights : List Nat
  accel : Option String
  sdfOnly : Bool
  cur : T
  apiOn : Bool

variable {D T : Type}

/-- `FeignRenderer(image)` and `Clocker::initialize`, `api.cpp:46-85, 149-156`; `one` is `Transform()`. -/
def St.init (one : T) : St D T := ⟨[], [], none, [], none, true, one, false⟩

/-- `map.find(name)`. -/
def St.lookup (s : St D T) (k : Kind) (n : String) : Option Nat := s.reg.lookup (k, n)

/-- Dereference a node pointer. -/
def St.node (s : St D T) (p : Nat) : Option (Node D T) := s.nodes[p]?

/-- Names for which `find_X` returns `nullptr`: `api.cpp:216-219` (emitter), `:238-241` (media), `:368-371`
(texture), `:389-390` (density), `:410-411` (phase), `:435-436` (sampling), `:460-461` (transmittance
estimator), `:486-487` (transmittance function). -/
def reserved : Kind → String → Bool
  | .emitter, n => n == "null"
  | .media, n => n == "null" || n == "default"
  | .texture, n => n == "" || n == "default"
  | .density, n | .phase, n | .medSampling, n | .transEst, n | .transFunc, n => n == ""
  | _, _ => false

/-- Definitions given by `find_X` to nodes called "default", without references: `api.cpp:167-170` (bsdf),
`:280-285` (filter), `:419-422` (phase), `:444-447` (sampling), `:469-473` (transmittance estimator),
`:495-498` (transmittance function). -/
def predefined : Kind → String → Option (Def D T)
  | .bsdf, "default" => some ⟨"nullbsdf", [], none, none⟩
  | .filter, "default" => some ⟨"gauss", [], none, none⟩
  | .phase, "default" => some ⟨"hg", [], none, none⟩
  | .medSampling, "default" => some ⟨"constant", [], none, none⟩
  | .transEst, "default" => some ⟨"homo", [], none, none⟩
  | .transFunc, "default" => some ⟨"exp", [], none, none⟩
  | _, _ => none

/-- `new XNode(name)` and `map.insert`. -/
def St.alloc (s : St D T) (k : Kind) (n : String) : Ptr × St D T :=
  (some s.nodes.length,
   { s with nodes := s.nodes ++ [⟨k, n, predefined k n, none⟩], reg := s.reg ++ [((k, n), s.nodes.length)] })

/-- `find_X(name)` for all kinds, `api.cpp:158-507`, except for the material shader called "default". -/
def findBase (k : Kind) (n : String) (s : St D T) : Ptr × St D T :=
  if reserved k n then (none, s) else
    match s.lookup k n with
    | some p => (some p, s)
    | none => s.alloc k n

/-- Set the definition of node `p`. -/
def St.setPayload (s : St D T) (p : Nat) (d : Def D T) : St D T :=
  { s with nodes := s.nodes.modify p fun n => { n with payload := some d } }

/-- `find_X(name)` including `find_material_shader("default")`, `api.cpp:343-364`, whose shader refers to the
BSDF "default". -/
def find (k : Kind) (n : String) (s : St D T) : Ptr × St D T :=
  if k = .matShader ∧ n = "default" ∧ s.lookup k n = none then
    let r := s.alloc k n
    let b := findBase .bsdf "default" r.2
    (r.1, b.2.setPayload s.nodes.length ⟨"simple_material", [b.1], none, none⟩)
  else findBase k n s

/-- Several lookups in order. -/
def findAll : List (Kind × String) → St D T → List Ptr × St D T
  | [], s => ([], s)
  | (k, n) :: rest, s =>
    let r := find k n s
    let q := findAll rest r.2
    (r.1 :: q.1, q.2)

/-- What the type string leads to once the node was found undefined. -/
inductive Verdict where
  /-- the definition is created -/
  | ok
  /-- `throw new NotImplementedException` -/
  | throw
  /-- `assert(false)` -/
  | abort
  /-- nothing is stored: `fr_bsdf` with type "null", `api.cpp:1395-1398` -/
  | nothing
  deriving DecidableEq, Repr

/-- The common shape of the declaring calls. -/
structure Decl (D : Type) where
  kind : Kind
  name : String
  /-- looked up before the "already defined" test -/
  pre : List (Kind × String)
  verdict : Verdict
  type : String
  /-- looked up when the definition is created -/
  post : List (Kind × String)
  data : D
  /-- records the current transform -/
  useXf : Bool
  /-- added to the scene's lights -/
  light : Bool

/-- Body of a declaring call between the timer calls. -/
def declare (d : Decl D) (s : St D T) : Out × St D T :=
  let r := find d.kind d.name s
  let q := findAll d.pre r.2
  match r.1 with
  | none => (.ub, q.2)
  | some p =>
    match q.2.node p with
    | none => (.ub, q.2)
    | some nd =>
      if nd.payload.isSome then (.throw, q.2) else
      match d.verdict with
      | .throw => (.throw, q.2)
      | .abort => (.abort, q.2)
      | .nothing => (.ok, q.2)
      | .ok =>
        let w := findAll d.post q.2
        let s4 := w.2.setPayload p
          ⟨d.type, q.1 ++ w.1, some d.data, if d.useXf then some s.cur else none⟩
        if d.light then
          if s4.scene.isNone then (.ub, s4) else (.ok, { s4 with lights := s4.lights ++ [p] })
        else (.ok, s4)

/-- Calls of the scene description API (arguments that matter here). -/
inductive Call (D T : Type) where
  | accel (type : String)
  | scene (name integrator sampler camera medium : String) (data : D) (sdf : Bool)
  | integrator (name type filter : String) (data : D)
  | sampler (name type : String) (data : D)
  | camera (name type : String) (data : D)
  | object (name mesh shader emitter : String) (index : Int)
  | mesh (name type shader texture inside outside : String) (data : D)
  | shader (name type bsdf bsdf2 : String) (data : D)
  | media (name trans phase sampling density transFunc : String) (data : D)
  | density (name type : String) (data : D)
  | phase (name type : String) (data : D)
  | medSampling (name type : String) (data : D)
  | transEst (name type : String) (data : D)
  | transFunc (name type : String) (data : D)
  | emitter (name type texture : String) (data : D)
  | bsdf (name type : String) (data : D)
  | texture (name type : String) (data : D)
  | transform (f : T → T)

/-- A type from a list; others throw. -/
def acc (l : List String) (t : String) : Verdict := if t ∈ l then .ok else .throw

/-- Media of a shape: looked up unless both names are "null", `api.cpp:824-830` and likewise `:854-860,
874-880, 894-900, 913-919, 933-939`. -/
def boundary (inside outside : String) : List (Kind × String) :=
  if inside ≠ "null" ∨ outside ≠ "null" then [(.media, inside), (.media, outside)] else []

/-- The declaring calls as `Decl`; `none` for other calls and for calls that throw before any lookup
(`fr_shader` with an unknown type, `api.cpp:1007-1010`; `fr_medium_phase`, `:1107-1118`). -/
def decl? : Call D T → Option (Decl D)
  -- `api.cpp:593-674`
  | .integrator n t f d => some ⟨.integrator, n, [(.filter, f)],
      acc ["ao", "normal", "nice_normal", "whitted", "cosine_term", "barycentric", "path", "volpath",
        "volpath_nonexp", "volpath_trans", "photon", "sandbox"] t, t, [], d, false, false⟩
  -- `api.cpp:676-704`
  | .sampler n t d => some ⟨.sampler, n, [], acc ["independent"] t, t, [], d, false, false⟩
  -- `api.cpp:706-756`
  | .camera n t d => some ⟨.camera, n, [], acc ["perspective"] t, t, [], d, true, false⟩
  -- `api.cpp:803-954`
  | .mesh n t sh tex i o d => some ⟨.mesh, n, [],
      acc ["triangle_mesh", "grid", "sdf_sphere", "sdf_plane", "sdf_box", "sdf_cylinder", "sdf_cone"] t, t,
      if t = "triangle_mesh" then (.geomShader, sh) :: boundary i o
      else if t = "grid" then [(.geomShader, sh), (.texture, tex)] else boundary i o, d, false, false⟩
  -- `api.cpp:956-1013`
  | .shader n t b b2 d =>
    if t = "interp_verts_to_sphere" then some ⟨.geomShader, n, [], .ok, t, [], d, false, false⟩
    else if t = "simple_material" then some ⟨.matShader, n, [], .ok, t, [(.bsdf, b)], d, false, false⟩
    else if t = "wireframe" then
      some ⟨.matShader, n, [], .ok, t, [(.bsdf, b), (.bsdf, b2)], d, false, false⟩
    else none
  -- `api.cpp:1015-1051`
  | .media n te ph ms df tf d => some ⟨.media, n, [], .ok, "", [(.transEst, te), (.phase, ph),
      (.medSampling, ms), (.density, df), (.transFunc, tf)], d, false, false⟩
  -- `api.cpp:1053-1105`
  | .density n t d => some ⟨.density, n, [], acc ["constant", "openvdb", "mandlebrot", "sphere"] t, t, [], d,
      false, false⟩
  | .phase _ _ _ => none
  -- `api.cpp:1120-1164`
  | .medSampling n t d => some ⟨.medSampling, n, [], acc ["delta", "ray", "constant"] t, t, [], d, false, false⟩
  -- `api.cpp:1166-1221`
  | .transEst n t d => some ⟨.transEst, n, [], acc ["homo", "delta", "ratio", "pseries", "ray"] t, t, [], d,
      false, false⟩
  -- `api.cpp:1223-1258`
  | .transFunc n t d => some ⟨.transFunc, n, [], acc ["exp", "lin"] t, t, [], d, false, false⟩
  -- `api.cpp:1260-1326`
  | .emitter n t tex d => some ⟨.emitter, n, [],
      acc ["point", "mesh", "environment", "directional", "directional_mesh", "spot"] t, t,
      if t = "environment" then [(.texture, tex)] else [], d, false, true⟩
  -- `api.cpp:1353-1417`
  | .bsdf n t d => some ⟨.bsdf, n, [],
      if t = "null" then .nothing
      else if t ∈ ["diffuse", "mirror", "dielectric", "one_way_dielectric", "nullbsdf", "phong", "blinn"]
        then .ok else .abort, t, [], d, false, false⟩
  -- `api.cpp:1419-1455`
  | .texture n t d => some ⟨.texture, n, [], acc ["image", "sin"] t, t, [], d, false, false⟩
  | _ => none

/-- `fr_scene` between the timer calls, `api.cpp:561-588`; the mode flag is written before the test. -/
def sceneBody (name i sa c m : String) (d : D) (sdf : Bool) (s : St D T) : Out × St D T :=
  let s := { s with sdfOnly := sdf }
  if s.scene.isSome then (.throw, s) else
    let r1 := find .integrator i s
    let r2 := find .sampler sa r1.2
    let r3 := find .camera c r2.2
    let r4 := if m = "" then (none, r3.2) else find .media m r3.2
    (.ok, { r4.2 with scene := some ⟨name, r1.1, r2.1, r3.1, r4.1, some d⟩ })

/-- `fr_accel` between the timer calls, `api.cpp:515-545`; the parameters of the
spatial grid are left out (`Verif/Sampling/LightSelect.lean`). -/
def accelBody (t : String) (s : St D T) : Out × St D T :=
  if s.scene.isNone then (.abort, s)
  else if t = "light_naive" ∨ t = "light_spatial" then (.ok, { s with accel := some t })
  else (.throw, s)

/-- `CLOCKER_START_ONE(API)` at entry and `CLOCKER_STOP_ONE(API)` at the normal end of a call
(`src/stats/clocker.cpp:243-263`). A call that does not reach its end leaves the timer running. -/
def timed (clk : Bool) (body : St D T → Out × St D T) (s : St D T) : Out × St D T :=
  if clk then
    if s.apiOn then (.throw, s) else
      let r := body { s with apiOn := true }
      match r.1 with
      | .ok => if r.2.apiOn then (.ok, { r.2 with apiOn := false }) else (.throw, r.2)
      | o => (o, r.2)
  else body s

/-- `name += "_" + std::to_string(index)` if `index >= 0`, `api.cpp:767-768`. -/
def objName (name : String) (index : Int) : String :=
  if 0 ≤ index then name ++ "_" ++ toString index else name

/-- The end of `fr_object`, `api.cpp:786-796`, for object node `p`. -/
def objectFill (mesh shader emitter : String) (p : Nat) (s : St D T) : St D T :=
  let m := find .mesh mesh s
  let h := find .matShader shader m.2
  if emitter ≠ "null" ∧ emitter ≠ "" then
    let e := find .emitter emitter h.2
    let s' := match e.1 with
      | some q => { e.2 with nodes := e.2.nodes.modify q fun n => { n with owner := some p } }
      | none => e.2
    s'.setPayload p ⟨"object", [m.1, h.1, e.1], none, some s.cur⟩
  else h.2.setPayload p ⟨"object", [m.1, h.1, none], none, some s.cur⟩

/-- `fr_object`, `api.cpp:758-799`: a taken name makes the call invoke itself with the extended name and the
next index, with the timer still running, and return without stopping it. `none`: still recursing after
`fuel` nested calls. -/
def objectCall (clk : Bool) (mesh shader emitter : String) :
    ℕ → String → Int → St D T → Option (Out × St D T)
  | 0, _, _, _ => none
  | fuel + 1, name, index, s =>
    if clk && s.apiOn then some (.throw, s) else
      let s0 := { s with apiOn := clk || s.apiOn }
      let nm := objName name index
      let r := find .object nm s0
      match r.1 with
      | none => some (.ub, r.2)
      | some p =>
        match r.2.node p with
        | none => some (.ub, r.2)
        | some nd =>
          if nd.payload.isSome then objectCall clk mesh shader emitter fuel nm (index + 1) r.2
          else
            let s1 := objectFill mesh shader emitter p r.2
            some (.ok, if clk then { s1 with apiOn := false } else s1)

/-- A declaring call between the timer calls. -/
def declBody (c : Call D T) (s : St D T) : Out × St D T :=
  match decl? c with
  | some d => declare d s
  | none => (.throw, s)

/-- One API call. The fuel given to object calls always suffices (`step_total`). -/
def step (clk : Bool) (s : St D T) : Call D T → Option (Out × St D T)
  | .accel t => some (timed clk (accelBody t) s)
  | .scene n i sa c m d sdf => some (timed clk (sceneBody n i sa c m d sdf) s)
  | .object n m sh e i => objectCall clk m sh e (s.nodes.length + 2 + (-1 - i).toNat) n i s
  | .transform f => some (timed clk (fun s => (.ok, { s with cur := f s.cur })) s)
  | c => some (timed clk (declBody c) s)

/-- A history of calls. The caller may catch thrown exceptions and go on; after an abort or undefined
behaviour there is no further call. -/
def run (clk : Bool) : St D T → List (Call D T) → Option (List Out × St D T)
  | s, [] => some ([], s)
  | s, c :: cs =>
    match step clk s c with
    | none => none
    | some (o, s') =>
      if o = .ok ∨ o = .throw then (run clk s' cs).map fun r => (o :: r.1, r.2) else some ([o], s')

end Feign.Api
