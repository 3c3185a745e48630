import Verif.Api.Registry

/-!
# Assembling and rendering the scene (model)

`FeignRenderer::flush_renders`, `src/api/api.cpp:1499-1582`, with the parts of `Scene::preProcess`
(`src/scene.cpp:56-125`), `Media::preProcess` (`src/media/standard.cpp:34-42`), `Scene::renderScene`
(`src/scene.cpp:127-172`) and `Integrator::preProcess` (`src/integrators/integrator.cpp:17-25`) that follow
node pointers.

* The objects, emitters and media are visited in the iteration order of `std::unordered_map`, which is
  arbitrary: the orders are arguments (`os`, `es`, `ms`).
* Not modelled: what the shapes, the camera, the lights and the densities do in their own `preProcess`, and
  rendering itself; they are taken to succeed.
-/

namespace Feign.Api
variable {D T : Type}

/-- Scene lists and shape fields written during assembly: `scene->shapes` (the shape of mesh node `m` is
written `m`), `scene->objects`, `inst_index`, `Shape::transform` and `Shape::instID` (`none`: not set yet,
`include/feign/core/shape.h:63-80`). -/
structure Asm (T : Type) where
  shapes : List Nat
  objects : List Nat
  next : Nat
  xf : Nat → T
  inst : Nat → Option Nat

/-- Before assembly: empty lists (`src/scene.cpp:28-34`) and default transforms. -/
def Asm.init (one : T) : Asm T := ⟨[], [], 0, fun _ => one, fun _ => none⟩

/-- The mesh node an object refers to (`it.second->mesh`) and its transform; `none` if the object was not filled. -/
def St.object (s : St D T) (o : Nat) : Option (Nat × T) := do
  let nd ← s.node o
  let d ← nd.payload
  let m ← (← d.refs.head?)
  let x ← d.xf
  return (m, x)

/-- Is the node defined (`node->payload` not null)? -/
def St.defined (s : St D T) (p : Nat) : Bool := ((s.node p).bind (·.payload)).isSome

/-- Body of the object loop, `api.cpp:1518-1532`. -/
def place (mul : T → T → T) (s : St D T) (a : Asm T) (o : Nat) : Out × Asm T :=
  match s.object o with
  | none => (.ub, a)
  | some (m, x) =>
    if s.defined m then
      (.ok, { shapes := a.shapes ++ [m]
              objects := a.objects ++ [o]
              next := a.next + 1
              xf := fun m' => if m' = m then mul x (a.xf m) else a.xf m'
              inst := fun m' => if m' = m then some a.next else a.inst m' })
    else (.throw, a)

/-- The object loop, `api.cpp:1516-1533`. -/
def assemble (mul : T → T → T) (s : St D T) : List Nat → Asm T → Out × Asm T
  | [], a => (.ok, a)
  | o :: os, a =>
    match place mul s a o with
    | (.ok, a') => assemble mul s os a'
    | r => r

/-- Emitter loop, `api.cpp:1538-1544`: `it.second->emitter->setMeshNode(..)` if an object carries it. -/
def emittersOk (s : St D T) (es : List Nat) : Bool :=
  es.all fun e => match s.node e with
    | none => false
    | some nd => nd.owner.isNone || nd.payload.isSome

/-- `Media::preProcess` for the medium of node `m` (`refs`: transmittance estimator, phase function,
sampling, density, transmittance function): everything dereferenced is there. `trans_func->trans_func` is only
copied. -/
def mediumOk (s : St D T) (m : Nat) : Bool :=
  match (s.node m).bind (·.payload) with
  | none => false
  | some d =>
    match d.refs with
    | [te, _, ms, df, tf] =>
      te.any s.defined && ms.any s.defined && df.any s.defined && tf.isSome
    | _ => false

/-- `flush_renders`: outcome and the assembled scene. -/
def flush (clk : Bool) (mul : T → T → T) (one : T) (s : St D T) (os es ms : List Nat) : Out × Asm T :=
  -- `api.cpp:1506`
  if clk && s.apiOn then (.throw, Asm.init one) else
  -- `api.cpp:1509`
  match s.scene with
  | none => (.ub, Asm.init one)
  | some sc =>
    match assemble mul s os (Asm.init one) with
    | (.ok, a) =>
      if !emittersOk s es then (.ub, a)
      -- `src/scene.cpp:104`: `camera_node->camera->preProcess()`
      else if !sc.camera.any s.defined then (.ub, a)
      -- `src/scene.cpp:121-124`
      else if !ms.all (mediumOk s) then (.ub, a)
      -- `src/scene.cpp:129-135`
      else match sc.integrator with
        | none => (.ub, a)
        | some i =>
          match (s.node i).bind (·.payload) with
          | none => (.throw, a)
          | some d =>
            if sc.sampler.isNone then (.ub, a)
            else if !sc.sampler.any s.defined then (.throw, a)
            -- `integrator.cpp:23`: `filter->filter->preProcess()`
            else if d.refs.head?.any (fun f => f.any s.defined) then (.ok, a) else (.ub, a)
    | r => r

/-- `l` lists the nodes of kind `k` once each, in some order: what iterating the map visits. -/
def IsOrder (s : St D T) (k : Kind) (l : List Nat) : Prop :=
  l.Nodup ∧ ∀ p, p ∈ l ↔ ∃ n, s.lookup k n = some p

/-- The object whose material shades a hit on the shape of mesh node `m`: `Scene::getShapeMaterialShader`,
`src/scene.cpp:350-355`; `none`: the id was never set or is out of range. -/
def Asm.shadedAs (a : Asm T) (m : Nat) : Option Nat := (a.inst m).bind fun i => a.objects[i]?

end Feign.Api
