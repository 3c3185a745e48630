import Verif.Shapes.Mesh

/-!
# The bounds of a scene (model)

`Scene::preProcess`, `src/scene.cpp:56-125`, as far as it computes `sceneBounds`, and the boxes the meshes
report. The box of a mesh starts as `BBox3f()`, from `+∞` to `-∞`, so boxes live over the scalars with both
infinities.
-/

namespace Feign.Bounds
open Feign.Shapes

variable {K : Type} [Field K] [LinearOrder K]

/-- A finite point among the extended ones. -/
def fin (p : V3 K) : V3 (Ext K) := ⟨Ext.fin p.x, Ext.fin p.y, Ext.fin p.z⟩

/-- A finite box among the extended ones. -/
def finBox (b : B3 K) : B3 (Ext K) := ⟨fin b.min, fin b.max⟩

/-- `BBox3f()`, `include/feign/math/bbox.h:20-23, 276-280`. -/
def noBox : B3 (Ext K) := ⟨⟨⊤, ⊤, ⊤⟩, ⟨⊥, ⊥, ⊥⟩⟩

/-- An entry of `shapes` after `flush_renders` preprocessed it, `src/api/api.cpp:1516-1535`: a mesh with its final
vertices and whether its object carries an emitter (`api.cpp:1527`), or a shape given by a distance function
with the box it reports. -/
inductive Item (K : Type) where
  | mesh (m : Mesh K) (emits : Bool)
  | field (box : B3 K)

/-- `boundingBox()`: for a mesh the member `bbox` (`src/shapes/objmesh.cpp:258-261`), which `preProcess` fills in
only when processing is asked for and there are vertices (`objmesh.cpp:324-341`). -/
def Item.box : Item K → B3 (Ext K)
  | .mesh m emits =>
    if emits = true then
      match m.box with
      | some b => finBox b
      | none => noBox
    else noBox
  | .field b => finBox b

/-- `sceneBounds`, `src/scene.cpp:58, 82-96`: starts as the single point `0` and is expanded by the box of every
shape in turn. -/
def sceneBounds (items : List (Item K)) : B3 (Ext K) :=
  items.foldl (fun b i => b.expandBox i.box) ⟨fin ⟨0, 0, 0⟩, fin ⟨0, 0, 0⟩⟩

end Feign.Bounds
