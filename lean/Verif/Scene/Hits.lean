import Verif.Shapes.Mesh

/-!
# Hits through the mesh accelerator (model)

`EmbreeAccel`, `src/accel/ray_embree.cpp`, and `Scene::preProcess`, `src/scene.cpp:62-96`, which fills it. Embree itself
is an external library: a function `rtc` from rays to its answer. What is assumed of it is stated in
`Verif/Scene/HitsProps.lean`.
-/

namespace Feign.Scene

open Feign.Shapes

variable {K : Type} [Field K]

/-- A shape of the scene: a triangle mesh (`ObjMesh`, `GridObj`) or a distance function (`SDFShape`). -/
inductive Shp (K : Type) where
  | mesh (m : Mesh K)
  | sdf

/-- A triangle geometry in Embree's scene: its vertex and index buffers. -/
structure Geom (K : Type) where
  verts : List (V3 K)
  tris : List (ℕ × ℕ × ℕ)

/-- `EmbreeAccel::scene` (the attached geometries, in order) and `EmbreeAccel::meshes`. -/
structure Accel (K : Type) where
  geoms : List (Geom K)
  meshes : List (Shp K)

/-- The buffers written by `ObjMesh::addShapeToScene`, `src/shapes/objmesh.cpp:80-117`. -/
def toGeom (m : Mesh K) : Geom K := ⟨m.vs, m.tris.map fun f => (f.v 0, f.v 1, f.v 2)⟩

/-- `EmbreeAccel::addShape`, `src/accel/ray_embree.cpp:42-46`. For a mesh one geometry is attached; the function that a
distance function inherits (`include/feign/core/shape.h:61`) does nothing. -/
def Accel.addShape (a : Accel K) : Shp K → Accel K
  | .mesh m => ⟨a.geoms ++ [toGeom m], a.meshes ++ [.mesh m]⟩
  | .sdf => ⟨a.geoms, a.meshes ++ [.sdf]⟩

/-- The loop over the shapes in `Scene::preProcess`, `src/scene.cpp:84-96`, for a scene that is not in distance
function mode, with the accelerator of line 70. -/
def buildAccel (shapes : List (Shp K)) : Accel K := shapes.foldl Accel.addShape ⟨[], []⟩

/-- One round of the same loop in distance function mode, `src/scene.cpp:86-89`: the shape is cast to `SDFShape` without
a check, which is undefined for a mesh. -/
def addSdf (l : List (Shp K)) : Shp K → Res (List (Shp K))
  | .sdf => .ok (l ++ [.sdf])
  | .mesh _ => .ub "a mesh is used as a distance function"

/-- The loop in distance function mode; the result is `SDFAccel::sdfs`. -/
def buildSdf (shapes : List (Shp K)) : Res (List (Shp K)) := shapes.foldlM addSdf []

/-- Embree's answer to `rtcIntersect1`: `hit.geomID`, `hit.primID`, `hit.u`, `hit.v`, `ray.tfar`. `none` is
`RTC_INVALID_GEOMETRY_ID`. -/
structure RtcHit (K : Type) where
  geom : ℕ
  prim : ℕ
  u : K
  v : K
  t : K

/-- What is written to the `Intersection`: the shape (its position in `meshes`), the face, the distance and the point.
`p = none`: the point is not written. -/
structure Its (K : Type) where
  shape : ℕ
  face : ℕ
  t : K
  p : Option (V3 K)

/-- `completeIntersectionInfo`: `src/shapes/objmesh.cpp:416-431` for a mesh (normals and texture coordinates are the
subject of `Verif/Shapes`), nothing for a distance function (`include/feign/core/shape.h:50`). -/
def complete (s : Shp K) (face : ℕ) (u v : K) : Res (Option (V3 K)) :=
  match s with
  | .sdf => .ok none
  | .mesh m => do
    let f ← readAt m.tris face
    let (p0, p1, p2) ← m.corners f
    pure (some (hitPoint p0 p1 p2 u v))

/-- `EmbreeAccel::intersect`, `src/accel/ray_embree.cpp:56-101`. -/
def Accel.intersect (a : Accel K) (rtc : Ray K → Option (RtcHit K)) (r : Ray K) : Res (Option (Its K)) :=
  match rtc r with
  | none => .ok none
  | some h => do
    let s ← readAt a.meshes h.geom
    let p ← complete s h.prim h.u h.v
    pure (some ⟨h.geom, h.prim, h.t, p⟩)

end Feign.Scene
