import Verif.Basic
import Verif.Math.BBox
import Verif.Math.VecReal

/-!
# Triangle meshes (model)

`src/shapes/objmesh.cpp`: the triangle test, the loop over all triangles, the data completed after a hit,
bounding boxes, areas and centroids. Exact arithmetic in an ordered field (the reals where a square root is
taken). Reading a `std::vector` out of range is `ub`.
-/

namespace Feign.Shapes

/-- `class Triangle`, `include/feign/shapes/triangle.h:17-32`. -/
structure Face where
  v : Fin 3 → ℕ
  n : Fin 3 → ℕ
  uv : Fin 3 → ℕ
  deriving DecidableEq

/-- Data members of `ObjMesh`, `include/feign/shapes/objmesh.h`, that are used below. -/
structure Mesh (K : Type) where
  vs : List (V3 K)
  ns : List (V3 K)
  uvs : List (V2 K)
  tris : List Face

/-- What the triangle test writes: `its.uv` and `its.t`. -/
@[ext] structure TriHit (K : Type) where
  u : K
  v : K
  t : K
  deriving DecidableEq

/-- `l[i]`. -/
def readAt {α : Type} (l : List α) (i : ℕ) : Res α :=
  match l[i]? with
  | some a => .ok a
  | none => .ub "index out of range"

section test
variable {K : Type} [Field K] [LinearOrder K]

/-- The constant `1e-8f`, `src/shapes/objmesh.cpp:386`. -/
def detEps : K := 1 / 100000000

/-- `ObjMesh::intersect(face, ray, its)`, `src/shapes/objmesh.cpp:369-414`, for the corners of the face. -/
def triTest (p0 p1 p2 : V3 K) (r : Ray K) : Option (TriHit K) :=
  let edge1 := p1 - p0
  let edge2 := p2 - p0
  let pvec := r.dir.cross edge2
  let det := edge1.dot pvec
  if det > -detEps ∧ det < detEps then none else
    let invDet := 1 / det
    let tvec := r.origin - p0
    let u := tvec.dot pvec * invDet
    if u < 0 ∨ u > 1 then none else
      let qvec := tvec.cross edge1
      let v := r.dir.dot qvec * invDet
      if v < 0 ∨ v > 1 then none else
        let t := edge2.dot qvec * invDet
        if Ext.fin t ≥ r.near ∧ Ext.fin t ≤ r.far then some ⟨u, v, t⟩ else none

/-- The three corners of a face: `vs[tris[face].vsInds(k)]`, `objmesh.cpp:371-377`. -/
def Mesh.corners (m : Mesh K) (f : Face) : Res (V3 K × V3 K × V3 K) := do
  let p0 ← readAt m.vs (f.v 0)
  let p1 ← readAt m.vs (f.v 1)
  let p2 ← readAt m.vs (f.v 2)
  pure (p0, p1, p2)

/-- The loop of `ObjMesh::intersect(ray, its)`, `src/shapes/objmesh.cpp:344-365`, over the remaining faces,
the first of which has number `i`; `best` is what has been written to `its` (face number and hit). -/
def Mesh.intersectFrom (m : Mesh K) : List Face → ℕ → Ray K → Option (ℕ × TriHit K) →
    Res (Option (ℕ × TriHit K))
  | [], _, _, best => .ok best
  | f :: fs, i, r, best => do
    let (p0, p1, p2) ← m.corners f
    match triTest p0 p1 p2 r with
    | some h => m.intersectFrom fs (i + 1) { r with far := Ext.fin h.t } (some (i, h))
    | none => m.intersectFrom fs (i + 1) r best

/-- `ObjMesh::intersect(ray, its)`, `src/shapes/objmesh.cpp:344-365`. -/
def Mesh.intersect (m : Mesh K) (r : Ray K) : Res (Option (ℕ × TriHit K)) :=
  m.intersectFrom m.tris 0 r none

/-- `its.p`, `src/shapes/objmesh.cpp:418-431`: the corners weighted by `its.bary`. -/
def hitPoint (p0 p1 p2 : V3 K) (u v : K) : V3 K :=
  p0.smul (1 - u - v) + p1.smul u + p2.smul v

/-- `its.uv` after `completeIntersectionInfo`, `src/shapes/objmesh.cpp:434-441`. -/
def Mesh.hitUv (m : Mesh K) (f : Face) (u v : K) : Res (V2 K) :=
  if m.uvs.length > 0 then do
    let a ← readAt m.uvs (f.uv 0)
    let b ← readAt m.uvs (f.uv 1)
    let c ← readAt m.uvs (f.uv 2)
    pure (a.smul (1 - u - v) + b.smul u + c.smul v)
  else .ok ⟨u, v⟩

/-- `boundingBox(tri)`, `src/shapes/objmesh.cpp:263-277`. -/
def triBox (p0 p1 p2 : V3 K) : B3 K := ((B3.mk p0 p0).expand p1).expand p2

/-- The box computed in `preProcess`, `src/shapes/objmesh.cpp:336-340`; `none` for a mesh without vertices
(no box is computed, `:324`). It is computed for objects that carry an emitter only; `Scene/Bounds.lean` models the
member `bbox` for the others. -/
def Mesh.box (m : Mesh K) : Option (B3 K) :=
  match m.vs with
  | [] => none
  | v :: vs => some (vs.foldl B3.expand ⟨v, v⟩)

/-- `centroid(tri)`, `src/shapes/objmesh.cpp:297-308`. -/
def triCentroid (p0 p1 p2 : V3 K) : V3 K := (p0 + p1 + p2).smul (1 / 3)

/-- `compute_centroid`, `src/shapes/objmesh.cpp:279-290`; `none` is `0 / 0` for a mesh without vertices. -/
def Mesh.centroid (m : Mesh K) : Option (V3 K) :=
  if m.vs.length = 0 then none
  else
    let s := m.vs.foldl (· + ·) ⟨0, 0, 0⟩
    some ⟨s.x / m.vs.length, s.y / m.vs.length, s.z / m.vs.length⟩

end test

/-- `surface_area(index)`, `src/shapes/objmesh.cpp:60-71`. -/
noncomputable def triArea (p0 p1 p2 : V3 ℝ) : ℝ := ((p1 - p0).cross (p2 - p0)).norm * (1 / 2)

/-- The normal of `its.g_frame`, `src/shapes/objmesh.cpp:444`; `none`: the triangle is degenerate and the
normal is not a number. -/
noncomputable def geomNormal (p0 p1 p2 : V3 ℝ) : Option (V3 ℝ) := ((p1 - p0).cross (p2 - p0)).normalized

/-- The normal of `its.s_frame`, `src/shapes/objmesh.cpp:447-461`. -/
noncomputable def Mesh.shadingNormal (m : Mesh ℝ) (f : Face) (u v : ℝ) : Res (Option (V3 ℝ)) :=
  if m.ns.length > 0 then do
    let a ← readAt m.ns (f.n 0)
    let b ← readAt m.ns (f.n 1)
    let c ← readAt m.ns (f.n 2)
    pure (a.smul (1 - u - v) + b.smul u + c.smul v).normalized
  else do
    let (p0, p1, p2) ← m.corners f
    pure (geomNormal p0 p1 p2)

end Feign.Shapes
