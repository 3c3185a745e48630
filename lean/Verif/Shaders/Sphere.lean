import Verif.Math.Ieee
import Verif.Shapes.Mesh

/-!
# Geometry shader "interpolate vertices to sphere" (model)

`src/shaders/interp_verts_to_sphere.cpp:15-99` and the part of `ObjMesh::preProcess`, `src/shapes/objmesh.cpp:310-342`,
that runs it. Numbers are `Flt` (infinities and not-a-number, no rounding).
-/

namespace Feign.Shaders

open Feign.Shapes

/-- Data members of `ObjMesh`, `include/feign/shapes/objmesh.h:101-107`, which the shader reads or writes. -/
structure ObjState where
  vs : List (V3 Flt)
  ns : List (V3 Flt)
  tris : List Face
  center : V3 Flt
  boxMin : V3 Flt
  boxMax : V3 Flt

/-- A mesh as constructed, `src/shapes/objmesh.cpp:14-36`: `center` is `Vec3()` (`vector.h:312-317`), `bbox` is `BBox3()`
(`include/feign/math/bbox.h:20-23, 276-280`). -/
noncomputable def ObjState.fresh : ObjState :=
  ⟨[], [], [], ⟨.fin 0, .fin 0, .fin 0⟩, ⟨.inf false, .inf false, .inf false⟩, ⟨.inf true, .inf true, .inf true⟩⟩

/-- New position of a vertex, `interp_verts_to_sphere.cpp:44-47`. -/
noncomputable def movePoint (center : V3 Flt) (radius interp : Flt) (p : V3 Flt) : V3 Flt :=
  let e := FV.add (FV.smul (FV.normalized (FV.sub p center)) radius) center
  FV.add (FV.smul p (.fin 1 - interp)) (FV.smul e interp)

/-- `Normal3f(0.f, 1.f, 0.f)`. -/
noncomputable def up : V3 Flt := ⟨.fin 0, .fin 1, .fin 0⟩

open Classical in
/-- "If it has no length take `up`, then normalise", `interp_verts_to_sphere.cpp:73-78` and `:89-94`. -/
noncomputable def unitOrUp (n : V3 Flt) : V3 Flt :=
  FV.normalized (if (FV.sqrNorm n).eqZero then up else n)

/-- `new_norms[i] += n`, `interp_verts_to_sphere.cpp:80-82`. -/
noncomputable def addAt (l : List (V3 Flt)) (i : ℕ) (n : V3 Flt) : Res (List (V3 Flt)) :=
  match l[i]? with
  | some a => .ok (l.set i (FV.add a n))
  | none => .ub "index out of range"

/-- The loop over the triangles, `interp_verts_to_sphere.cpp:57-83`. -/
noncomputable def accumulate (vs : List (V3 Flt)) : List Face → List (V3 Flt) → Res (List (V3 Flt))
  | [], norms => .ok norms
  | f :: fs, norms => do
    let p0 ← readAt vs (f.v 0)
    let p1 ← readAt vs (f.v 1)
    let p2 ← readAt vs (f.v 2)
    let n := unitOrUp (FV.cross (FV.sub p1 p0) (FV.sub p2 p0))
    let norms ← addAt norms (f.n 0) n
    let norms ← addAt norms (f.n 1) n
    let norms ← addAt norms (f.n 2) n
    accumulate vs fs norms

/-- Parameters of the shader, `include/feign/core/shader.h:170-190`. -/
structure SphereShader where
  prop : ℝ
  interp : ℝ

/-- `radius`, `interp_verts_to_sphere.cpp:30-32`. -/
noncomputable def sphereRadius (s : SphereShader) (st : ObjState) : Flt :=
  let extents := FV.sub st.boxMax st.boxMin
  extents.get (FV.minAbsIndex extents) * .fin s.prop

/-- `InterpVertsToSphereShader::evaluate`, `interp_verts_to_sphere.cpp:25-99`. -/
noncomputable def evaluate (s : SphereShader) (st : ObjState) : Res ObjState := do
  let vs := st.vs.map (movePoint st.center (sphereRadius s st) (.fin s.interp))
  let norms ← accumulate vs st.tris (List.replicate st.ns.length ⟨.fin 0, .fin 0, .fin 0⟩)
  pure { st with vs := vs, ns := norms.map unitOrUp }

/-- `compute_centroid`, `src/shapes/objmesh.cpp:279-290`. -/
noncomputable def computeCentroid (vs : List (V3 Flt)) : V3 Flt :=
  let p := vs.foldl FV.add ⟨.fin 0, .fin 0, .fin 0⟩
  ⟨p.x / .fin vs.length, p.y / .fin vs.length, p.z / .fin vs.length⟩

/-- `ObjMesh::preProcess`, `src/shapes/objmesh.cpp:310-342`. `file` is what `parseFromFile` leaves in the mesh (C81). -/
noncomputable def preProcess (shader : Option SphereShader) (st : ObjState) (file : Mesh ℝ) (requires : Bool) :
    Res ObjState := do
  let st := { st with vs := file.vs.map FV.ofReal, ns := file.ns.map FV.ofReal, tris := file.tris }
  let st ← match shader with
    | some s => evaluate s st
    | none => .ok st
  let st := { st with center := computeCentroid st.vs }
  match requires, st.vs with
  | true, v :: vs => .ok { st with boxMin := vs.foldl FV.minV v, boxMax := vs.foldl FV.maxV v }
  | _, _ => .ok st

/-- Preprocessing for each object that uses the mesh, one after the other, `src/api/api.cpp:1515-1533`. -/
noncomputable def preProcessAll (shader : Option SphereShader) : ObjState → List (Mesh ℝ × Bool) → Res ObjState
  | st, [] => .ok st
  | st, (file, requires) :: rest => do
    let st ← preProcess shader st file requires
    preProcessAll shader st rest

end Feign.Shaders
