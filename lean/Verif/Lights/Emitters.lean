import Verif.Math.Frame
import Verif.Sampling.DiscretePdf
import Verif.Sampling.Warp
import Verif.Shapes.Mesh

/-!
# Emitters (model)

`src/emitters/{point,spot,directional,mesh,directional_mesh,environment}.cpp`: what a light answers when a point asks
for a direct light sample, and what it looks like when it is hit. Over the reals with exact arithmetic; the constant
`INV_FOURPI` is taken to be `1 / (4 * pi)`. A result that is not a number (a zero length is normalised) is `none`
inside `ok`.
-/

namespace Feign.Lights

open Feign.Sampling Feign.Shapes Feign.Warp

/-- `Epsilon`, `include/feign/common.h:87`. -/
noncomputable def eps : ℝ := 1 / 1000

/-- The data members of the emitter classes after construction and `preProcess`
(`include/feign/core/emitter.h:106-471`). `inst` stands for the mesh node a mesh emitter refers to. -/
inductive Light where
  | point (I pos : V3 ℝ)
  | spot (pos dir radiance : V3 ℝ) (cosAngle : ℝ)
  | directional (dir radiance : V3 ℝ)
  | mesh (intensity : V3 ℝ) (inst : ℕ) (m : Mesh ℝ) (cdf : List ℝ)
  | dirMesh (dir intensity : V3 ℝ) (inst : ℕ)
  | environment (intensity : V3 ℝ)

/-- `SpotLightEmitter(...)`, `src/emitters/spot.cpp:13-23`; `degToRad` is `common.h:134-137`. Line 22 assigns the
normalised direction to the parameter, which hides the member of the same name, so the member keeps the direction as
given. -/
noncomputable def Light.newSpot (pos dir radiance : V3 ℝ) (degrees : ℝ) : Light :=
  .spot pos dir radiance (Real.cos (degrees * (Real.pi / 180)))

/-- `DirectionalEmitter(...)`, `src/emitters/directional.cpp:13-17`; line 16 normalises the parameter, not the
member. -/
def Light.newDirectional (dir radiance : V3 ℝ) : Light := .directional dir radiance

/-- `DirectionalMeshEmitter(...)`, `src/emitters/directional_mesh.cpp:13-20`; line 17 normalises the parameter. -/
def Light.newDirMesh (dir intensity : V3 ℝ) (inst : ℕ) : Light := .dirMesh dir intensity inst

/-- `surface_area(i)` of every triangle, as called by `MeshEmitter::preProcess`, `src/emitters/mesh.cpp:36-39`. -/
noncomputable def faceAreas (m : Mesh ℝ) : List Face → Res (List ℝ)
  | [] => .ok []
  | f :: fs => do
    let (p0, p1, p2) ← m.corners f
    let rest ← faceAreas m fs
    pure (triArea p0 p1 p2 :: rest)

/-- `MeshEmitter(...)` followed by `preProcess`, `src/emitters/mesh.cpp:14-42`. -/
noncomputable def Light.newMesh (intensity : V3 ℝ) (inst : ℕ) (m : Mesh ℝ) : Res Light := do
  let areas ← faceAreas m m.tris
  let cdf ← areaTable areas
  pure (.mesh intensity inst m cdf)

/-- What `sample_nee` leaves in the query and returns. `sqrDist` is `none` if `rec.sqr_dist` is never written: the
query's constructor (`emitter.h:35`) does not write it either. -/
structure LightSample where
  wi : V3 ℝ
  sqrDist : Option ℝ
  value : V3 ℝ
  pdf : ℝ

/-- The part of `MeshEmitter::sample_nee` after a triangle and a point on it have been chosen,
`src/emitters/mesh.cpp:60-73`; `pdfArea` is `*pdf` at line 60. -/
noncomputable def areaSample (intensity p q n : V3 ℝ) (pdfArea : ℝ) : Option LightSample :=
  match (q - p).normalized with
  | none => none
  | some wi =>
    if (-wi).dot n ≤ eps then some ⟨wi, some (q - p).sqrNorm, 0, 0⟩
    else some ⟨wi, some (q - p).sqrNorm, intensity, pdfArea * (q - p).sqrNorm / |(-wi).dot n|⟩

/-- `MeshEmitter::sample_nee`, `src/emitters/mesh.cpp:44-74`. -/
noncomputable def meshSample (intensity : V3 ℝ) (m : Mesh ℝ) (cdf : List ℝ) (p : V3 ℝ) (u : V2 ℝ) :
    Res (Option LightSample) := do
  let (i, reused, pmf) ← sampleReusePdf cdf u.x
  let uv := uniTri ⟨reused, u.y⟩
  let f ← getAt m.tris i
  let (p0, p1, p2) ← m.corners f
  let n ← m.shadingNormal f uv.x uv.y
  match n with
  | none => pure none
  | some n =>
    if triArea p0 p1 p2 = 0 then pure none
    else pure (areaSample intensity p (hitPoint p0 p1 p2 uv.x uv.y) n (1 / triArea p0 p1 p2 * pmf))

/-- `sample_nee` from the point `p` with the random numbers `u`: `point.cpp:25-39`, `spot.cpp:25-48`,
`directional.cpp:19-30`, `mesh.cpp:44-74`, `directional_mesh.cpp:45-63`, `environment.cpp:16-22` (throws). In the spot
light, the third component of `frame.toLocal(-rec.wi)` is the product with the frame's third axis, which is the member
`light_dir` itself (`coord_frame.cpp:30-41`). -/
noncomputable def Light.sampleNee (p : V3 ℝ) (u : V2 ℝ) : Light → Res (Option LightSample)
  | .point I pos =>
    .ok ((pos - p).normalized.map fun wi =>
      ⟨wi, some (pos - p).sqrNorm, (I.smul (1 / (pos - p).sqrNorm)).smul (1 / (4 * Real.pi)), 1⟩)
  | .spot pos dir radiance cosAngle =>
    .ok ((pos - p).normalized.map fun wi =>
      ⟨wi, none, if (-wi).dot dir > cosAngle then radiance else 0, 1⟩)
  | .directional dir radiance => .ok (some ⟨dir, none, radiance, 1⟩)
  | .mesh intensity _ m cdf => meshSample intensity m cdf p u
  | .dirMesh dir intensity _ => .ok (some ⟨-dir, none, intensity, 1⟩)
  | .environment _ => .throw "emitter environment"

/-- `requiresInitialVisibilityCheck`, `emitter.h:84`, `:412`. -/
def Light.needsCheck : Light → Bool
  | .dirMesh .. => true
  | _ => false

/-- `getMeshNode`, `emitter.h:102`, `:363`, `:415`. -/
def Light.meshNode : Light → Option ℕ
  | .mesh _ inst _ _ => some inst
  | .dirMesh _ _ inst => some inst
  | _ => none

/-- `evaluate` for a ray that hits the object of the light; `wi` is the ray's direction in the local frame
(`src/scene.cpp:682`). `point.cpp:63-68` throws; `spot.cpp:65-77`; `directional.cpp:47-54`; `mesh.cpp:96-102`;
`directional_mesh.cpp:80-93` (everything after line 85 is never reached). The environment light is evaluated by
`Verif/Textures`. -/
noncomputable def Light.evaluate (wi : V3 ℝ) : Light → Res (V3 ℝ)
  | .point .. => .throw "point evaluate"
  | .spot _ dir radiance cosAngle => .ok (if (-wi).dot dir > cosAngle then radiance else 0)
  | .directional dir radiance => .ok (if (dir - wi).sqrNorm < eps then radiance else 0)
  | .mesh intensity .. => .ok (if -wi.z < eps then 0 else intensity)
  | .dirMesh _ intensity _ => .ok (if -wi.z < eps then 0 else intensity)
  | .environment intensity => .ok intensity

end Feign.Lights
