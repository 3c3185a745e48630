import Verif.Math.Matrix
import Verif.Math.VecReal
import Verif.Sampling.Warp

/-!
# Perspective camera (model)

`src/cameras/perspective.cpp` and the look-at construction in `fr_camera`, `src/api/api.cpp:706-756`.
Over the reals; `none` where the code divides by zero.
-/

namespace Feign.Camera

/-- The members of `Perspective`, `include/feign/core/camera.h:106-112`, and the film size. -/
structure Persp where
  radius : ℝ
  focal : ℝ
  fov : ℝ
  near : ℝ
  far : ℝ
  width : ℕ
  height : ℕ

/-- The axes built by `fr_camera`, `api.cpp:731-733`, as `(x, y, z)`. -/
noncomputable def lookAtAxes (origin target up : V3 ℝ) : Option (V3 ℝ × V3 ℝ × V3 ℝ) :=
  (target - origin).normalized.bind fun z =>
  up.normalized.bind fun u =>
  (u.cross z).normalized.bind fun x =>
  (z.cross x).normalized.bind fun y =>
  some (x, y, z)

/-- `look_at_matrix`, `api.cpp:735-740`. -/
noncomputable def lookAtMatrix (origin target up : V3 ℝ) : Option (M4 ℝ) :=
  (lookAtAxes origin target up).map fun a =>
    M4.ofCols ⟨a.1.x, a.1.y, a.1.z, 0⟩ ⟨a.2.1.x, a.2.1.y, a.2.1.z, 0⟩ ⟨a.2.2.x, a.2.2.y, a.2.2.z, 0⟩
      ⟨origin.x, origin.y, origin.z, 1⟩

open Classical in
/-- `cameraToWorld`, `api.cpp:742`: `current_transform * Transform(look_at_matrix)`. -/
noncomputable def cameraToWorld (cur : Xf ℝ) (origin target up : V3 ℝ) : Option (Xf ℝ) :=
  (lookAtMatrix origin target up).bind fun m => (Xf.ofMatrix m).map fun t => cur.mul t

/-- `perspective`, `perspective.cpp:39-45`, with `cot` and `recip` given; the default matrix is all zero
(`vector.h:1374-1380`). -/
noncomputable def projMatrix (cot recip near far : ℝ) : M4 ℝ :=
  ⟨cot, 0, 0, 0, 0, cot, 0, 0, 0, 0, far * recip, -near * far * recip, 0, 0, 1, 0⟩

open Classical in
/-- `preProcess`, `perspective.cpp:32-53`: the transform `sampleToCamera`. The guard collects the divisions
by `filmSize[1]`, by `far - near`, by `tan(fov/2)` (exact: also excluded where the tangent is infinite) and
by `aspect`. -/
noncomputable def Persp.sampleToCamera (c : Persp) : Option (Xf ℝ) :=
  if c.height = 0 ∨ c.width = 0 ∨ c.far - c.near = 0 ∨
      Real.sin (c.fov / 2 * (Real.pi / 180)) = 0 ∨ Real.cos (c.fov / 2 * (Real.pi / 180)) = 0 then none else
    let aspect : ℝ := (c.width : ℝ) / (c.height : ℝ)
    let recip := 1 / (c.far - c.near)
    let cot := 1 / Real.tan (c.fov / 2 * (Real.pi / 180))
    let mat := ((M4.scale ⟨-1 / 2, -1 / 2 * aspect, 1⟩).mul
      (M4.translate ⟨-1, -1 / aspect, 0⟩)).mul (projMatrix cot recip c.near c.far)
    (Xf.ofMatrix mat).map Xf.inverse

open Classical in
/-- `sampleRay`, `perspective.cpp:55-84`. -/
noncomputable def Persp.sampleRay (c : Persp) (toWorld : Xf ℝ) (film app : V2 ℝ) : Option (Ray ℝ) :=
  c.sampleToCamera.bind fun s =>
  (s.point ⟨film.x / c.width, film.y / c.height, 0⟩).bind fun nearP =>
  nearP.normalized.bind fun d =>
  if d.z = 0 then none else
    let ap : V2 ℝ := ⟨(Warp.uniDisk app).x * c.radius, (Warp.uniDisk app).y * c.radius⟩
    let t := c.focal / d.z
    (d.smul t - ⟨ap.x, ap.y, 0⟩).normalized.bind fun od =>
    (toWorld.point ⟨ap.x, ap.y, 0⟩).bind fun o =>
    some ⟨o, toWorld.vec od, Ext.fin (c.near * (1 / d.z)), Ext.fin (c.far * (1 / d.z))⟩

end Feign.Camera
