import Verif.Camera.Perspective

/-!
# Rendering into an image handed in by the caller (model)

`FeignRenderer::initialize(image_target)` keeps an image (`src/api/api.cpp:46-47`), which `fr_scene` hands to the scene
(`api.cpp:586`). `renderScene` then sets the film size of the camera to the size of that image
(`src/scene.cpp:139-143`), but only after `preProcess` built `sampleToCamera` from the film size of the scene
file (`scene.cpp:104`, `src/cameras/perspective.cpp:32-53`).
-/

namespace Feign.Camera

open Classical in
/-- `sampleRay`, `src/cameras/perspective.cpp:55-84`, after `setFilmSize(w, h)`: the film position is divided by the new
size, the transform is the old one. -/
noncomputable def Persp.sampleRayInto (c : Persp) (w h : ℕ) (toWorld : Xf ℝ) (film app : V2 ℝ) : Option (Ray ℝ) :=
  c.sampleToCamera.bind fun s =>
  (s.point ⟨film.x / w, film.y / h, 0⟩).bind fun nearP =>
  nearP.normalized.bind fun d =>
  if d.z = 0 then none else
    let ap : V2 ℝ := ⟨(Warp.uniDisk app).x * c.radius, (Warp.uniDisk app).y * c.radius⟩
    let t := c.focal / d.z
    (d.smul t - ⟨ap.x, ap.y, 0⟩).normalized.bind fun od =>
    (toWorld.point ⟨ap.x, ap.y, 0⟩).bind fun o =>
    some ⟨o, toWorld.vec od, Ext.fin (c.near * (1 / d.z)), Ext.fin (c.far * (1 / d.z))⟩

end Feign.Camera
