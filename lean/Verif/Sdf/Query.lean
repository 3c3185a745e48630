import Verif.Sdf.Model
import Verif.Scene.Visibility

/-!
# Scene queries in scenes of distance functions (model)

`Scene::intersect_full/intersect_non_null/intersect_transmittance`, `src/scene.cpp:174-335`, when `ray_accel` is an
`SDFAccel` (`src/scene.cpp:64-67`).
-/

namespace Feign.Sdf

variable {M : Type}

/-- What the queries look at in a shape: `is_null`, and `boundry` as in `Scene.Hit`. -/
structure Traits (M : Type) where
  isNull : Bool
  boundary : Option (Option M)

/-- `ray_accel->intersect(ray, its)` for the ray with the given near end, `src/accel/ray_sdf.cpp:121-181`; `traits i` are
those of shape `i`. A failed assertion ends the program; it is not a hit here (`march_sound` excludes it for
well-formed shapes). -/
noncomputable def accel (fs : List (V3 ℝ → Option ℝ)) (box : Option (B3 ℝ)) (traits : ℕ → Traits M) (r : Ray ℝ)
    (near : ℝ) : Option (Scene.Hit ℝ M) :=
  match intersect fs box { r with near := Ext.fin near } with
  | .ok (.hit h) => some ⟨h.t, (traits h.shape).isNull, (traits h.shape).boundary⟩
  | _ => none

end Feign.Sdf
