import Verif.Math.VecReal

/-!
# Transform commands (model)

`fr_clear_transform`, `fr_scale`, `fr_translate`, `fr_rotate`, `src/api/api.cpp:1457-1497`, acting on
`current_transform`. The API timer is left to `Verif/Api/Registry.lean`. `none`: some entry is not finite
(zero scale factor or zero rotation axis).
-/

namespace Feign.Api

/-- One command of the API. -/
inductive TCmd where
  | clear
  | scale (v : V3 ℝ)
  | translate (v : V3 ℝ)
  | rotate (angle : ℝ) (axis : V3 ℝ)

open Classical in
/-- The transform a command multiplies with: `Transform(matrix)`, `src/api/api.cpp:1470-1471, 1481-1482,
1492-1493`. `clear` has none. -/
noncomputable def TCmd.xf : TCmd → Option (Xf ℝ)
  | .clear => some Xf.one
  | .scale v => Xf.ofMatrix (M4.scale v)
  | .translate v => Xf.ofMatrix (M4.translate v)
  | .rotate a v => (M4.rotate a v).bind Xf.ofMatrix

/-- Effect on `current_transform`: `clear` resets (`api.cpp:1461`), every other command multiplies from the
left (`:1472, 1483, 1494`). -/
noncomputable def stepT (cur : Xf ℝ) : TCmd → Option (Xf ℝ)
  | .clear => some Xf.one
  | c => c.xf.map fun t => t.mul cur

/-- A history of commands. -/
noncomputable def runT : Xf ℝ → List TCmd → Option (Xf ℝ)
  | cur, [] => some cur
  | cur, c :: cs => (stepT cur c).bind fun t => runT t cs

end Feign.Api
