import Verif.Integrators.Lit

/-! # Specification: light from a point light on a diffuse surface -/

namespace Feign.Integrators

/-- What a lamp contributes at the hit of a ray on a diffuse surface, without a choice among lamps: nothing if the lamp
is not visible, behind the surface, or the surface is seen from behind; otherwise the colour over π, times the cosine,
times the lamp's intensity spread over the sphere of its distance. -/
noncomputable def Room.lampAt (S : Room) (blocked : Blocked) (i : Fin 3) (r : Ray) (l : Lamp) : ℝ :=
  let d2 := (l.2 - S.point r).sqrNorm
  let d := Real.sqrt d2
  let toLamp := (l.2 - S.point r).smul (1 / d)
  let cosine := (S.frame r).n.dot toLamp
  if blocked (S.point r) toLamp (d - 1 / 1000) = true ∨ (-r.2).dot (S.frame r).n ≤ 0 ∨ cosine ≤ 0 then 0
  else (S.albedo r).get i / Real.pi * cosine * (l.1.get i / (4 * Real.pi * d2))

end Feign.Integrators
