import Verif.Basic
import Verif.Math.Frame
import Verif.Sampling.Warp
import Mathlib.Analysis.SpecialFunctions.Pow.Real

/-!
# Phase functions (model)

`include/feign/media/phase.h`. Over the reals with exact arithmetic: the constants `INV_PI`, `INV_TWOPI` and
`INV_FOURPI` (`include/feign/common.h:92-94`) are the exact numbers. A value that is not a finite number is `ub`.
-/

namespace Feign.Media

/-- The phase functions, `phase.h:31-327`; the last one stands for `GegenbaurPhase`, `LiuPhase` and
`SphericalGaussianPhase`, whose methods throw (`:263-327`). -/
inductive Phase where
  | isotropic
  | henyeyGreenstein (g : ℝ)
  | eddington (b : ℝ)
  | rayleigh
  | ellipsoidal (b : ℝ)
  | binomial (n : ℝ)
  | unimplemented

/-- `HenyeyGreenstein::hg`, `phase.h:55-60`. -/
noncomputable def hg (cosTheta g : ℝ) : Res ℝ :=
  let denom := 1 + g * g - 2 * g * cosTheta
  if denom ≤ 0 then .ub "division by zero"
  else .ok (1 / (4 * Real.pi) * (1 - g * g) / (denom * Real.sqrt denom))

/-- `eval` as a function of `wo % wi`. Isotropic `phase.h:36-39`, Henyey–Greenstein `:62-65`, Eddington `:117-120`,
Rayleigh `:163-167`, ellipsoidal `:204-208`, binomial `:245-249`. The binomial power is a number only for a base
`≥ 0`, which holds for unit vectors, and, at base 0, an exponent `≥ 0`. -/
noncomputable def Phase.evalCos (c : ℝ) : Phase → Res ℝ
  | isotropic => .ok (1 / (4 * Real.pi))
  | henyeyGreenstein g => hg c g
  | eddington _ => .ok (1 / (4 * Real.pi) * (1 + 4 * c))
  | rayleigh => .ok (3 * (c * c + 1) * (1 / (4 * Real.pi)) / 4)
  | ellipsoidal b =>
    if b = 1 then .ub "division by zero"
    else if (b + 1) / (1 - b) ≤ 0 then .ub "logarithm of a number that is not positive"
    else
      let denom := (1 - b * c) * Real.log ((b + 1) / (1 - b))
      if denom = 0 then .ub "division by zero" else .ok (b * (1 / (2 * Real.pi)) / denom)
  | binomial n =>
    if c + 1 < 0 then .ub "power of a negative number"
    else if c + 1 = 0 ∧ n < 0 then .ub "division by zero"
    else .ok (1 / Real.pi * (2 : ℝ) ^ (-n - 2) * (n + 1) * (c + 1) ^ n)
  | unimplemented => .throw "not implemented"

/-- `eval(wo, wi)`. -/
noncomputable def Phase.eval (p : Phase) (wo wi : V3 ℝ) : Res ℝ := p.evalCos (wo.dot wi)

/-- The cosine drawn by `HenyeyGreenstein::sample`, `phase.h:71-84`; `eps` is `Epsilon`. -/
noncomputable def hgCos (eps g u : ℝ) : Res ℝ :=
  if |g| < eps then .ok (1 - 2 * u)
  else
    let numer := -2 * u * u * (g * g * g + g) + 2 * u * (g - 1) * (g * g + 1) + (g - 1) * (g - 1)
    let d := (2 * u - 1) * g + 1
    if d * d = 0 then .ub "division by zero" else .ok (-numer / (d * d))

/-- The cosine drawn by `EddingtonPhase::sample`, `phase.h:126-136`. -/
noncomputable def eddingtonCos (eps b u : ℝ) : Res ℝ :=
  if |b| < eps then .ok (1 - 2 * u)
  else if b * b + 4 * b * u - 2 * b + 1 < 0 then .ub "square root of a negative number"
  else if b = 0 then .ub "division by zero"
  else .ok ((Real.sqrt (b * b + 4 * b * u - 2 * b + 1) - 1) / b)

/-- The cosine drawn by `RayleighPhase::sample`, `phase.h:173-178`; both arguments of `powf` are positive for every
`u`, see `rayleigh_pos`. -/
noncomputable def rayleighCos (u : ℝ) : ℝ :=
  let tmp := -4 * u + Real.sqrt (16 * (u - 1) * u + 5) + 2
  (1 - tmp ^ ((2 : ℝ) / 3)) / tmp ^ ((1 : ℝ) / 3)

/-- The cosine drawn by `EllipsoidalPhase::sample`, `phase.h:214-216`. -/
noncomputable def ellipsoidalCos (b u : ℝ) : Res ℝ :=
  if b = 1 ∨ b = 0 then .ub "division by zero"
  else if (b + 1) / (1 - b) ≤ 0 then .ub "power of a number that is not positive"
  else .ok ((1 - (b + 1) * ((b + 1) / (1 - b)) ^ (-u)) / b)

/-- The common ending of the samplers, e.g. `phase.h:86-99`: the direction `wi` at a given cosine from `-wo`. -/
noncomputable def around (cosTheta v : ℝ) (wo : V3 ℝ) : Res (V3 ℝ) :=
  let sinTheta := Real.sqrt (max 0 (1 - cosTheta * cosTheta))
  let phi := 2 * Real.pi * v
  match Frame.coordinateSystem wo with
  | none => .ub "division by zero"
  | some (v1, v2) => .ok (Frame.sphericalDirection cosTheta sinTheta phi v1 v2 (-wo))

/-- `sample(sample, wo, wi)`: the direction `wi` and the value returned. Isotropic `phase.h:41-47`, Henyey–Greenstein
`:67-102` (returns `hg(-cos_theta, g)`), Eddington `:122-153`, Rayleigh `:169-196`, ellipsoidal `:210-234`; the others
throw. -/
noncomputable def Phase.sample (eps : ℝ) (s : V2 ℝ) (wo : V3 ℝ) : Phase → Res (V3 ℝ × ℝ)
  | isotropic => .ok (Warp.uniSph s, 1 / (4 * Real.pi))
  | henyeyGreenstein g => do
    let c ← hgCos eps g s.x
    let wi ← around c s.y wo
    let v ← hg (-c) g
    return (wi, v)
  | eddington b => do
    let c ← eddingtonCos eps b s.x
    let wi ← around c s.y wo
    let v ← (eddington b).eval wo wi
    return (wi, v)
  | rayleigh => do
    let wi ← around (rayleighCos s.x) s.y wo
    let v ← rayleigh.eval wo wi
    return (wi, v)
  | ellipsoidal b => do
    let c ← ellipsoidalCos b s.x
    let wi ← around c s.y wo
    let v ← (ellipsoidal b).eval wo wi
    return (wi, v)
  | binomial _ => .throw "not implemented"
  | unimplemented => .throw "not implemented"

end Feign.Media
