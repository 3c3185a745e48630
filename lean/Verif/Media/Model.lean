import Verif.Basic
import Verif.Math.Vec
import Verif.Math.Complex
import Mathlib.Analysis.SpecialFunctions.Log.Basic
import Mathlib.Order.WithBot

/-!
# Participating media (model)

`include/feign/media/density_func.h`, `src/media/standard.cpp`, `src/media/sampling/*.cpp`,
`src/media/trans_ests/*.cpp`, for the build's setting `NONEXPMEDIA false` (`include/feign/common.h:41`). Over the
reals with exact arithmetic. Random numbers are given as a list; `none` means that the call is still running when the
list (or the fuel) is used up. Infinite distances are the top element.

Not modelled: `NoiseDensity` and `PointAverageDensity` (every method throws). `OpenVDBDensity` is modelled in
`Verif/Media/Vdb.lean`.
-/

namespace Feign.Media

/-- A colour with three equal channels, `Color3f(Float)`. -/
def grey (c : ℝ) : V3 ℝ := ⟨c, c, c⟩

/-- Component-wise division by a number that is not zero, `vector.h:392-399`. -/
noncomputable def divS (a : V3 ℝ) (c : ℝ) : V3 ℝ := ⟨a.x / c, a.y / c, a.z / c⟩

/-- `Exp`, `include/feign/math/vector.h:1880-1885`. -/
noncomputable def expV (a : V3 ℝ) : V3 ℝ := ⟨Real.exp a.x, Real.exp a.y, Real.exp a.z⟩

/-! ## Densities -/

/-- The implemented density functions, `density_func.h:39-73`, `:148-250`, `:253-292`. -/
inductive Density where
  | constant (density : V3 ℝ)
  | sphere (density : V3 ℝ) (radius : ℝ)
  | mandelbrot (max_density : V3 ℝ)

/-- The counting loop of `MandlebrotDensity::D`, `density_func.h:193-198` (and `:202-207`, `:211-216`). The loop runs
while `m < n`; the first argument is `n - m`. -/
noncomputable def escape (bound : ℝ) (c : C3 ℝ) : ℕ → C3 ℝ → Int → Int
  | 0, _, m => m
  | k + 1, val, m => if val.norm ≤ bound then escape bound c k ((val.mul val).add c) (m + 1) else m

/-- `MandlebrotDensity::D`, `density_func.h:167-232`; `n` is 1000 (`:163`), `m` starts at -1. The stored
`max_density` is not used. -/
noncomputable def mandelbrotD (p : V3 ℝ) : V3 ℝ :=
  let c : C3 ℝ := ⟨p.x * (1 / 16), p.y * (1 / 16), p.z * (1 / 16)⟩
  let m := escape (1 / 10) c 1001 ⟨0, 0, 0⟩ (-1)
  let m2 := escape (1 / 2) c 1001 ⟨0, 0, 0⟩ (-1)
  let m3 := escape 2 c 1001 ⟨0, 0, 0⟩ (-1)
  ⟨(m : ℝ) / 1000, (m2 : ℝ) / 1000, (m3 : ℝ) / 1000⟩

/-- `D(p)`; `sigma_t` is the extinction coefficient that `Media::preProcess` stores in the density function
(`standard.cpp:40`). Constant `density_func.h:55-58`, sphere `:270-275` (its first channel only). -/
noncomputable def Density.D (sigma_t : V3 ℝ) (p : V3 ℝ) : Density → V3 ℝ
  | constant density => density * sigma_t
  | sphere density radius => if p.sqrNorm < radius * radius then grey density.x else grey 0
  | mandelbrot _ => mandelbrotD p

/-- `maxDensity()`, `density_func.h:65-70`, `:283-286`; the Mandelbrot density throws (`:240-244`). -/
noncomputable def Density.maxDensity (sigma_t : V3 ℝ) : Density → Res ℝ
  | constant density => .ok (max (density.x * sigma_t.x) (max (density.y * sigma_t.y) (density.z * sigma_t.z)))
  | sphere density _ => .ok (max density.x (max density.y density.z))
  | mandelbrot _ => .throw "mandlebrot density"

/-! ## Free flights -/

/-- `t - log(1 - u) / maj`, `ratio.cpp:38` and `delta.cpp:29`, for `0 ≤ u < 1`. For a majorant of zero the quotient is
infinite, or not a number (`none`) if `u = 0`. -/
noncomputable def flight (maj t u : ℝ) : Option (WithTop ℝ) :=
  if maj = 0 then if u = 0 then none else some ⊤ else some ((t - Real.log (1 - u) / maj : ℝ) : WithTop ℝ)

/-! ## Transmittance estimators -/

/-- The loop of `Trans_RatioTracking::transmittance`, `src/media/trans_ests/ratio.cpp:36-49`; `ext t` is
`density->D(ray(t)) * density->sigma_t`. When `t` is not a number the loop never ends. -/
noncomputable def ratioLoop (maj tMax : ℝ) (ext : ℝ → V3 ℝ) : List ℝ → ℝ → V3 ℝ → Option (V3 ℝ)
  | [], _, _ => none
  | u :: us, t, tr =>
    match flight maj t u with
    | none => none
    | some ⊤ => some tr
    | some (t' : ℝ) =>
      if t' ≥ tMax then some tr
      else ratioLoop maj tMax ext us t' (tr * divS (grey maj - (ext t').minS maj) maj)

/-- The loop of `Trans_RayMarching::transmittance`, `src/media/trans_ests/ray_march.cpp:49-57`, with fuel; the result
is the optical depth `od`. -/
noncomputable def marchLoop (step_size tMax samp : ℝ) (ext : ℝ → V3 ℝ) : ℕ → ℝ → V3 ℝ → Option (V3 ℝ)
  | 0, _, _ => none
  | n + 1, t, od =>
    if t < tMax then
      let step := min step_size (tMax - t)
      marchLoop step_size tMax samp ext n (t + step_size) (od + ext (t + step * samp))
    else some od

/-- The transmittance estimators, `include/feign/media/trans_est.h:48-112`. -/
inductive Estimator where
  | homogenous
  | deltaTracking
  | ratioTracking (maj : ℝ)
  | rayMarching (step_size : ℝ)
  | pseriesCMF

/-- `transmittance(ray, sampler, closure)`. `D t` is the density at the ray's point at distance `t`, `us` the random
numbers. Homogeneous `homo.cpp:14-29`, delta tracking `delta.cpp:14-25` (throws), ratio tracking `ratio.cpp:22-51`,
ray marching `ray_march.cpp:42-60`, power series `pseries_cmf.cpp:14-27` (throws). -/
noncomputable def transmittance (e : Estimator) (D : ℝ → V3 ℝ) (sigma_t : V3 ℝ) (tMin tMax : ℝ) (us : List ℝ)
    (fuel : ℕ) : Res (Option (V3 ℝ)) :=
  match e with
  | .homogenous => .ok (some (expV ((D ((tMax - tMin) / 2 + tMin)).smul (-(tMax - tMin)))))
  | .deltaTracking => .throw "delta tracking tr"
  | .ratioTracking maj => .ok (ratioLoop maj tMax (fun t => D t * sigma_t) us tMin (grey 1))
  | .rayMarching step_size =>
    match us with
    | [] => .ok none
    | samp :: _ => .ok ((marchLoop step_size tMax samp (fun t => D t * sigma_t) fuel tMin (grey 0)).map
        fun od => expV (-od))
  | .pseriesCMF => .throw "pseries_cmf"

/-! ## Sampling of scattering distances -/

/-- The loop of `Delta_Tracking::sample`, `src/media/sampling/delta.cpp:27-42`; the result is `sampled_t`.
`dense t` is `(D * sigma_t).max()`. -/
noncomputable def deltaLoop (majorant tMax : ℝ) (dense : ℝ → ℝ) : List ℝ → ℝ → Option (WithTop ℝ)
  | [], _ => none
  | u :: us, t =>
    match flight majorant t u with
    | none => none
    | some ⊤ => some ⊤
    | some (t' : ℝ) =>
      if t' ≥ tMax then some t'
      else match us with
        | [] => none
        | v :: us => if dense t' / majorant > v then some t' else deltaLoop majorant tMax dense us t'

/-- `AnalyticalTrans_Samp::sample`, `src/media/sampling/analytic.cpp:23-28`, for `0 ≤ u < 1`. A random number of zero
and a density of zero give an infinite distance; `none` (minus infinity) only for a negative density. -/
noncomputable def analytic (dense tMin u : ℝ) : Option (WithTop ℝ) :=
  if dense = 0 then some ⊤
  else if u = 0 then (if dense < 0 then none else some ⊤)
  else some ((tMin + -Real.log u / dense : ℝ) : WithTop ℝ)

/-- The loop of `Ray_Marching_Samp::sample`, `src/media/sampling/ray_march.cpp:59-77`, with fuel. -/
noncomputable def marchSample (step_size tMax samp odSamp : ℝ) (ext : ℝ → V3 ℝ) : ℕ → ℝ → V3 ℝ → Option ℝ
  | 0, _, _ => none
  | n + 1, t, od =>
    if t < tMax then
      let step := min step_size (tMax - t)
      let past := od.maxOp
      let od := od + ext (t + step * samp)
      if od.maxOp > odSamp then some (t + step * (odSamp - past) / (od.maxOp - past))
      else marchSample step_size tMax samp odSamp ext n (t + step_size) od
    else some (tMax + 1)

/-- The samplers of scattering distances, `include/feign/media/sampling.h:34-78`. -/
inductive Sampling where
  | analytical
  | delta (majorant : ℝ)
  | rayMarching (step_size : ℝ)

/-- `MediumSampling::sample`: the value left in `closure.sampled_t`. Analytic `analytic.cpp:15-32` (its `max()` is the
vector's `max()`, see `V3.maxOp`), delta tracking `delta.cpp:15-46`, ray marching `ray_march.cpp:53-80`. The colour
returned is always white. -/
noncomputable def sampleT (s : Sampling) (D : ℝ → V3 ℝ) (sigma_t : V3 ℝ) (tMin tMax : ℝ) (us : List ℝ) (fuel : ℕ) :
    Option (WithTop ℝ) :=
  match s with
  | .analytical =>
    match us with
    | [] => none
    | u :: _ => analytic (D ((tMax - tMin) / 2 + tMin) * sigma_t).maxOp tMin u
  | .delta majorant => deltaLoop majorant tMax (fun t => (D t * sigma_t).maxOp) us tMin
  | .rayMarching step_size =>
    match us with
    | samp :: u :: _ =>
      (marchSample step_size tMax samp (-Real.log (1 - u)) (fun t => D t * sigma_t) fuel tMin (grey 0)).map
        fun t => (t : WithTop ℝ)
    | _ => none

/-- What `Media::sample` returns and leaves in the closure. -/
structure Event where
  weight : V3 ℝ
  sampledT : WithTop ℝ

/-- `MediaClosure::handleScatter`, `include/feign/core/closure.h:145-148`. -/
def Event.scatters (tMax : ℝ) (e : Event) : Prop := e.sampledT < (tMax : WithTop ℝ)

/-- `Media::sample`, `src/media/standard.cpp:44-70`: the distance left in the closure and the weight; `ub` when the
weight is not a number (division of a channel by zero). A fully absorbing medium leaves `sampled_t = t_max`
(`closure.h:131`). -/
noncomputable def sampleMedium (s : Sampling) (e : Estimator) (D : ℝ → V3 ℝ) (abs sca : V3 ℝ) (tMin tMax : ℝ)
    (us : List ℝ) (fuel : ℕ) : Res (Option Event) :=
  let sigma_t := abs + sca
  if sca.eqOp 0 then
    match transmittance e D sigma_t tMin tMax us fuel with
    | .ok r => .ok (r.map fun tr => ⟨tr, (tMax : WithTop ℝ)⟩)
    | .throw m => .throw m
    | .ub w => .ub w
  else
    match sampleT s D sigma_t tMin tMax us fuel with
    | none => .ok none
    | some t =>
      if t < (tMax : WithTop ℝ) then
        if sigma_t.x = 0 ∨ sigma_t.y = 0 ∨ sigma_t.z = 0 then .ub "0 / 0"
        else .ok (some ⟨⟨sca.x / sigma_t.x, sca.y / sigma_t.y, sca.z / sigma_t.z⟩, t⟩)
      else .ok (some ⟨grey 1, t⟩)

end Feign.Media
