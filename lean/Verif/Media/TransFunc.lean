import Verif.Media.Model
import Mathlib.Analysis.SpecialFunctions.Pow.Real

/-!
# Transmittance functions (model)

`include/feign/media/trans_func.h`, `src/media/trans_funcs/{trans_func,exp_trans,lin_trans,davis_trans}.cpp` and the helpers of
`include/feign/math/spectrum.h`. Over the reals with exact arithmetic. Powers and logarithms are taken of positive
numbers only when the constants are in range (`0 < maxT`, `0 < c`), which the theorems ask for; the tests for
not-a-number in `davis_trans.cpp` then never fire. A random number is passed as the argument of the sampling functions.
-/

namespace Feign.Media

/-- A function applied to each channel. -/
def mapC (f : ℝ → ℝ) (a : V3 ℝ) : V3 ℝ := ⟨f a.x, f a.y, f a.z⟩

/-- The three classes; the members are those of the objects after construction (`trans_func.h:51-118`). -/
inductive TransFn where
  | exp
  | lin (maxT : ℝ)
  | davis (beta c : ℝ)

/-- `clamp`, `include/feign/common.h:226-233`. -/
noncomputable def clampR (p lo hi : ℝ) : ℝ := if p < lo then lo else if p > hi then hi else p

/-- The constructor of `DavisTrans`, `davis_trans.cpp:13-17`. -/
noncomputable def TransFn.ofDavis (h c : ℝ) : TransFn := .davis (2 * clampR h 0 1 - 1) c

/-- One channel of `Step(edge, x)` with a colour as the edge, `spectrum.h:40-46`. -/
noncomputable def stepC (x edge : ℝ) : ℝ := if x > edge then 1 else 0

/-- One channel of `Boxcar`, `spectrum.h:48-54`. -/
noncomputable def boxcarC (a b x : ℝ) : ℝ := if x ≥ a ∧ x ≤ b then 1 else 0

/-- `DavisTrans::computeAlpha`, `davis_trans.cpp:19-22`. -/
noncomputable def davisAlpha (beta c t : ℝ) : ℝ := t ^ (1 - beta) / c ^ (1 + beta)

/-- `DavisTrans::surfaceSurface` of the number it reads, `davis_trans.cpp:26-33`. -/
noncomputable def davisSS (beta c t : ℝ) : ℝ :=
  if t < 1 / 10000 then 1 else
    let alpha := davisAlpha beta c t
    (1 + t / alpha) ^ (-alpha)

/-- `DavisTrans::surfaceMedium`, `davis_trans.cpp:38-49`. -/
noncomputable def davisSM (beta c t : ℝ) : ℝ :=
  if t < 1 / 10000 then 1 else
    let alpha := davisAlpha beta c t
    let base := 1 + t / alpha
    base ^ (-alpha) * (beta / base - (beta - 1) * alpha / t * Real.log base)

/-- `DavisTrans::mediumMedium`, `davis_trans.cpp:59-74`. -/
noncomputable def davisMM (beta c t : ℝ) : ℝ :=
  if t < 1 / 10000 then 1 else
    let alpha := davisAlpha beta c t
    let base := 1 + t / alpha
    let logBase := Real.log base
    let term1 := beta * (-1 + beta * (1 + t) + (-1 + 2 * beta) * t / alpha) / (t * base * base)
    let term2 := ((-1 + beta) * beta * alpha / (t * t) * (2 * t + base) * logBase) / base
    let term3 := (beta - 1) * alpha / t * logBase
    base ^ (-alpha) * (term1 - term2 + term3 * term3)

/-- `surfaceSurface`: `exp_trans.cpp:13-16`, `lin_trans.cpp:18-21`, `davis_trans.cpp:24-34` (the first channel for all three). -/
noncomputable def TransFn.surfaceSurface (tau : V3 ℝ) : TransFn → V3 ℝ
  | exp => expV (-tau)
  | lin maxT => mapC (fun t => 1 - min (t / maxT) 1) tau
  | davis beta c => grey (davisSS beta c tau.x)

/-- `surfaceMedium`: `exp_trans.cpp:18-21`, `lin_trans.cpp:23-26`, `davis_trans.cpp:36-50`. -/
noncomputable def TransFn.surfaceMedium (tau : V3 ℝ) : TransFn → V3 ℝ
  | exp => expV (-tau)
  | lin maxT => mapC (fun t => stepC maxT t * (1 / maxT)) tau
  | davis beta c => grey (davisSM beta c tau.x)

/-- `mediumSurface`: `exp_trans.cpp:23-26`, `lin_trans.cpp:28-31`, `davis_trans.cpp:52-55`. -/
noncomputable def TransFn.mediumSurface (tau : V3 ℝ) : TransFn → V3 ℝ
  | exp => expV (-tau)
  | lin maxT => mapC (fun t => stepC maxT t) tau
  | davis beta c => (TransFn.davis beta c).surfaceMedium tau

/-- `mediumMedium`: `exp_trans.cpp:28-31`, `lin_trans.cpp:33-36`, `davis_trans.cpp:57-75`. -/
noncomputable def TransFn.mediumMedium (tau : V3 ℝ) : TransFn → V3 ℝ
  | exp => expV (-tau)
  | lin maxT => mapC (boxcarC (maxT - 1 / 1000) (maxT + 1 / 1000)) tau
  | davis beta c => grey (davisMM beta c tau.x)

/-- `sigmaBar`: `exp_trans.cpp:33-36`, `lin_trans.cpp:38-41`, `davis_trans.cpp:77-80`. -/
noncomputable def TransFn.sigmaBar : TransFn → ℝ
  | exp => 1
  | lin maxT => 1 / maxT
  | davis _ _ => 1

/-- The bisection loop of `davis_trans.cpp:90-97` and `:110-117`. The first argument bounds the number of rounds; `none`
means that the loop is still running. -/
noncomputable def bisect (cdf : ℝ → ℝ) (xi : ℝ) : ℕ → ℝ → ℝ → Option ℝ
  | 0, _, _ => none
  | n + 1, step, result =>
    if step > 1 / 1000000 then
      bisect cdf xi n (step / 2) (if cdf result > xi then result - step else result + step)
    else some result

/-- `sampleSurface` for the random number `xi`: `exp_trans.cpp:38-41`, `lin_trans.cpp:43-46`, `davis_trans.cpp:82-100`; 41 rounds
are enough (`bisect_ends`). -/
noncomputable def TransFn.sampleSurface (xi : ℝ) : TransFn → Option ℝ
  | exp => some (-Real.log (1 - xi))
  | lin maxT => some (maxT * (1 - 1 / 100000) * xi)
  | davis beta c => bisect (fun tau => 1 - ((TransFn.davis beta c).surfaceSurface (grey tau)).x) xi 41 1000000 2000000

/-- `sampleMedium`: `exp_trans.cpp:43-46`, `lin_trans.cpp:48-51` (no random number is drawn), `davis_trans.cpp:102-120`. -/
noncomputable def TransFn.sampleMedium (xi : ℝ) : TransFn → Option ℝ
  | exp => some (-Real.log (1 - xi))
  | lin maxT => some maxT
  | davis beta c => bisect (fun tau => 1 - ((TransFn.davis beta c).mediumSurface (grey tau)).x) xi 41 1000000 2000000

/-- `TransFunc::eval`, `trans_func.cpp:13-27`. -/
noncomputable def TransFn.eval (f : TransFn) (tau : V3 ℝ) (startOnSurface endOnSurface : Bool) : V3 ℝ :=
  if startOnSurface && endOnSurface then f.surfaceSurface tau
  else if !startOnSurface && !endOnSurface then divS (f.mediumMedium tau) f.sigmaBar
  else f.mediumSurface tau

/-- `TransFunc::sample`, `trans_func.cpp:29-33`. -/
noncomputable def TransFn.sample (f : TransFn) (xi : ℝ) (startOnSurface : Bool) : Option ℝ :=
  if startOnSurface then f.sampleSurface xi else f.sampleMedium xi

/-- `TransFunc::surfaceProbability`, `trans_func.cpp:35-39`. -/
noncomputable def TransFn.surfaceProbability (f : TransFn) (tau : V3 ℝ) (startOnSurface : Bool) : V3 ℝ :=
  if startOnSurface then f.surfaceSurface tau else f.mediumSurface tau

/-- `TransFunc::mediumPdf`, `trans_func.cpp:41-45`. -/
noncomputable def TransFn.mediumPdf (f : TransFn) (tau : V3 ℝ) (startOnSurface : Bool) : V3 ℝ :=
  if startOnSurface then f.surfaceMedium tau else f.mediumMedium tau

end Feign.Media
