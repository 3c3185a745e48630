import Verif.Image.Splat
import Mathlib.Analysis.SpecialFunctions.Exp

/-!
# Reconstruction filters (model)

`src/filters/box_filter.cpp`, `src/filters/gauss_filter.cpp`, `include/feign/core/recon_filter.h`.
-/

namespace Feign.Image

/-- `BoxFilter::evaluate`, `src/filters/box_filter.cpp:26-33`. -/
def boxEval {K : Type} [Field K] [LinearOrder K] (sx sy : K) (x y : K) : K :=
  if |x| < sx ∧ |y| < sy then 1 else 0

/-- A box filter of the given half widths. -/
def boxFilter {K : Type} [Field K] [LinearOrder K] (sx sy : K) : Filter K :=
  { sizeX := sx, sizeY := sy, eval := boxEval sx sy }

/-- `BoxFilter::BoxFilter()`, `src/filters/box_filter.cpp:14-17`. -/
def defaultBox {K : Type} [Field K] [LinearOrder K] : Filter K := boxFilter (1 / 2) (1 / 2)

/-- Data members of `GaussFilter`, `include/feign/core/recon_filter.h:71-74`; `coeffs` is
`(alpha, expCoeff[0], expCoeff[1])`, absent (uninitialised) until `preProcess` has run. -/
structure Gauss where
  sizeX : ℝ
  sizeY : ℝ
  stdDev : ℝ
  coeffs : Option (ℝ × ℝ × ℝ)

/-- `GaussFilter(Vec2f size, Float std_dev)`, `src/filters/gauss_filter.cpp:23-27`. -/
def Gauss.new (sx sy sd : ℝ) : Gauss := { sizeX := sx, sizeY := sy, stdDev := sd, coeffs := none }

/-- `GaussFilter::preProcess`, `src/filters/gauss_filter.cpp:29-40`. `std_dev = 0` divides by zero
(infinite `alpha` in floating point); the model makes it `ub` since no later value is meaningful. -/
noncomputable def Gauss.preProcess (g : Gauss) : Res Gauss :=
  if g.stdDev = 0 then .ub "division by zero"
  else
    let alpha := -1 / (2 * g.stdDev * g.stdDev)
    .ok { g with coeffs := some (alpha, Real.exp (alpha * g.sizeX * g.sizeX),
                                  Real.exp (alpha * g.sizeY * g.sizeY)) }

/-- `GaussFilter::evaluate`, `src/filters/gauss_filter.cpp:42-52`. -/
noncomputable def Gauss.evaluate (g : Gauss) (x y : ℝ) : Res ℝ :=
  match g.coeffs with
  | none => .ub "alpha read before initialisation"
  | some (alpha, ex, ey) =>
    .ok (max 0 (Real.exp (alpha * x * x) - ex) * max 0 (Real.exp (alpha * y * y) - ey))

/-- The `Gauss` filter after `preProcess`, as used by the splat loop. -/
noncomputable def gaussFilter (sx sy sd : ℝ) : Filter ℝ :=
  { sizeX := sx, sizeY := sy
    eval := fun x y =>
      max 0 (Real.exp (-1 / (2 * sd * sd) * x * x) - Real.exp (-1 / (2 * sd * sd) * sx * sx)) *
      max 0 (Real.exp (-1 / (2 * sd * sd) * y * y) - Real.exp (-1 / (2 * sd * sd) * sy * sy)) }

/-- The filter created for the name `"default"`, `src/api/api.cpp:280-285`; no other name ever gets a
filter object. -/
noncomputable def apiDefaultFilter : Filter ℝ := gaussFilter 2 2 1

end Feign.Image
