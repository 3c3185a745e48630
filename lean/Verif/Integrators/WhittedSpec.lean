import Verif.Integrators.Whitted
import Verif.Integrators.WalkSpec

/-!
# Specification: light seen through specular surfaces

Whitted's method follows a ray through specular surfaces to the first surface that is not: what arrives along a ray is
what the surface emits, what it sends on of the light arriving from the sampled specular direction, and for a surface that
is not specular the direct light. Written without a termination.
-/

namespace Feign.Integrators

open Sampling MeasureTheory
open scoped ENNReal

variable {R : Type}

/-- Light arriving along a ray through at most `n` surfaces. -/
noncomputable def World.seenThrough (W : World R) (i : Fin 3) : ℕ → R → ℝ≥0∞
  | 0, _ => 0
  | n + 1, r =>
    if W.escapes r then ENNReal.ofReal ((W.env r).get i)
    else if W.delta r then ENNReal.ofReal ((W.emitted r).get i) +
      ∫⁻ ω, ENNReal.ofReal ((W.scatter r ω).1.albedo.get i) * W.seenThrough i n (W.scatter r ω).1.ray ∂uniform
    else ENNReal.ofReal ((W.emitted r).get i) + W.direct i r

/-- Light arriving along a ray through any number of surfaces. -/
noncomputable def World.seenLight (W : World R) (i : Fin 3) (r : R) : ℝ≥0∞ := ⨆ n, W.seenThrough i n r

/-- A program returns what the integrator returns whenever that comes to an end. -/
def World.Whitted (W : World R) (ray : R) (v : Stream → V3 ℝ) : Prop :=
  ∀ ω fuel x t, Idle t → W.whitted fuel ray ω t = .ok (some x, t) → v ω = x

end Feign.Integrators
