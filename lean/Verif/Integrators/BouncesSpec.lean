import Verif.Integrators.Carried

/-!
# Specification: what a bounce limit leaves out

The rendering equation for an unknown, and bounds on a scene: what share of the light its surfaces send on, and how much
light there is to find at a hit.
-/

namespace Feign.Integrators

open Sampling MeasureTheory
open scoped ENNReal

variable {R : Type}

/-- `L` satisfies the rendering equation of the scene (channel `i`): `L look r` is the light that arrives along the ray
`r`, with the light emitted by the first surface if `look`. -/
def World.Solves (W : World R) (i : Fin 3) (L : Bool → R → ℝ≥0∞) : Prop :=
  ∀ look r, L look r =
    if W.escapes r then ENNReal.ofReal ((W.env r).get i)
    else (if look then ENNReal.ofReal ((W.emitted r).get i) else 0) + W.direct i r +
      ∫⁻ ω, ENNReal.ofReal (factor (W.delta r) i (W.scatter r ω).1) *
        L (W.delta r) (W.scatter r ω).1.ray ∂uniform

/-- Averaged over the sampled directions, no surface sends on more than the share `ρ` of what it receives. -/
def World.SendsAtMost (W : World R) (i : Fin 3) (ρ : ℝ) : Prop :=
  ∀ r, ∫⁻ ω, ENNReal.ofReal (factor (W.delta r) i (W.scatter r ω).1) ∂uniform ≤ ENNReal.ofReal ρ

/-- No ray finds more than `B` at the place where it arrives: environment, or emission and direct light together. -/
def World.FindsAtMost (W : World R) (i : Fin 3) (B : ℝ) : Prop :=
  ∀ r, (if W.escapes r then ENNReal.ofReal ((W.env r).get i)
    else ENNReal.ofReal ((W.emitted r).get i) + W.direct i r) ≤ ENNReal.ofReal B

end Feign.Integrators
