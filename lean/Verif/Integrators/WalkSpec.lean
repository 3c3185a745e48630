import Verif.Integrators.Walk
import Verif.Integrators.PathProps

/-!
# Specification: light carried back along paths of bounded length

Written without a loop, a throughput or a termination probability: the light that arrives along a ray is what is emitted
towards it, the light that comes directly from the lights, and what the surface sends on of the light arriving there.
Values are extended non-negative reals, one channel `i` at a time.
-/

namespace Feign.Integrators

open Sampling MeasureTheory
open scoped ENNReal

variable {R : Type}

/-- Total of the unblocked light samples. -/
noncomputable def total (l : List (ShadowRay ℝ)) : V3 ℝ :=
  (l.filter (·.valid)).foldr (fun r v => r.throughput * r.albedo + v) 0

/-- Mean direct light at the hit of a ray; a specular surface gets none. -/
noncomputable def World.direct (W : World R) (i : Fin 3) (r : R) : ℝ≥0∞ :=
  if W.delta r then 0 else ∫⁻ ω, ENNReal.ofReal ((total (W.lights r ω).1).get i) ∂uniform

/-- The factor of a sampled direction: reflectance times cosine over density; a specular surface has no cosine, and
density zero means that there is no direction. -/
noncomputable def factor (delta : Bool) (i : Fin 3) (b : Bounce R) : ℝ :=
  if b.pdf = 0 then 0 else b.albedo.get i * (if delta then 1 else |b.cos|) / b.pdf

/-- Light carried back along a ray by paths of at most `n` further segments; `look` tells whether the light emitted by
the first surface counts (it does not if that light was already sampled directly). -/
noncomputable def World.carried (W : World R) (i : Fin 3) : ℕ → Bool → R → ℝ≥0∞
  | 0, _, _ => 0
  | n + 1, look, r =>
    if W.escapes r then ENNReal.ofReal ((W.env r).get i)
    else (if look then ENNReal.ofReal ((W.emitted r).get i) else 0) + W.direct i r +
      ∫⁻ ω, ENNReal.ofReal (factor (W.delta r) i (W.scatter r ω).1) *
        W.carried i n (W.delta r) (W.scatter r ω).1.ray ∂uniform

/-- What the theorems assume of a scene: nothing is negative, everything is measurable, and the programs that draw from
the sampler leave independent uniform numbers (which is the case for everything that only calls `next1D` and
`next2D`, `Sampling.fresh_bind`). -/
structure World.Lawful (W : World R) [MeasurableSpace R] : Prop where
  escapes : Measurable W.escapes
  env : Measurable W.env
  env_nonneg : ∀ r, NonNeg (W.env r)
  delta : Measurable W.delta
  emitted : Measurable W.emitted
  emitted_nonneg : ∀ r, NonNeg (W.emitted r)
  lights : Measurable fun p : R × Stream => (total (W.lights p.1 p.2).1, (W.lights p.1 p.2).2)
  lights_fresh : ∀ r, Fresh fun ω => (total (W.lights r ω).1, (W.lights r ω).2)
  lights_nonneg : ∀ r ω, NonNeg (total (W.lights r ω).1)
  scatter : Measurable fun p : R × Stream => W.scatter p.1 p.2
  scatter_fresh : ∀ r, Fresh (W.scatter r)
  scatter_nonneg : ∀ r ω, NonNeg (W.scatter r ω).1.albedo ∧ 0 ≤ (W.scatter r ω).1.pdf

end Feign.Integrators
