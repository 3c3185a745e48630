import Verif.Integrators.Walk

/-!
# Whitted's integrator in a scene, with the sampler's numbers (model)

The random numbers are drawn in the order of `src/integrators/whitted.cpp:31-128`: the light samples (none at a specular
surface), then at a specular surface what sampling the material draws (`:84`), then one number for the termination (`:93`).
-/

namespace Feign.Integrators

open Sampling

variable {R : Type}

/-- The answer at a vertex, for the ray that leads to it and the stream at that point. -/
def World.whittedAnswer (W : World R) (p : R × Stream) : Answer ℝ :=
  if W.escapes p.1 then .escape 0 (W.env p.1)
  else
    let l := W.samples p.1 p.2
    let b := W.scatter p.1 l.2
    .surface 0 ⟨.simple, W.delta p.1, W.emitted p.1, l.1, 0, .bsdf b.1.albedo b.1.pdf, b.1.cos, b.2 0⟩

/-- Ray and stream at the next vertex, `whitted.cpp:102-118`. -/
def World.whittedAdvance (W : World R) (p : R × Stream) : R × Stream :=
  let b := W.scatter p.1 (W.samples p.1 p.2).2
  (b.1.ray, drop 1 b.2)

/-- Ray and stream at vertex `k`. -/
def World.whittedWalk (W : World R) (p : R × Stream) : ℕ → R × Stream
  | 0 => p
  | k + 1 => W.whittedAdvance (W.whittedWalk p k)

/-- `WhittedIntegrator::Li` for a camera ray and a stream of random numbers; at most `fuel` nested calls are looked at,
`none` means still running. -/
noncomputable def World.whitted (W : World R) (fuel : ℕ) (ray : R) (ω : Stream) : Clk (Option (V3 ℝ)) :=
  whittedLi (fun k => W.whittedAnswer (W.whittedWalk (ray, ω) k)) fuel 0

end Feign.Integrators
