import Verif.Integrators.Walk

/-!
# What the path integrator leaves of the stream (model)

`World.Li` gives the radiance. The next sample of the image starts where this call stopped drawing, so the position in
the stream matters too: `src/integrators/path_unidir.cpp:43-142`, with the radiance left out.
-/

namespace Feign.Integrators

open Sampling

variable {R : Type}

/-- The throughput after a bounce, `path_unidir.cpp:89` and `:132-139`. -/
noncomputable def bounceBeta (quot : ℝ → ℝ → ℝ) (delta : Bool) (β : V3 ℝ) (b : Bounce R) : V3 ℝ :=
  β * divBy quot (b.albedo.smul (if delta then 1 else if b.cos < 0 then -b.cos else b.cos)) (b.pdf * min β.maxValue 1)

/-- The stream after the loop, with at most `n` bounces to go: `path_unidir.cpp:43-142`. It draws the light samples, one
number for the termination (`:92`) and, if that does not end the path, what sampling the material draws (`:108`). -/
noncomputable def World.left (W : World R) (quot : ℝ → ℝ → ℝ) : ℕ → V3 ℝ → R × Stream → Stream
  | 0, _, p => p.2
  | n + 1, β, p =>
    if isZero β then p.2
    else if W.escapes p.1 then p.2
    else
      let l := W.samples p.1 p.2
      if l.2 0 > min β.maxValue 1 then drop 1 l.2
      else
        let b := W.scatter p.1 (drop 1 l.2)
        if b.1.pdf = 0 then b.2
        else W.left quot n (bounceBeta quot (W.delta p.1) β b.1) (b.1.ray, b.2)

/-- A program that draws from the sampler is the path integrator for this scene: its radiance is the one of
`Path_Unidirectional_Integrator::Li` whatever clocks run outside, and it leaves the stream where the loop stopped. -/
def World.Traces (W : World R) (quot : ℝ → ℝ → ℝ) (maxBounces : ℕ) (Li : R → Stream → V3 ℝ × Stream) : Prop :=
  ∀ r ω, (∀ t, Idle t → W.Li quot maxBounces r ω t = .ok ((Li r ω).1, t)) ∧
    (Li r ω).2 = W.left quot maxBounces white (r, ω)

end Feign.Integrators
