import Verif.Integrators.WhittedSpec

/-!
# What Whitted's integrator leaves of the stream (model)

`src/integrators/whitted.cpp:31-128` with the radiance left out: the next sample of the image starts where this call
stopped drawing.
-/

namespace Feign.Integrators

open Sampling

variable {R : Type}

/-- The stream after the call; `none`: more than `fuel` nested calls. A surface that is not specular draws the light
samples (`:73`), a specular one what sampling the material draws (`:84`) and one number (`:93`). -/
noncomputable def World.whittedLeft (W : World R) : ℕ → R → Stream → Option Stream
  | 0, _, _ => none
  | fuel + 1, r, ω =>
    if W.escapes r then some ω
    else
      let l := W.samples r ω
      if W.delta r then
        let b := W.scatter r l.2
        if b.2 0 > 19 / 20 then some (drop 1 b.2)
        else if isZero (b.1.albedo.smul (1 / (19 / 20))) then some (drop 1 b.2)
        else W.whittedLeft fuel b.1.ray (drop 1 b.2)
      else some l.2

/-- A program that draws from the sampler is Whitted's integrator: whenever the call ends, it gives that radiance and
leaves the stream where the call stopped drawing. -/
def World.TracesWhitted (W : World R) (Li : R → Stream → V3 ℝ × Stream) : Prop :=
  ∀ r ω fuel, (∀ x t, Idle t → W.whitted fuel r ω t = .ok (some x, t) → (Li r ω).1 = x) ∧
    ∀ σ, W.whittedLeft fuel r ω = some σ → (Li r ω).2 = σ

end Feign.Integrators
