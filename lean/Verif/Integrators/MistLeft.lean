import Verif.Integrators.Mist
import Verif.Integrators.Left

/-!
# What the volumetric path integrator leaves of the stream (model)

`Mist.Li` gives the radiance. The next sample of the image starts where this call stopped drawing:
`src/integrators/volpath.cpp:49-207`, with the radiance left out.
-/

namespace Feign.Integrators

open Sampling

variable {R M : Type}

/-- The stream after the loop with at most `n` vertices to go; `none`: still running after `fuel` passes. A scattering point
draws the light samples (`volpath.cpp:80-87`), the direction (`:91`) and one number for the termination (`:115-122`); a
null surface draws nothing; another surface draws the light samples, one number and what sampling the material draws
(`:159-206`). -/
noncomputable def Mist.left (W : Mist R M) (quot : ℝ → ℝ → ℝ) : ℕ → ℕ → V3 ℝ → Option M → R → Stream → Option Stream
  | 0, _, _, _, _, _ => none
  | _ + 1, 0, _, _, _, ω => some ω
  | fuel + 1, n + 1, β, m, r, ω =>
    if isZero β then some ω
    else if W.escapes r then some ω
    else
      let hit := fun (β : V3 ℝ) (ω : Stream) =>
        if W.null r then W.left quot fuel (n + 1) β (W.beyond m r) (W.past r) ω
        else
          let l := W.samples m r ω
          if l.2 0 > min β.maxValue 1 then some (drop 1 l.2)
          else
            let b := W.scatter r (drop 1 l.2)
            if b.1.pdf = 0 then some b.2
            else W.left quot fuel n (bounceBeta quot (W.delta r) β b.1) m b.1.ray b.2
      match m with
      | none => hit β ω
      | some m =>
        let f := W.free m r ω
        let β := β * f.1.weight
        if f.1.scatters then
          let d := W.turn m r (W.inside m r f.1.t f.2).2
          if d.2 0 > min β.maxValue 1 then some (drop 1 d.2)
          else W.left quot fuel n (divBy quot β (min β.maxValue 1)) (some m) (W.onward r f.1.t d.1) (drop 1 d.2)
        else hit β f.2

/-- A program that draws from the sampler is the volumetric path integrator for this scene: for every stream the loop
ends, with the program's radiance, and it leaves the stream where the loop stopped. -/
def Mist.Traces (W : Mist R M) (quot : ℝ → ℝ → ℝ) (maxBounces : ℕ) (env : Option M) (Li : R → Stream → V3 ℝ × Stream) :
    Prop :=
  ∀ r ω, ∃ fuel, W.Li quot maxBounces env r ω fuel = some (Li r ω).1 ∧
    W.left quot fuel maxBounces white env r ω = some (Li r ω).2

end Feign.Integrators
