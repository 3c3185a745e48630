import Verif.Integrators.Mist
import Verif.Integrators.VolProps
import Verif.Integrators.WalkSpec

/-!
# Specification: light carried back through media

Written without a loop, a throughput or a termination probability: the light that arrives along a ray is the
environment's, or, where something is hit, what the flight through the medium lets arrive of two things: the light
scattered towards the ray at the point where the flight ends in the medium, and the light that comes from what is hit.
Values are extended non-negative reals, one channel `i` at a time.
-/

namespace Feign.Integrators

open Sampling MeasureTheory
open scoped ENNReal

variable {R M : Type}

/-- Mean direct light at a surface. -/
noncomputable def Mist.direct (W : Mist R M) (i : Fin 3) (m : Option M) (r : R) : ℝ≥0∞ :=
  ∫⁻ ω, ENNReal.ofReal ((Vol.total (W.mat r) (W.lights m r ω).1).get i) ∂uniform

/-- Mean light from the lights at a point of a medium, times the mean value of the phase function. -/
noncomputable def Mist.glow (W : Mist R M) (i : Fin 3) (m : M) (r : R) (t : ℝ) : ℝ≥0∞ :=
  (∫⁻ ω, ENNReal.ofReal ((Vol.total (fun _ => white) (W.inside m r t ω).1).get i) ∂uniform) *
    ∫⁻ ω, ENNReal.ofReal (W.phase m r (W.turn m r ω).1) ∂uniform

/-- Light scattered towards a ray at distance `t`, if `L` is the light that arrives along rays. -/
noncomputable def Mist.haze (W : Mist R M) (i : Fin 3) (m : M) (r : R) (t : ℝ) (L : R → ℝ≥0∞) : ℝ≥0∞ :=
  W.glow i m r t + ∫⁻ ω, L (W.onward r t (W.turn m r ω).1) ∂uniform

/-- Light sent on by a surface, if `L` is the light that arrives along rays. -/
noncomputable def Mist.sheen (W : Mist R M) (i : Fin 3) (m : Option M) (r : R) (L : R → ℝ≥0∞) : ℝ≥0∞ :=
  W.direct i m r + ∫⁻ ω, ENNReal.ofReal (factor false i (W.scatter r ω).1) * L (W.scatter r ω).1.ray ∂uniform

/-- Light that arrives through a medium (if there is one) when light `fog t` is scattered at distance `t` and light `back`
comes from what is hit. -/
noncomputable def Mist.veiled (W : Mist R M) (i : Fin 3) (m : Option M) (r : R) (fog : M → ℝ → ℝ≥0∞) (back : ℝ≥0∞) :
    ℝ≥0∞ :=
  match m with
  | none => back
  | some m => ∫⁻ ω, ENNReal.ofReal ((W.free m r ω).1.weight.get i) *
      (if (W.free m r ω).1.scatters then fog m (W.free m r ω).1.t else back) ∂uniform

/-- Light carried back along a ray by paths that cross or meet at most `k` things, of which at most `n` are not null
surfaces. -/
noncomputable def Mist.carried (W : Mist R M) (i : Fin 3) : ℕ → ℕ → Option M → R → ℝ≥0∞
  | 0, _, _, _ => 0
  | _ + 1, 0, _, _ => 0
  | k + 1, n + 1, m, r =>
    if W.escapes r then ENNReal.ofReal ((W.env r).get i)
    else W.veiled i m r (fun m t => W.haze i m r t (W.carried i k n (some m)))
      (if W.null r then W.carried i k (n + 1) (W.beyond m r) (W.past r) else W.sheen i m r (W.carried i k n m))

/-- Light carried back by paths with at most `n` vertices and any number of null surfaces on the way. -/
noncomputable def Mist.light (W : Mist R M) (i : Fin 3) (n : ℕ) (m : Option M) (r : R) : ℝ≥0∞ :=
  ⨆ k, W.carried i k n m r

/-- What the theorems assume of a scene: nothing is negative, media never answer black, everything is measurable, and the
programs that draw from the sampler leave independent uniform numbers. -/
structure Mist.Lawful (W : Mist R M) [MeasurableSpace R] : Prop where
  escapes : Measurable W.escapes
  env : Measurable W.env
  env_nonneg : ∀ r, NonNeg (W.env r)
  free : ∀ m, Measurable fun p : R × Stream => W.free m p.1 p.2
  free_fresh : ∀ m r, Fresh (W.free m r)
  free_pos : ∀ m r ω i, 0 < (W.free m r ω).1.weight.get i
  inside : ∀ m, Measurable fun p : (R × ℝ) × Stream =>
    (Vol.total (fun _ => white) (W.inside m p.1.1 p.1.2 p.2).1, (W.inside m p.1.1 p.1.2 p.2).2)
  inside_fresh : ∀ m r t, Fresh fun ω => (Vol.total (fun _ => white) (W.inside m r t ω).1, (W.inside m r t ω).2)
  inside_nonneg : ∀ m r t ω, NonNeg (Vol.total (fun _ => white) (W.inside m r t ω).1)
  turn : ∀ m, Measurable fun p : R × Stream => W.turn m p.1 p.2
  turn_fresh : ∀ m r, Fresh (W.turn m r)
  phase : ∀ m, Measurable fun p : R × V3 ℝ => W.phase m p.1 p.2
  phase_nonneg : ∀ m r v, 0 ≤ W.phase m r v
  onward : Measurable fun p : R × ℝ × V3 ℝ => W.onward p.1 p.2.1 p.2.2
  null : Measurable W.null
  beyond : ∀ m m', MeasurableSet {r | W.beyond m r = m'}
  past : Measurable W.past
  lights : ∀ m, Measurable fun p : R × Stream => (Vol.total (W.mat p.1) (W.lights m p.1 p.2).1, (W.lights m p.1 p.2).2)
  lights_fresh : ∀ m r, Fresh fun ω => (Vol.total (W.mat r) (W.lights m r ω).1, (W.lights m r ω).2)
  lights_nonneg : ∀ m r ω, NonNeg (Vol.total (W.mat r) (W.lights m r ω).1)
  scatter : Measurable fun p : R × Stream => W.scatter p.1 p.2
  scatter_fresh : ∀ r, Fresh (W.scatter r)
  scatter_nonneg : ∀ r ω, NonNeg (W.scatter r ω).1.albedo ∧ 0 ≤ (W.scatter r ω).1.pdf

/-- No surface is specular and none emits: the light comes from the environment and from lights that are sampled. -/
structure Mist.Matte (W : Mist R M) : Prop where
  plain : ∀ r, W.delta r = false
  dark : ∀ r, W.emitted r = 0

/-- No path is given up as too dark: a flight that ends behind the medium loses nothing (no medium only absorbs), and a
surface sends on at least a ten-thousandth in every channel, or nothing. -/
structure Mist.Bright (W : Mist R M) : Prop where
  clear : ∀ m r ω, (W.free m r ω).1.scatters = false → (W.free m r ω).1.weight = white
  bounce : ∀ r ω, (W.scatter r ω).1.pdf = 0 ∨ ∀ i, 1 / 10000 ≤ factor false i (W.scatter r ω).1

/-- `v` gives what the integrator returns, for almost every stream of random numbers. -/
def Mist.Renders (W : Mist R M) (quot : ℝ → ℝ → ℝ) (maxBounces : ℕ) (env : Option M) (ray : R) (v : Stream → V3 ℝ) :
    Prop := ∀ᵐ ω ∂uniform, ∃ fuel, W.Li quot maxBounces env ray ω fuel = some (v ω)

end Feign.Integrators
