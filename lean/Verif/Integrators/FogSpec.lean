import Verif.Integrators.Fog
import Verif.Integrators.MistSpec
import Verif.Integrators.RoomSpec

/-!
# Specification: radiative transfer in homogeneous media

Light that travels through a medium is scattered and absorbed; light scattered at a point of the medium towards the ray
is added. Values are extended non-negative reals, one channel `i` at a time.
-/

namespace Feign.Integrators

open Sampling MeasureTheory Warp
open scoped ENNReal

variable {M : Type}

/-- Extinction per unit length: density times the sum of the two coefficients. -/
def Fluid.extinction (f : Fluid) (i : Fin 3) : ℝ := f.density.get i * (f.abs.get i + f.sca.get i)

/-- Light scattered per unit length. -/
def Fluid.scattering (f : Fluid) (i : Fin 3) : ℝ := f.density.get i * f.sca.get i

/-- The equation of radiative transfer along a stretch from `a` to `b`: the light scattered in at every point and the
light `back` at the far end, both weakened on the way to `a`. -/
noncomputable def Fluid.transfer (f : Fluid) (i : Fin 3) (a b : ℝ) (inscatter : ℝ → ℝ≥0∞) (back : ℝ≥0∞) : ℝ≥0∞ :=
  (∫⁻ t in Set.Ioo a b, ENNReal.ofReal (f.scattering i * Real.exp (-f.extinction i * (t - a))) * inscatter t) +
    ENNReal.ofReal (Real.exp (-f.extinction i * (b - a))) * back

/-- Mean light from the light samples at a point of a medium. -/
noncomputable def Fog.lampsAt (S : Fog M) (i : Fin 3) (m : M) (r : Ray) (t : ℝ) : ℝ≥0∞ :=
  ∫⁻ ω, ENNReal.ofReal ((Vol.total (fun _ => white) (S.motes m r t ω).1).get i) ∂uniform

/-- Light scattered towards a ray at distance `t` by a medium that scatters evenly in all directions: the lights, and the
light `L` that arrives from each direction. -/
noncomputable def Fog.inscatter (S : Fog M) (i : Fin 3) (m : M) (r : Ray) (L : Ray → ℝ≥0∞) (t : ℝ) : ℝ≥0∞ :=
  ENNReal.ofReal (1 / (4 * Real.pi)) * (S.lampsAt i m r t + ∫⁻ v, L (r.1 + r.2.smul t, v) ∂solidAngle)

open Classical in
/-- Light a diffuse surface sends back along the ray: from the lights, and from every direction. -/
noncomputable def Fog.surface (S : Fog M) (i : Fin 3) (m : Option M) (r : Ray) (L : Ray → ℝ≥0∞) : ℝ≥0∞ :=
  (∫⁻ ω, ENNReal.ofReal ((Vol.total (Bsdf.diffuseEval (S.room.albedo r) (S.room.wi r)) (S.glints m r ω).1).get i)
    ∂uniform) + if S.room.Front r then S.room.lambert i r L else 0

/-- The light from what is hit: behind a null surface the light `L'` that arrives along the ray that goes on in the medium
there, from another surface what it sends back of the light `L`. -/
noncomputable def Fog.back (S : Fog M) (i : Fin 3) (L L' : Option M → Ray → ℝ≥0∞) (m : Option M) (r : Ray) : ℝ≥0∞ :=
  if S.null r = true then L' (S.mist.beyond m r) (S.room.point r, r.2) else S.surface i m r (L m)

/-- A medium for which the sampler of distances is right: one that only absorbs, or one with a grey density and
coefficients that add up to one. -/
def Fluid.Unit (f : Fluid) : Prop :=
  f.sca = 0 ∨ (∀ i, f.density.get i = f.density.get 0) ∧ ∀ i, f.abs.get i + f.sca.get i = 1

/-- Coefficients that make sense: the density is positive, absorption is not negative, and the medium scatters all
channels or none. -/
structure Fluid.Lawful (f : Fluid) : Prop where
  density : ∀ i, 0 < f.density.get i
  abs : ∀ i, 0 ≤ f.abs.get i
  sca : f.sca = 0 ∨ ∀ i, 0 < f.sca.get i

/-- What the theorems assume of a scene with media. -/
structure Fog.Lawful (S : Fog M) : Prop where
  room : S.room.Lawful
  matte : ∀ r, S.room.material r = .diffuse
  dark : ∀ r, S.room.emitted r = 0
  dist : Measurable S.dist
  ahead : ∀ r, S.room.seen r = true → S.room.eps ≤ S.dist r
  fluid : ∀ m, (S.fluid m).Lawful
  null : Measurable S.null
  beyond : ∀ m m', MeasurableSet {r | S.mist.beyond m r = m'}
  motes : ∀ m, Measurable fun p : (Ray × ℝ) × Stream =>
    (Vol.total (fun _ => white) (S.motes m p.1.1 p.1.2 p.2).1, (S.motes m p.1.1 p.1.2 p.2).2)
  motes_fresh : ∀ m r t, Fresh fun ω => (Vol.total (fun _ => white) (S.motes m r t ω).1, (S.motes m r t ω).2)
  motes_nonneg : ∀ m r t ω, NonNeg (Vol.total (fun _ => white) (S.motes m r t ω).1)
  glints : ∀ m, Measurable fun p : Ray × Stream =>
    (Vol.total (Bsdf.diffuseEval (S.room.albedo p.1) (S.room.wi p.1)) (S.glints m p.1 p.2).1, (S.glints m p.1 p.2).2)
  glints_fresh : ∀ m r, Fresh fun ω =>
    (Vol.total (Bsdf.diffuseEval (S.room.albedo r) (S.room.wi r)) (S.glints m r ω).1, (S.glints m r ω).2)
  glints_nonneg : ∀ m r ω, NonNeg (Vol.total (Bsdf.diffuseEval (S.room.albedo r) (S.room.wi r)) (S.glints m r ω).1)

end Feign.Integrators
