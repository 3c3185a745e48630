import Verif.Sdf.ShapeProps
import Verif.Sdf.Room
import Verif.Integrators.LitLemmas

/-! # Specification: surfaces, skies and lamps that keep to the rules -/

namespace Feign.Sdf

open Integrators

/-- Colours and emission are not negative, and emission depends measurably on the direction. -/
structure Look.Fair (l : Look) : Prop where
  albedo : NonNeg l.albedo
  emitted : ∀ d, NonNeg (l.emitted d)
  measurable : Measurable l.emitted

/-- Well-formed shapes with colours of at most `ρ`, emission and sky of at most `E`, and lamps of intensity at most `I`
that are all further than `δ` (and twice the tolerance of the tracing) from all solids. -/
structure Setting (ss : List Shape) (looks : ℕ → Look) (env : V3 ℝ → V3 ℝ) (lamps : List Lamp) (ρ E I δ : ℝ) : Prop where
  shapes : ∀ s ∈ ss, s.WellFormed
  fair : ∀ i, (looks i).Fair
  colour : ∀ i k, (looks i).albedo.get k ≤ ρ
  glow : ∀ i d k, ((looks i).emitted d).get k ≤ E
  sky : Measurable env
  sky_nonneg : ∀ d, NonNeg (env d)
  sky_le : ∀ d k, (env d).get k ≤ E
  lamps_nonneg : ∀ l ∈ lamps, NonNeg l.1
  lamps_le : ∀ l ∈ lamps, ∀ k, l.1.get k ≤ I
  apart : ∀ l ∈ lamps, ∀ s ∈ ss, ∀ q ∈ s.solid, δ + 2 * eps ≤ dist l.2 q

/-- No more light than this is found where a ray arrives. -/
noncomputable def found (n : ℕ) (ρ E I δ : ℝ) : ℝ := E + n * (ρ / Real.pi * (I / (4 * Real.pi * (δ * δ))))

end Feign.Sdf
