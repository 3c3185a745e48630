import Verif.Image.Splat
import Verif.Sampling.Stream

/-!
# Specification: the filtered image

The light that belongs to a pixel is the average over the film of the light arriving at each film position, weighted
with the filter at the offset from the pixel's centre. Values are extended non-negative reals.
-/

namespace Feign.Image

open Sampling MeasureTheory Warp
open scoped ENNReal

variable {R : Type}

/-- The film: `w × h` pixels of size 1. -/
def film (w h : ℕ) : Set (ℝ × ℝ) := Set.Ioo 0 (w : ℝ) ×ˢ Set.Ioo 0 (h : ℝ)

/-- Weight of the film position `p` for the pixel column `x`, row `y`. -/
noncomputable def weightAt (flt : Filter ℝ) (x y : ℕ) (p : ℝ × ℝ) : ℝ≥0∞ :=
  ENNReal.ofReal (flt.eval ((x : ℝ) + 1 / 2 - p.1) ((y : ℝ) + 1 / 2 - p.2))

/-- Mean light for a film position: over the aperture and over the integrator's random numbers. -/
noncomputable def lightAt (ray : ℝ × ℝ → ℝ × ℝ → R) (mean : R → ℝ≥0∞) (p : ℝ × ℝ) : ℝ≥0∞ :=
  ∫⁻ a, mean (ray p a) ∂square

/-- Filtered light of the pixel column `x`, row `y`. -/
noncomputable def filtered (flt : Filter ℝ) (w h x y : ℕ) (light : ℝ × ℝ → ℝ≥0∞) : ℝ≥0∞ :=
  (∫⁻ p in film w h, weightAt flt x y p * light p) / ∫⁻ p in film w h, weightAt flt x y p

end Feign.Image
