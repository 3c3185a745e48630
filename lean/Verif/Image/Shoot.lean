import Verif.Image.Splat
import Verif.Sampling.Stream
import Verif.Integrators.Model

/-!
# Rendering with one stream of random numbers (model)

`Integrator::render` (`src/integrators/integrator.cpp:39-130`) as in `Image/Splat`, but with what is drawn and computed
for each sample no longer given from outside: one sampler is handed through the loops. Exact arithmetic. The camera is a
function from film position and aperture numbers to rays, and the integrator is a program that draws from the sampler;
`R` is the type of rays.
-/

namespace Feign.Image

open Sampling

variable {R : Type}

/-- One sample of column `j`, row `i`, `integrator.cpp:55-65`: two numbers for the position in the pixel, two for the
aperture, then whatever `Li` draws. `sampleRay` returns the colour one (`src/cameras/perspective.cpp:83`), so the
product with it is left out. The result is the pair of position numbers and the radiance. -/
def shoot (ray : ℝ × ℝ → ℝ × ℝ → R) (Li : R → Stream → V3 ℝ × Stream) (i j : ℕ) (ω : Stream) :
    ((ℝ × ℝ) × V3 ℝ) × Stream :=
  let film := next2 ω
  let app := next2 film.2
  let l := Li (ray ((j : ℝ) + film.1.1, (i : ℝ) + film.1.2) app.1) app.2
  ((film.1, l.1), l.2)

/-- The same as an `Obs`. -/
def toObs (s : (ℝ × ℝ) × V3 ℝ) : Obs ℝ := ⟨s.1.1, s.1.2, s.2.get⟩

/-- One pass of the innermost loop, `integrator.cpp:53-105`: buffers and sampler. -/
noncomputable def shootOnce (flt : Filter ℝ) (w h : ℕ) (ray : ℝ × ℝ → ℝ × ℝ → R) (Li : R → Stream → V3 ℝ × Stream)
    (st : Buf ℝ × Stream) (kij : ℕ × ℕ × ℕ) : Res (Buf ℝ × Stream) := do
  let b ← sampleOnce id flt w h kij.2.1 kij.2.2 (toObs (shoot ray Li kij.2.1 kij.2.2 st.2).1) st.1
  pure (b, (shoot ray Li kij.2.1 kij.2.2 st.2).2)

/-- `Integrator::render`, `integrator.cpp:39-130`. -/
noncomputable def renderWith (flt : Filter ℝ) (w h spp : ℕ) (ray : ℝ × ℝ → ℝ × ℝ → R)
    (Li : R → Stream → V3 ℝ × Stream) (ω : Stream) : Res (Int → Int → Fin 3 → ℝ) := do
  let st ← (renderOrder spp w h).foldlM (shootOnce flt w h ray Li) (fun _ _ _ => 0, ω)
  pure (normalize id st.1)

end Feign.Image
