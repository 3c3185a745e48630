import Verif.Basic
import Verif.Pool.Tiles
import Mathlib.Algebra.Order.Floor.Ring
import Mathlib.Algebra.Order.Field.Basic

/-!
# Accumulating radiance samples into the image (model)

Models `Integrator::render`, `src/integrators/integrator.cpp:39-130`, and the accumulation and
normalisation done by the multi-threaded renderer, `RenderTile::evaluate` and
`RenderPool::evaluate_pool`, `src/misc/render_pool.cpp:18-100` and `:228-243`.

* Numbers are elements of an ordered field `K` with floor. `fl : K → K` is the rounding performed after
  every arithmetic operation; `fl = id` gives exact arithmetic. Infinities and NaN are not modelled.
* What the sampler, the camera and `Li` answer for the `k`-th sample of pixel `(j, i)` is an arbitrary
  `Obs`. (`Li` throwing is outside this model.)
* The frame buffer is a function of the coordinates; touching it outside the image is `ub`.
-/

namespace Feign.Image

variable {K : Type} [Field K] [LinearOrder K] [IsStrictOrderedRing K] [FloorRing K]

/-- Image channels `0,1,2` and filter weights (channel `3`) by column and row. -/
abbrev Buf (K : Type) := Int → Int → Fin 4 → K

/-- What is drawn and computed for one sample: `sampler->next2D()` (`integrator.cpp:55`) and
`sampleRay(..) * Li(..)` (`integrator.cpp:58-65`). -/
structure Obs (K : Type) where
  u : K
  v : K
  rad : Fin 3 → K

/-- A reconstruction filter: `getSize()` and `evaluate()`, `include/feign/core/recon_filter.h`. -/
structure Filter (K : Type) where
  sizeX : K
  sizeY : K
  eval : K → K → K

/-- `if (min < n_min) min = n_min;`, `include/feign/math/bbox.h:394-397`. -/
def clipMin (m nMin : K) : K := if m < nMin then nMin else m

/-- `if (max > n_max) max = n_max;`, `include/feign/math/bbox.h:398-401`. -/
def clipMax (m nMax : K) : K := if m > nMax then nMax else m

/-- The values of `f` in `for (int f = lo; f <= hi; ++f)`. -/
def intRange (lo hi : Int) : List Int :=
  (List.range (hi + 1 - lo).toNat).map fun (n : Nat) => lo + (n : Int)

/-- First and last index of the splat loop in one dimension, `integrator.cpp:80-92`: the sample is at
`p`, the filter half width is `s` and the image is `n` pixels wide. -/
def splatRange (fl : K → K) (p s : K) (n : Nat) : List Int :=
  intRange ⌊clipMin (fl (p - s)) 0⌋ ⌊clipMax (fl (p + s)) (fl ((n : K) - 1))⌋

/-- The four additions, `integrator.cpp:97-101` and `render_pool.cpp:80-84`, at column `x`, row `y`. -/
def addAt (fl : K → K) (w h : Nat) (b : Buf K) (x y : Int) (rad : Fin 3 → K) (weight : K) :
    Res (Buf K) :=
  if 0 ≤ x ∧ x < w ∧ 0 ≤ y ∧ y < h then
    .ok fun x' y' c =>
      if x' = x ∧ y' = y then
        if hc : (c : Nat) < 3 then fl (b x' y' c + fl (weight * rad ⟨c, hc⟩)) else fl (b x' y' c + weight)
      else b x' y' c
  else .ub "pixel outside the image"

/-- The splat loops, `integrator.cpp:86-103` and `render_pool.cpp:66-89`: rows outside, columns inside. -/
def splat (fl : K → K) (flt : Filter K) (w h : Nat) (px py : K) (rad : Fin 3 → K) (b : Buf K) :
    Res (Buf K) :=
  ((splatRange fl py flt.sizeY h).flatMap fun y =>
      (splatRange fl px flt.sizeX w).map fun x => (x, y)).foldlM (init := b)
    fun b xy =>
      addAt fl w h b xy.1 xy.2 rad
        (flt.eval (fl (fl ((xy.1 : K) + 1 / 2) - px)) (fl (fl ((xy.2 : K) + 1 / 2) - py)))

/-- One sample of pixel column `j`, row `i`, `integrator.cpp:51-105`. -/
def sampleOnce (fl : K → K) (flt : Filter K) (w h : Nat) (i j : Nat) (o : Obs K) (b : Buf K) :
    Res (Buf K) :=
  splat fl flt w h (fl ((j : K) + o.u)) (fl ((i : K) + o.v)) o.rad b

/-- Normalisation in `Integrator::render`, `integrator.cpp:111-127`. -/
def normalize (fl : K → K) (b : Buf K) (x y : Int) (c : Fin 3) : K :=
  if b x y 3 = 0 then 0 else fl (b x y c.castSucc / b x y 3)

/-- Normalisation in `evaluate_pool`, `render_pool.cpp:228-243`: a pixel without weight keeps the
accumulated value. -/
def normalizePool (fl : K → K) (b : Buf K) (x y : Int) (c : Fin 3) : K :=
  if b x y 3 ≠ 0 then fl (b x y c.castSucc / b x y 3) else b x y c.castSucc

/-- Loop order of `Integrator::render`, `integrator.cpp:47-51`: sample index, row, column. -/
def renderOrder (spp w h : Nat) : List (Nat × Nat × Nat) :=
  (List.range spp).flatMap fun k => (List.range h).flatMap fun i => (List.range w).map fun j => (k, i, j)

/-- The accumulation over a list of (sample, row, column) triples. -/
def accumulate (fl : K → K) (flt : Filter K) (w h : Nat) (obs : Nat → Nat → Nat → Obs K)
    (order : List (Nat × Nat × Nat)) (b : Buf K) : Res (Buf K) :=
  order.foldlM (init := b) fun b kij => sampleOnce fl flt w h kij.2.1 kij.2.2 (obs kij.1 kij.2.1 kij.2.2) b

/-- `Integrator::render`, `integrator.cpp:39-130`: film size `w × h` (the image has the same size,
`src/scene.cpp:137-147`), `spp` samples per pixel. The buffers are cleared first. -/
def render (fl : K → K) (flt : Filter K) (w h spp : Nat) (obs : Nat → Nat → Nat → Obs K) :
    Res (Int → Int → Fin 3 → K) := do
  let b ← accumulate fl flt w h obs (renderOrder spp w h) (fun _ _ _ => 0)
  pure (normalize fl b)

/-- Loop order of `RenderTile::evaluate`, `render_pool.cpp:29-33`: row, column, sample index. -/
def tileOrder (spp : Nat) (t : Pool.Tile) : List (Nat × Nat × Nat) :=
  (intRange t.minY (t.maxY - 1)).flatMap fun i =>
    (intRange t.minX (t.maxX - 1)).flatMap fun j =>
      (List.range spp).map fun k => (k, i.toNat, j.toNat)

/-- Rendering the given tiles one after the other into an image with contents `img` and zero weights
(`render_pool.cpp:152-158`), then normalising. That running the tiles concurrently gives the same
buffers is `Feign.Pool.interleaving_independent`. -/
def renderTiles (fl : K → K) (flt : Filter K) (w h spp : Nat) (obs : Nat → Nat → Nat → Obs K)
    (tiles : List Pool.Tile) (img : Int → Int → Fin 3 → K) : Res (Int → Int → Fin 3 → K) := do
  let b ← accumulate fl flt w h obs (tiles.flatMap (tileOrder spp))
    (fun x y c => if hc : (c : Nat) < 3 then img x y ⟨c, hc⟩ else 0)
  pure (normalizePool fl b)

end Feign.Image
