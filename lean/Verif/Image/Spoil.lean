import Verif.Image.Splat
import Verif.Math.Ieee

/-!
# Accumulating estimates that may not be numbers (model)

The loops of `Verif/Image/Splat.lean` for radiance that may be infinite or not a number, with what is logged about it.
Finite numbers are reals without rounding; filter weights and sample positions are finite.
-/

namespace Feign.Image

/-- One sample, `src/integrators/integrator.cpp:55-65`: position inside the pixel and radiance. -/
structure ObsF where
  u : ℝ
  v : ℝ
  rad : Fin 3 → Flt

/-- Image channels and filter weights (channel 3). -/
abbrev BufF := Int → Int → Fin 4 → Flt

/-- The lines logged for a sample of row `i`, column `j`, `integrator.cpp:67-75`. -/
inductive Note where
  | nan (i j : ℕ)
  | inf (i j : ℕ)

def isNan : Flt → Bool
  | .nan => true
  | _ => false

def isInf : Flt → Bool
  | .inf _ => true
  | _ => false

/-- `if (radiance.isNan()) LOG(..); if (radiance.isInf()) LOG(..);`, `integrator.cpp:67-75` with
`include/feign/math/vector.h:796-808`. -/
def notes (i j : ℕ) (rad : Fin 3 → Flt) : List Note :=
  (if isNan (rad 0) || isNan (rad 1) || isNan (rad 2) then [.nan i j] else []) ++
  (if isInf (rad 0) || isInf (rad 1) || isInf (rad 2) then [.inf i j] else [])

/-- The four additions, `integrator.cpp:97-101` and `src/misc/render_pool.cpp:80-84`. -/
noncomputable def addAtF (w h : ℕ) (b : BufF) (x y : Int) (rad : Fin 3 → Flt) (weight : ℝ) : Res BufF :=
  if 0 ≤ x ∧ x < w ∧ 0 ≤ y ∧ y < h then
    .ok fun x' y' c =>
      if x' = x ∧ y' = y then
        if hc : (c : ℕ) < 3 then b x' y' c + .fin weight * rad ⟨c, hc⟩ else b x' y' c + .fin weight
      else b x' y' c
  else .ub "pixel outside the image"

/-- The splat loops, `integrator.cpp:80-103` and `render_pool.cpp:56-89`; the bounds are those of `splatRange`. -/
noncomputable def splatF (flt : Filter ℝ) (w h : ℕ) (px py : ℝ) (rad : Fin 3 → Flt) (b : BufF) : Res BufF :=
  ((splatRange id py flt.sizeY h).flatMap fun y => (splatRange id px flt.sizeX w).map fun x => (x, y)).foldlM
    (init := b) fun b xy =>
      addAtF w h b xy.1 xy.2 rad (flt.eval (xy.1 + 1 / 2 - px) (xy.2 + 1 / 2 - py))

/-- The accumulation over a list of (sample, row, column) triples. -/
noncomputable def accumulateF (flt : Filter ℝ) (w h : ℕ) (obs : ℕ → ℕ → ℕ → ObsF) (order : List (ℕ × ℕ × ℕ))
    (b : BufF) : Res BufF :=
  order.foldlM (init := b) fun b kij =>
    let o := obs kij.1 kij.2.1 kij.2.2
    splatF flt w h (kij.2.2 + o.u) (kij.2.1 + o.v) o.rad b

open Classical in
/-- Normalisation in `Integrator::render`, `integrator.cpp:111-127`. -/
noncomputable def normalizeF (b : BufF) (x y : Int) (c : Fin 3) : Flt :=
  if (b x y 3).eqZero then .fin 0 else b x y c.castSucc / b x y 3

open Classical in
/-- Normalisation in `evaluate_pool`, `render_pool.cpp:228-243`: a pixel without weight keeps the accumulated value. -/
noncomputable def normalizePoolF (b : BufF) (x y : Int) (c : Fin 3) : Flt :=
  if ¬ (b x y 3).eqZero then b x y c.castSucc / b x y 3 else b x y c.castSucc

/-- `Integrator::render`, `integrator.cpp:39-130`: the image and the lines logged about its samples. -/
noncomputable def renderF (flt : Filter ℝ) (w h spp : ℕ) (obs : ℕ → ℕ → ℕ → ObsF) :
    Res ((Int → Int → Fin 3 → Flt) × List Note) := do
  let b ← accumulateF flt w h obs (renderOrder spp w h) (fun _ _ _ => .fin 0)
  pure (normalizeF b, (renderOrder spp w h).flatMap fun kij => notes kij.2.1 kij.2.2 (obs kij.1 kij.2.1 kij.2.2).rad)

/-- The tiles of a multi-threaded render one after the other into an image with contents `img`, then normalised
(`render_pool.cpp:18-100` and `:228-243`). Nothing is logged about the samples. -/
noncomputable def renderTilesF (flt : Filter ℝ) (w h spp : ℕ) (obs : ℕ → ℕ → ℕ → ObsF) (tiles : List Pool.Tile)
    (img : Int → Int → Fin 3 → Flt) : Res (Int → Int → Fin 3 → Flt) := do
  let b ← accumulateF flt w h obs (tiles.flatMap (tileOrder spp))
    (fun x y c => if hc : (c : ℕ) < 3 then img x y ⟨c, hc⟩ else .fin 0)
  pure (normalizePoolF b)

end Feign.Image
