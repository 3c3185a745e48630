import Verif.Sampling.DiscretePdf
import Verif.Math.BBox

/-!
# Light selection (model)

`src/accel/light_naive.cpp`, `src/accel/light_spatial.cpp`, `Scene::choose_emitter`
(`src/scene.cpp:634-672`). The random number drawn from the sampler is the argument `u`.
-/

namespace Feign.Sampling

variable {K : Type} [Field K] [LinearOrder K] [FloorRing K]

/-- `NaiveLightAccel::build` followed by `sampleEmitter`, `src/accel/light_naive.cpp:20-34`: the chosen
index and the reported probability for `n` lights. -/
def naiveSelect (n : Nat) (u : K) : Int × K := (truncInt (u * (n : K)), 1 / (n : K))

/-- `NaiveLightAccel::sampleEmitters`, `src/accel/light_naive.cpp:36-46`: one number per entry. -/
def naiveSelectMany (n : Nat) (us : List K) : List (Int × K) := us.map (naiveSelect n)

/-- What light selection needs to know about a light: the instance id of its mesh, if it has one
(`Emitter::getMeshNode`). -/
structure LightInfo where
  meshInst : Option Nat

/-- `Scene::choose_emitter(MaterialClosure &, Float *)`, `src/scene.cpp:634-661`, with the naive
accelerator. `hit` is the instance id of the surface being shaded. The result is the returned light (by
position; `none` is `nullptr`) and the value written to `*pdf` (`none` if nothing is written). -/
def chooseEmitter (lights : List LightInfo) (hit : Nat) (u : K) : Res (Option Nat × Option K) :=
  if lights.length = 0 then .ok (none, none)
  else do
    let (idx, pdf) := naiveSelect lights.length u
    let l ← getAt lights idx
    match l.meshInst with
    | some inst => if inst = hit then .ok (none, some pdf) else .ok (some idx.toNat, some pdf)
    | none => .ok (some idx.toNat, some pdf)

/-- `Scene::choose_emitter(Sampler *, Float *)`, `src/scene.cpp:664-672`. -/
def chooseEmitterAny (lights : List LightInfo) (u : K) : Res (Nat × K) := do
  let idx := truncInt (u * (lights.length : K))
  let _ ← getAt lights idx
  if lights.length = 0 then .ub "division by zero" else pure (idx.toNat, 1 / (lights.length : K))

/-! ### The grid -/

/-- The configured grid resolution, `src/accel/light_spatial.cpp:16-20`. -/
structure GridDims where
  width : Nat
  height : Nat
  depth : Nat

/-- Box of cell `(j, i, k)`, `src/accel/light_spatial.cpp:48-70`. -/
def cellBox (b : B3 K) (g : GridDims) (j i k : Nat) : B3 K :=
  ⟨⟨b.sampleX ((j : K) / g.width), b.sampleY ((i : K) / g.height), b.sampleZ ((k : K) / g.depth)⟩,
   ⟨b.sampleX (((j + 1 : Nat) : K) / g.width), b.sampleY (((i + 1 : Nat) : K) / g.height),
    b.sampleZ (((k + 1 : Nat) : K) / g.depth)⟩⟩

/-- Weight of a light with the given centre in a cell, `src/accel/light_spatial.cpp:82-91`. `1 / 0` is
infinite in floating point, so the `std::min` then yields `PMF_MIN`. -/
def cellWeight (pmfMin : K) (cell : B3 K) (c : V3 K) : K :=
  if cell.contains c then 1
  else
    let norm := (cell.center - c).sqrNorm
    if norm = 0 then pmfMin else min (1 / norm) pmfMin

/-- Table of one cell, `src/accel/light_spatial.cpp:66-94`. -/
def cellTable (eps pmfMin : K) (cell : B3 K) (centres : List (V3 K)) : Res (List K) :=
  convertPdfToCdf eps (centres.map (cellWeight pmfMin cell) ++ [0])

/-- Table of cell `(j, i, k)`. -/
def tableAt (eps pmfMin : K) (b : B3 K) (g : GridDims) (centres : List (V3 K)) (j i k : Nat) :
    Res (List K) := cellTable eps pmfMin (cellBox b g j i k) centres

/-- Index of a cell in the array `bounds`, `src/accel/light_spatial.cpp:63`. -/
def cellIndex (g : GridDims) (j i k : Nat) : Nat := (k * g.height + i) * g.width + j

/-- The clamp chain and the cell coordinates computed for a shading point,
`src/accel/light_spatial.cpp:105-109`. -/
def usedCell (div : K → K → K) (b : B3 K) (g : GridDims) (p : V3 K) : Int × Int × Int :=
  let l := ((b.localSpace div p).minS 0).maxS 0
  (⌊l.x * g.width⌋, ⌊l.y * g.height⌋, ⌊l.z * g.depth⌋)

/-- `SpatialLightAccel::sampleEmitter`, `src/accel/light_spatial.cpp:100-114`: index and pdf. The cell is
looked up by its position in the array; every cell of the grid was built. -/
def spatialSelect (div : K → K → K) (eps pmfMin : K) (b : B3 K) (g : GridDims)
    (centres : List (V3 K)) (p : V3 K) (u : K) : Res (Int × K) :=
  let (x, y, z) := usedCell div b g p
  let idx := ((z * g.height) + y) * g.width + x
  if idx < 0 ∨ idx ≥ g.width * g.height * g.depth then .ub "cell out of range"
  else do
    -- coordinates of the array entry `idx`
    let n := idx.toNat
    let t ← tableAt eps pmfMin b g centres (n % g.width) ((n / g.width) % g.height)
      (n / g.width / g.height)
    samplePdf t u

end Feign.Sampling
