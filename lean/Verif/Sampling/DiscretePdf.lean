import Verif.Basic
import Mathlib.Algebra.Order.Floor.Ring
import Mathlib.Algebra.Order.Field.Basic

/-!
# Discrete distributions (model)

`DiscretePDF1D`, `src/math/discrete_pdf.cpp`, and its use by area lights, `src/emitters/mesh.cpp`.
Exact arithmetic in an ordered field with floor. Reading a vector out of range is `ub`; dividing by a zero
sum (NaN entries in floating point, later converted to `int`) is `ub`.
-/

namespace Feign.Sampling

variable {K : Type} [Field K] [LinearOrder K] [FloorRing K]

/-- Conversion of a floating-point value to `int`: truncation towards zero. -/
def truncInt (x : K) : Int := if 0 ≤ x then ⌊x⌋ else ⌈x⌉

/-- Access `v[i]` to a `std::vector`. -/
def getAt {α : Type} (l : List α) (i : Int) : Res α :=
  if i < 0 then .ub "negative index"
  else match l[i.toNat]? with
    | some x => .ok x
    | none => .ub "index out of range"

/-- Exclusive running sums followed by the total: the last loop and the `push_back` of
`convert_pdf_to_cdf`, `src/math/discrete_pdf.cpp:44-53`. -/
def runningSums : K → List K → List K
  | acc, [] => [acc]
  | acc, x :: xs => acc :: runningSums (acc + x) xs

/-- `convert_pdf_to_cdf`, `src/math/discrete_pdf.cpp:27-54`. The assertion is part of the code
(`assert` aborts, modelled as `throw`). -/
def convertPdfToCdf (eps : K) (cdf : List K) : Res (List K) :=
  if cdf.sum = 0 then .ub "division by zero"
  else
    let pdf := cdf.map (· / cdf.sum)
    if |pdf.sum - 1| < eps then .ok (runningSums 0 pdf) else .throw "assertion failed"

/-- `normalize`, `src/math/discrete_pdf.cpp:56-66`. -/
def normalizeCdf (cdf : List K) : Res (List K) :=
  match cdf.getLast? with
  | none => .ub "empty vector"
  | some s => if s = 0 then .ub "division by zero" else .ok (cdf.map (· * (1 / s)))

/-- `while (cdf[i] < value && i < cdf.size() - 1) ++i;`, `src/math/discrete_pdf.cpp:73-74`, started at
index `i` with the rest of the vector. -/
def scan (value : K) : List K → Nat → Nat
  | [], i => i
  | [_], i => i
  | x :: y :: t, i => if x < value then scan value (y :: t) (i + 1) else i

/-- `int sample(Float value) const`, `src/math/discrete_pdf.cpp:69-77`. Note that line 76 returns the
*table entry* converted to `int`, not the index. -/
def sample (cdf : List K) (value : K) : Res Int := do
  let x ← getAt cdf (max ((scan value cdf 0 : Nat) - 1) 0)
  pure (truncInt x)

/-- `operator[](int entry) const`, `src/math/discrete_pdf.cpp:117-121` (same as `get_pmf`, `:104-107`). -/
def pmfAt (cdf : List K) (entry : Int) : Res K := do
  let b ← getAt cdf (entry + 1)
  let a ← getAt cdf entry
  pure (b - a)

/-- `int sample(Float value, Float &pdf) const`, `src/math/discrete_pdf.cpp:79-86`. -/
def samplePdf (cdf : List K) (value : K) : Res (Int × K) := do
  let index ← sample cdf value
  let pdf ← pmfAt cdf index
  pure (index, pdf)

/-- `int sample_reuse(Float &value) const`, `src/math/discrete_pdf.cpp:88-95`: returns the index and the
new `value`. -/
def sampleReuse (cdf : List K) (value : K) : Res (Int × K) := do
  let index ← sample cdf value
  let c ← getAt cdf index
  let p ← pmfAt cdf index
  if p = 0 then .ub "division by zero" else pure (index, (value - c) / p)

/-- `int sample_reuse(Float &value, Float &pdf) const`, `src/math/discrete_pdf.cpp:97-102`: returns the
index, the new `value` and `pdf`. -/
def sampleReusePdf (cdf : List K) (value : K) : Res (Int × K × K) := do
  let (index, pdf) ← samplePdf cdf value
  let c ← getAt cdf index
  if pdf = 0 then .ub "division by zero" else pure (index, (value - c) / pdf, pdf)

/-- The table built by `MeshEmitter::preProcess`, `src/emitters/mesh.cpp:33-41`
(a table of one entry more than there are faces, `src/math/discrete_pdf.cpp:18-25`, filled with `cdf[0] = 0`,
`cdf[i+1] = cdf[i] + surface_area(i)`, then `normalize`); the same code is in
`src/emitters/directional_mesh.cpp:34-42`. -/
def areaTable (areas : List K) : Res (List K) := normalizeCdf (runningSums 0 areas)

end Feign.Sampling
