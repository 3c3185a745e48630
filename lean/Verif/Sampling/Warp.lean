import Verif.Math.VecReal
import Mathlib.Analysis.SpecialFunctions.Pow.Real

/-!
# Sampling warps (model)

`src/math/warp.cpp`. Over the reals; `INV_PI` and its multiples, decimal constants in
`include/feign/common.h:92-94`, are taken to be exactly `1/π`, `1/(2π)`, `1/(4π)`.
A square root of a negative number (NaN in the code) is only possible in `uniSphCap`, which returns `none`
there.
-/

namespace Feign.Warp

/-- `sqrToUniDisk`, `src/math/warp.cpp:14-21`. -/
noncomputable def uniDisk (s : V2 ℝ) : V2 ℝ :=
  let r := Real.sqrt s.y
  ⟨Real.cos (2 * Real.pi * s.x) * r, Real.sin (2 * Real.pi * s.x) * r⟩

open Classical in
/-- `sqrToUniDiskPdf`, `warp.cpp:23-26`. -/
noncomputable def uniDiskPdf (p : V2 ℝ) : ℝ := if p.x * p.x + p.y * p.y ≤ 1 then 1 / Real.pi else 0

/-- `sqrToUniSph`, `warp.cpp:28-35`. -/
noncomputable def uniSph (s : V2 ℝ) : V3 ℝ :=
  let z := 1 - 2 * s.y
  let r := Real.sqrt (max 0 (1 - z * z))
  ⟨r * Real.cos (2 * Real.pi * s.x), r * Real.sin (2 * Real.pi * s.x), z⟩

/-- `sqrToUniSphPdf`, `warp.cpp:37-40`. -/
noncomputable def uniSphPdf (_ : V3 ℝ) : ℝ := 1 / (4 * Real.pi)

open Classical in
/-- `sqrToUniSphCap`, `warp.cpp:42-49`; `none` when the square root has a negative argument. -/
noncomputable def uniSphCap (s : V2 ℝ) (cosMax : ℝ) : Option (V3 ℝ) :=
  let z := s.y + (1 - s.y) * cosMax
  if 1 - z * z < 0 then none else
    let r := Real.sqrt (1 - z * z)
    some ⟨r * Real.cos (2 * Real.pi * s.x), r * Real.sin (2 * Real.pi * s.x), z⟩

open Classical in
/-- `sqrToUniSphCapPdf`, `warp.cpp:51-56`; `none`: division by zero for `cosMax = 1`. -/
noncomputable def uniSphCapPdf (v : V3 ℝ) (cosMax : ℝ) : Option ℝ :=
  if v.z < cosMax then some 0 else
    if 1 - cosMax = 0 then none else some ((1 / (2 * Real.pi)) / (1 - cosMax))

/-- `sqrToUniHemi`, `warp.cpp:58-67`. -/
noncomputable def uniHemi (s : V2 ℝ) : V3 ℝ :=
  let c := 1 - s.y
  let r := Real.sqrt (max 0 (1 - c * c))
  ⟨Real.cos (2 * Real.pi * s.x) * r, Real.sin (2 * Real.pi * s.x) * r, c⟩

open Classical in
/-- `sqrToUniHemiPdf`, `warp.cpp:69-72`. -/
noncomputable def uniHemiPdf (v : V3 ℝ) : ℝ := if v.z > 0 then 1 / (2 * Real.pi) else 0

/-- `sqrToCosHemi`, `warp.cpp:74-80`. -/
noncomputable def cosHemi (s : V2 ℝ) : V3 ℝ :=
  let p := uniDisk s
  ⟨p.x, p.y, Real.sqrt (max 0 (1 - p.x * p.x - p.y * p.y))⟩

open Classical in
/-- `sqrToCosHemiPdf`, `warp.cpp:82-85`. -/
noncomputable def cosHemiPdf (v : V3 ℝ) : ℝ := if v.z > 0 then 1 / Real.pi * v.z else 0

/-- `sqrToCosPowHemi`, `warp.cpp:87-96`; the caller's exponent `n` is above -1 (at -1 the code divides by
zero). -/
noncomputable def cosPowHemi (s : V2 ℝ) (n : ℝ) : V3 ℝ :=
  let c := s.y ^ (1 / (n + 1))
  let r := Real.sqrt (max 0 (1 - c * c))
  ⟨Real.cos (2 * Real.pi * s.x) * r, Real.sin (2 * Real.pi * s.x) * r, c⟩

open Classical in
/-- `sqrToCosPowHemiPdf`, `warp.cpp:98-101`. -/
noncomputable def cosPowHemiPdf (v : V3 ℝ) (n : ℝ) : ℝ :=
  if v.z > 0 then 1 / 2 * (n + 1) * v.z ^ n * (1 / Real.pi) else 0

/-- `sqrToUniTri`, `warp.cpp:103-109`. -/
noncomputable def uniTri (s : V2 ℝ) : V2 ℝ := ⟨1 - Real.sqrt s.x, s.y * Real.sqrt s.x⟩

open Classical in
/-- `sqrToUniTriPdf`, `warp.cpp:111-119`. -/
noncomputable def uniTriPdf (p : V2 ℝ) : ℝ := if p.x + p.y > 1 then 0 else if p.x + p.y < 0 then 0 else 2

end Feign.Warp
