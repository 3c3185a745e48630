import Mathlib.Data.Int.Log
import Mathlib.Algebra.Order.Floor.Ring
import Mathlib.Algebra.Group.Int.Even

/-!
# Rounding to single precision (model)

`Float` is `float` (`include/feign/common.h:81`). Results of arithmetic are rounded to 24 significant bits, to nearest,
ties to even. The range of exponents is not limited here: no overflow, no subnormal numbers.
-/

namespace Feign

variable {K : Type} [Field K] [LinearOrder K] [IsStrictOrderedRing K] [FloorRing K]

/-- The nearest integer, ties to even. -/
def nearest (x : K) : ℤ :=
  if x - ⌊x⌋ < 1 / 2 then ⌊x⌋
  else if 1 / 2 < x - ⌊x⌋ then ⌊x⌋ + 1
  else if Even ⌊x⌋ then ⌊x⌋ else ⌊x⌋ + 1

/-- Distance of neighbouring 24 bit numbers near `x`. -/
def spacing (x : K) : K := (2 : K) ^ (Int.log 2 |x| - 23)

/-- The value stored for `x` in a `float`. -/
def single (x : K) : K := if x = 0 then 0 else (nearest (x / spacing x) : K) * spacing x

end Feign
