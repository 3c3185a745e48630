import Mathlib.Algebra.Field.Basic

/-!
# Complex numbers (model)

`include/feign/math/complex.h`. In-place operators return the new value of the left operand.
-/

namespace Feign

/-- `struct Complex2f`, `include/feign/math/complex.h:17-83`. -/
@[ext] structure C2 (K : Type) where
  re : K
  im : K
  deriving DecidableEq

/-- `struct Complex3f`, `include/feign/math/complex.h:85-159`. -/
@[ext] structure C3 (K : Type) where
  re : K
  im : K
  im2 : K
  deriving DecidableEq

variable {K : Type} [CommRing K]

namespace C2
/-- `operator+(Float)`, `complex.h:32-36`. -/
def addF (a : C2 K) (r : K) : C2 K := ⟨a.re + r, a.im⟩
/-- `operator-(Float)`, `complex.h:38-42`. -/
def subF (a : C2 K) (r : K) : C2 K := ⟨a.re - r, a.im⟩
/-- `operator+`, `complex.h:44-48`. -/
def add (a b : C2 K) : C2 K := ⟨a.re + b.re, a.im + b.im⟩
/-- `operator-`, `complex.h:50-54`. -/
def sub (a b : C2 K) : C2 K := ⟨a.re - b.re, a.im - b.im⟩
/-- `operator+=`, `complex.h:56-60`. -/
def addAssign (a b : C2 K) : C2 K := ⟨a.re + b.re, a.im + b.im⟩
/-- `operator-=`, `complex.h:62-66`: it adds. -/
def subAssign (a b : C2 K) : C2 K := ⟨a.re + b.re, a.im + b.im⟩
/-- `operator*`, `complex.h:68-74`. -/
def mul (a b : C2 K) : C2 K := ⟨a.re * b.re - a.im * b.im, a.re * b.im + a.im * b.re⟩
/-- `norm()`, `complex.h:76-79`: the squared modulus. -/
def norm (a : C2 K) : K := a.re * a.re + a.im * a.im
end C2

namespace C3
/-- `operator+`, `complex.h:114-119`. -/
def add (a b : C3 K) : C3 K := ⟨a.re + b.re, a.im + b.im, a.im2 + b.im2⟩
/-- `operator-`, `complex.h:121-126`. -/
def sub (a b : C3 K) : C3 K := ⟨a.re - b.re, a.im - b.im, a.im2 - b.im2⟩
/-- `operator+=`, `complex.h:128-133`. -/
def addAssign (a b : C3 K) : C3 K := ⟨a.re + b.re, a.im + b.im, a.im2 + b.im2⟩
/-- `operator-=`, `complex.h:135-140`. -/
def subAssign (a b : C3 K) : C3 K := ⟨a.re - b.re, a.im - b.im, a.im2 - b.im2⟩
/-- `operator*`, `complex.h:142-149`. -/
def mul (a b : C3 K) : C3 K :=
  ⟨a.re * b.re - a.im * b.im2 - a.im2 * b.im, a.re * b.im + a.im * b.re - a.im2 * b.im2,
   a.re * b.im2 + a.im * b.im + a.im2 * b.re⟩
/-- `norm()`, `complex.h:151-154`. -/
def norm (a : C3 K) : K := a.re * a.re + a.im * a.im + a.im2 * a.im2
end C3

end Feign
