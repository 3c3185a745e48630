import Verif.Math.BBox
import Verif.Basic

/-!
# Flat boxes (model)

`struct BBox2`, `include/feign/math/bbox.h:294-432`. Coordinates are exact. `area()` (`:322-325`), `contains` of a point
(`:332-335`) and of a box (`:342-345`) and `overlapExcludeBoundry` (`:352-355`) cannot be compiled when they are used: they
read `max.x`, and `operator<` of `Vec2` (`vector.h:114-118`) calls an array. They are not modelled.
-/

namespace Feign

/-- `BBox2<T>`, `include/feign/math/bbox.h:294-432`. -/
@[ext] structure B2 (K : Type) where
  min : V2 K
  max : V2 K
  deriving DecidableEq, Repr

namespace B2
variable {K : Type} [LinearOrder K]

/-- `operator<=` of `Vec2`, `vector.h:138-142`; `operator>=` (`:150-154`) is the same the other way round. -/
def le2 (a b : V2 K) : Prop := a.x ≤ b.x ∧ a.y ≤ b.y

/-- `Vec2::min`, `vector.h:247-262`. -/
def min2 (a b : V2 K) : V2 K := ⟨if a.x < b.x then a.x else b.x, if a.y < b.y then a.y else b.y⟩
/-- `Vec2::max`, `vector.h:264-279`. -/
def max2 (a b : V2 K) : V2 K := ⟨if a.x > b.x then a.x else b.x, if a.y > b.y then a.y else b.y⟩

/-- `containsOrOnBoundry(const Vec2 &)`, `bbox.h:337-340`. -/
def containsB (b : B2 K) (p : V2 K) : Prop := le2 b.min p ∧ le2 p b.max
/-- `containsOrOnBoundry(const BBox2 &)`, `bbox.h:347-350`. -/
def containsBoxB (b c : B2 K) : Prop := le2 b.min c.min ∧ le2 c.max b.max
/-- `overlaps(const BBox2 &)`, `bbox.h:357-360`. -/
def overlaps (b c : B2 K) : Prop := le2 c.min b.min ∧ le2 b.max c.max
/-- `expand(const Vec2 &)`, `bbox.h:379-383`. -/
def expand (b : B2 K) (p : V2 K) : B2 K := ⟨min2 b.min p, max2 b.max p⟩
/-- `expand(const BBox2 &)`, `bbox.h:385-390`. -/
def expandBox (b c : B2 K) : B2 K := ⟨min2 b.min c.min, max2 b.max c.max⟩
/-- `merge`, `bbox.h:404-411`. -/
def merge (b c : B2 K) : B2 K := ⟨min2 b.min c.min, max2 b.max c.max⟩
/-- `clip`, `bbox.h:392-402`. -/
def clip (b : B2 K) (lo hi : V2 K) : B2 K :=
  ⟨⟨if b.min.x < lo.x then lo.x else b.min.x, if b.min.y < lo.y then lo.y else b.min.y⟩,
   ⟨if b.max.x > hi.x then hi.x else b.max.x, if b.max.y > hi.y then hi.y else b.max.y⟩⟩

/-- `reset()`, `bbox.h:413-417`, where `inf` is `std::numeric_limits<T>::infinity()` and `ninf` its negative. -/
def reset (inf ninf : K) : B2 K := ⟨⟨inf, inf⟩, ⟨ninf, ninf⟩⟩

/-- `center()`, `bbox.h:327-330`: the value is computed and not returned, which is undefined behaviour. -/
def center (_ : B2 K) : Res (V2 K) := .ub "flowing off the end of a function that returns a value"

/-- `majorAxis()`, `bbox.h:362-366`, with `maxAbsIndex`, `vector.h:291-294`. -/
def majorAxis [AddGroup K] (b : B2 K) : ℕ := if |b.max.x - b.min.x| > |b.max.y - b.min.y| then 0 else 1
/-- `minorAxis()`, `bbox.h:368-372`, with `minAbsIndex`, `vector.h:296-299`. -/
def minorAxis [AddGroup K] (b : B2 K) : ℕ := if |b.max.x - b.min.x| < |b.max.y - b.min.y| then 0 else 1

/-- Points added one after the other. -/
def grow (b : B2 K) (ps : List (V2 K)) : B2 K := ps.foldl expand b

/-- The empty box of floats. -/
def empty [BoundedOrder K] : B2 K := reset ⊤ ⊥
/-- The empty box of integers (`BBox2i`, `bbox.h:436`): `std::numeric_limits<int>::infinity()` is `0`. -/
def emptyInt : B2 ℤ := reset 0 (-0)

end B2
end Feign
