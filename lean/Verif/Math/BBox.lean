import Verif.Math.Vec
import Mathlib.Order.WithBot
import Mathlib.Data.Prod.Basic

/-!
# Bounding boxes (model)

`struct BBox3`, `include/feign/math/bbox.h:17-292`, and the part of `BBox2` that is used elsewhere.
Coordinates are exact. Infinities: ray parameters live in `Ext K`, the scalars with `-∞` and `+∞` added;
boxes that start empty (`reset()`) are modelled over a bounded linear order.
-/

namespace Feign

/-- Scalars with both infinities (`std::numeric_limits<float>::infinity()`). -/
abbrev Ext (K : Type) := WithBot (WithTop K)

/-- Embedding of finite scalars. -/
def Ext.fin {K : Type} (t : K) : Ext K := ((t : WithTop K) : WithBot (WithTop K))

/-- `BBox3<T>`, `include/feign/math/bbox.h:17-292`. -/
@[ext] structure B3 (K : Type) where
  min : V3 K
  max : V3 K
  deriving DecidableEq, Repr

/-- `Ray3f`, `include/feign/math/ray.h:16-34`. -/
structure Ray (K : Type) where
  origin : V3 K
  dir : V3 K
  near : Ext K
  far : Ext K

namespace Ray
variable {K : Type} [Ring K]
/-- `Ray3f::operator()(Float t)`, `src/math/ray.cpp:50-53`. -/
def point (r : Ray K) (t : K) : V3 K := r.origin + r.dir.smul t
end Ray

namespace B3
variable {K : Type}

section order
variable [LinearOrder K]

/-- `contains(const Vec3 &)`, `bbox.h:66-69`: strictly inside. -/
def contains (b : B3 K) (p : V3 K) : Prop := b.min.lt p ∧ p.lt b.max
/-- `containsOrOnBoundry(const Vec3 &)`, `bbox.h:71-74`. -/
def containsB (b : B3 K) (p : V3 K) : Prop := b.min.le p ∧ p.le b.max
/-- `contains(const BBox3 &)`, `bbox.h:76-79`. -/
def containsBox (b c : B3 K) : Prop := b.min.lt c.min ∧ c.max.lt b.max
/-- `containsOrOnBoundry(const BBox3 &)`, `bbox.h:81-84`. -/
def containsBoxB (b c : B3 K) : Prop := b.min.le c.min ∧ c.max.le b.max
/-- `overlaps(const BBox3 &)`, `bbox.h:91-94`. -/
def overlaps (b c : B3 K) : Prop := c.min.le b.min ∧ b.max.le c.max
/-- `overlapExcludeBoundry(const BBox3 &)`, `bbox.h:86-89`. -/
def overlapExcl (b c : B3 K) : Prop := c.min.lt b.min ∧ b.max.lt c.max

instance (b : B3 K) (p : V3 K) : Decidable (b.contains p) := by unfold contains; infer_instance
instance (b : B3 K) (p : V3 K) : Decidable (b.containsB p) := by unfold containsB; infer_instance
instance (b c : B3 K) : Decidable (b.overlaps c) := by unfold overlaps; infer_instance

/-- `expand(const Vec3 &)`, `bbox.h:113-117`. -/
def expand (b : B3 K) (p : V3 K) : B3 K := ⟨b.min.minV p, b.max.maxV p⟩
/-- `expand(const BBox3 &)`, `bbox.h:119-124`. -/
def expandBox (b c : B3 K) : B3 K := ⟨b.min.minV c.min, b.max.maxV c.max⟩
/-- `merge`, `bbox.h:126-133`. -/
def merge (b c : B3 K) : B3 K := ⟨b.min.minV c.min, b.max.maxV c.max⟩
/-- `BBox3(Vec3 vec)`, `bbox.h:25-29`. -/
def ofPoint (p : V3 K) : B3 K := ⟨p, p⟩
end order

/-- `reset()` and `BBox3()`, `bbox.h:20-23, 276-280`: minimum `+∞`, maximum `-∞`. -/
def empty [LinearOrder K] [BoundedOrder K] : B3 K := ⟨⟨⊤, ⊤, ⊤⟩, ⟨⊥, ⊥, ⊥⟩⟩

section field
variable [Field K]
/-- `center()`, `bbox.h:61-64`. -/
def center (b : B3 K) : V3 K := (b.max + b.min).smul (1 / 2)
/-- `extents()`, `bbox.h:108-111`. -/
def extents (b : B3 K) : V3 K := b.max - b.min
/-- `surfaceArea()`, `bbox.h:52-59`. -/
def surfaceArea (b : B3 K) : K :=
  2 * ((b.max - b.min).y * (b.max - b.min).z + (b.max - b.min).x * (b.max - b.min).z +
    (b.max - b.min).x * (b.max - b.min).y)
/-- `half = extents() / TWO + min`, `bbox.h:221`. -/
def half (b : B3 K) : V3 K :=
  ⟨(b.max.x - b.min.x) / 2 + b.min.x, (b.max.y - b.min.y) / 2 + b.min.y,
   (b.max.z - b.min.z) / 2 + b.min.z⟩

/-- `split_into_eight`, `bbox.h:206-240`. -/
def splitIntoEight (b : B3 K) : List (B3 K) :=
  let h := b.half
  [⟨⟨b.min.x, b.min.y, b.min.z⟩, ⟨h.x, h.y, h.z⟩⟩,
   ⟨⟨b.min.x, h.y, b.min.z⟩, ⟨h.x, b.max.y, h.z⟩⟩,
   ⟨⟨b.min.x, b.min.y, h.z⟩, ⟨h.x, h.y, b.max.z⟩⟩,
   ⟨⟨b.min.x, h.y, h.z⟩, ⟨h.x, b.max.y, b.max.z⟩⟩,
   ⟨⟨h.x, b.min.y, b.min.z⟩, ⟨b.max.x, h.y, h.z⟩⟩,
   ⟨⟨h.x, h.y, b.min.z⟩, ⟨b.max.x, b.max.y, h.z⟩⟩,
   ⟨⟨h.x, b.min.y, h.z⟩, ⟨b.max.x, h.y, b.max.z⟩⟩,
   ⟨⟨h.x, h.y, h.z⟩, ⟨b.max.x, b.max.y, b.max.z⟩⟩]

/-- `sample_x`, `bbox.h:261-264`. -/
def sampleX (b : B3 K) (s : K) : K := (b.max.x - b.min.x) * s
/-- `sample_y`, `bbox.h:266-269`: uses the x extent. -/
def sampleY (b : B3 K) (s : K) : K := (b.max.x - b.min.x) * s
/-- `sample_z`, `bbox.h:271-274`: uses the x extent. -/
def sampleZ (b : B3 K) (s : K) : K := (b.max.x - b.min.x) * s

/-- `local_space`, `bbox.h:254-259`. The division is a parameter, because the code divides by zero (with
an IEEE result) for a flat box. -/
def localSpace (div : K → K → K) (b : B3 K) (p : V3 K) : V3 K :=
  ⟨div (p.x - b.min.x) (b.max.x - b.min.x), div (p.y - b.min.y) (b.max.y - b.min.y),
   div (p.z - b.min.z) (b.max.z - b.min.z)⟩
end field

section slab
variable [Field K] [LinearOrder K]

/-- One round of the slab loop, `bbox.h:176-201` (and `:140-165`): `none` is `return false`. -/
def slabAxis (o d mn mx : K) (s : Ext K × Ext K) : Option (Ext K × Ext K) :=
  if d = 0 then
    if o < mn ∨ o > mx then none else some s
  else
    let t1 := (mn - o) * (1 / d)
    let t2 := (mx - o) * (1 / d)
    let lo := if t1 > t2 then t2 else t1
    let hi := if t1 > t2 then t1 else t2
    let near := Max.max (Ext.fin lo) s.1
    let far := Min.min (Ext.fin hi) s.2
    if ¬ near ≤ far then none else some (near, far)

/-- The three rounds. -/
def slabs (b : B3 K) (r : Ray K) : Option (Ext K × Ext K) := do
  let s ← slabAxis r.origin.x r.dir.x b.min.x b.max.x (⊥, ⊤)
  let s ← slabAxis r.origin.y r.dir.y b.min.y b.max.y s
  slabAxis r.origin.z r.dir.z b.min.z b.max.z s

/-- `intersect(const Ray3f &, Float &near, Float &far)`, `bbox.h:171-204`: the returned boolean and the
written parameters. When a round fails, the parameters keep intermediate values, which the model does not
report. -/
def intersectNF (b : B3 K) (r : Ray K) : Bool × Option (Ext K × Ext K) :=
  match slabs b r with
  | none => (false, none)
  | some (n, f) => (decide (r.near ≤ f ∧ n ≤ r.far), some (n, f))

/-- `intersect(const Ray3f &)`, `bbox.h:135-168`. -/
def intersect (b : B3 K) (r : Ray K) : Bool := (intersectNF b r).1

end slab

end B3
end Feign
