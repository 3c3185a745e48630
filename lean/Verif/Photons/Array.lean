import Verif.Math.Vec
import Verif.Basic

/-!
# The photon list (model)

`PhotonArray`, `src/accel/photon_array.cpp`. The material shader is a function from the photon's direction to
the albedo it reports (`evaluate_mat_only` starts from a black albedo, so it has no memory). `pi` is
the constant `M_PI`; `recip` is the machine's `1.f / x`, of which only the values at `x ≠ 0` are ever specified.
-/

namespace Feign.Photons

variable {K : Type} [Field K] [LinearOrder K]

/-- `struct Photon`, `include/feign/core/accel_photons.h:21-38`. -/
structure Photon (K : Type) where
  pos : V3 K
  dir : V3 K
  power : V3 K

/-- `(pt - photons[i].pos).sqrNorm()`. -/
def sqDist (pt : V3 K) (p : Photon K) : K := (pt - p.pos).sqrNorm

/-- `nearPhoton`, `photon_array.cpp:35-46`. `square_radius` is computed and not used. -/
def nearPhoton (ps : List (Photon K)) (pt : V3 K) (radius : K) : Bool :=
  ps.any fun p => decide (sqDist pt p < radius)

/-- The loop of `eval(…, Float radius)`, `photon_array.cpp:55-70`: `a` is `inv_area`, `thr` is `sqr_radius`. -/
def gather (resp : V3 K → V3 K) (a thr : K) (pt : V3 K) : List (Photon K) → V3 K → V3 K
  | [], nee => nee
  | p :: ps, nee =>
    gather resp a thr pt ps (if sqDist pt p < thr then nee + resp p.dir * p.power.smul a else nee)

/-- `eval(closure, shader, pt, Float radius)`, `photon_array.cpp:48-71`; returns the new `closure.nee`.
`sqr_radius = radius`, as in the code. -/
def evalRadius (recip : K → K) (pi : K) (resp : V3 K → V3 K) (ps : List (Photon K)) (pt : V3 K) (radius : K)
    (nee : V3 K) : V3 K :=
  let sqr_radius := radius
  gather resp (recip (pi * sqr_radius)) sqr_radius pt ps nee

/-- The loop of `maybeAddPhoton`, `photon_array.cpp:88-97`: the carried pair is put before the first larger
one, which is carried on. Returns the list and the pair carried out. -/
def insertPass : List (K × ℕ) → K × ℕ → List (K × ℕ) × (K × ℕ)
  | [], x => ([], x)
  | y :: l, x =>
    if x.1 < y.1 then (x :: (insertPass l y).1, (insertPass l y).2)
    else (y :: (insertPass l x).1, (insertPass l x).2)

/-- `closest_k.size() < k`: the comparison is unsigned, so a negative `k` is larger than every size. -/
def sizeLess (n : ℕ) (k : ℤ) : Prop := k < 0 ∨ (n : ℤ) < k

instance (n : ℕ) (k : ℤ) : Decidable (sizeLess n k) := by unfold sizeLess; infer_instance

/-- `maybeAddPhoton`, `photon_array.cpp:73-103`. -/
def maybeAdd (k : ℤ) (closest : List (K × ℕ)) (x : K × ℕ) : List (K × ℕ) :=
  if closest = [] then [x]
  else if sizeLess closest.length k then (insertPass closest x).1 ++ [(insertPass closest x).2]
  else (insertPass closest x).1

/-- The selection loop of `eval(…, int k_photons)`, `photon_array.cpp:113-118`. -/
def closestK (ps : List (Photon K)) (pt : V3 K) (k : ℤ) : List (K × ℕ) :=
  (ps.zipIdx.map fun p => (sqDist pt p.1, p.2)).foldl (maybeAdd k) []

/-- `closest_k[i]` for an `int` index. -/
def pairAt (l : List (K × ℕ)) (i : ℤ) : Res (K × ℕ) :=
  if i < 0 then .ub "index out of range"
  else match l[i.toNat]? with
    | some x => .ok x
    | none => .ub "index out of range"

/-- The gathering loop of `eval(…, int k_photons)`, `photon_array.cpp:122-146`, over the remaining pairs. The
failed `assert` is a `throw`. -/
def gatherK (resp : V3 K → V3 K) (ps : List (Photon K)) (far a : K) : List (K × ℕ) → V3 K → Res (V3 K)
  | [], nee => .ok nee
  | x :: l, nee =>
    if x.1 > far then .throw "assert"
    else match ps[x.2]? with
      | none => .ub "index out of range"
      | some p => gatherK resp ps far a l (nee + resp p.dir * p.power.smul a)

/-- `eval(closure, shader, pt, int k_photons)`, `photon_array.cpp:108-147`; the loop stops before
`closest_k.size() - 1`. (An empty list never gets there: reading entry `k - 1` is out of range.) -/
def evalK (recip : K → K) (pi : K) (resp : V3 K → V3 K) (ps : List (Photon K)) (pt : V3 K) (k : ℤ)
    (nee : V3 K) : Res (V3 K) := do
  let closest := closestK ps pt k
  let far ← pairAt closest (k - 1)
  gatherK resp ps far.1 (recip (pi * far.1)) (closest.take (closest.length - 1)) nee

end Feign.Photons
