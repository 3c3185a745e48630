import Verif.Math.Vec
import Verif.Basic

/-!
# Photon tracing (model)

`PhotonMapping::scatter_photons`, `src/integrators/photon.cpp:52-175`. The scene, the shaders and the sampler are
arbitrary answers, one per path and bounce. Photon powers may become not-a-number, which is followed exactly;
infinities do not occur here as `x / 0` with `x ≠ 0` is not reached (a zero denominator is a zero channel, and
then the numerator is a multiple of it, or a zero survival probability, and then the power is zero).
-/

namespace Feign.Photons

variable {K : Type} [Field K] [LinearOrder K]

/-- A float that is a number or not-a-number (`none`). -/
abbrev Flt (K : Type) := Option K

/-- `a * x` for a number `x`. -/
def Flt.mulNum (a : Flt K) (x : K) : Flt K := a.map (· * x)

/-- `a / b`; a zero denominator gives not-a-number (see the header for `x / 0` with `x ≠ 0`). -/
def Flt.div : Flt K → Flt K → Flt K
  | some x, some y => if y = 0 then none else some (x / y)
  | _, _ => none

/-- `a > b`: false if either is not a number. -/
def Flt.gt : Flt K → Flt K → Bool
  | some x, some y => decide (x > y)
  | _, _ => false

/-- `maxValue()`, `include/feign/math/vector.h:725-733`. -/
def maxValueF (v : V3 (Flt K)) : Flt K :=
  let m := if Flt.gt v.y v.x then v.y else v.x
  if Flt.gt v.z m then v.z else m

/-- `std::min(a, ONE)`: `(ONE < a) ? ONE : a`. -/
def minOne (a : Flt K) : Flt K := if Flt.gt a (some 1) then some 1 else a

/-- `photon.cpp:133-135`: `power *= albedo * cosTerm / pdf`. -/
def scalePower (p : V3 (Flt K)) (f : V3 K) : V3 (Flt K) :=
  ⟨Flt.mulNum p.x f.x, Flt.mulNum p.y f.y, Flt.mulNum p.z f.z⟩

/-- component-wise `/`. -/
def divPower (p q : V3 (Flt K)) : V3 (Flt K) := ⟨Flt.div p.x q.x, Flt.div p.y q.y, Flt.div p.z q.z⟩

/-- `power / c`. -/
def divPowerS (p : V3 (Flt K)) (c : Flt K) : V3 (Flt K) := ⟨Flt.div p.x c, Flt.div p.y c, Flt.div p.z c⟩

/-- A stored photon. -/
structure Stored (K : Type) where
  pos : V3 K
  dir : V3 K
  power : V3 (Flt K)
  deriving DecidableEq

/-- What happens at one bounce: nothing is hit, or a surface with the shader's answers (`evaluate_for_photon` and
`sample`), the absolute cosine and the random number of the roulette. -/
inductive Bounce (K : Type) where
  | miss
  | hit (pos dir : V3 K) (specular : Bool) (albedo : V3 K) (cos pdf u : K)

/-- A path: the power divided by the emitter's probabilities (`photon.cpp:78-83`) and the bounces. -/
structure Path (K : Type) where
  power : V3 (Flt K)
  bounce : ℕ → Bounce K

/-- `photons[created_photons++] = …`, `photon.cpp:115`, into an array of `cap` photons. -/
def store (cap : ℕ) (buf : List (Stored K)) (p : Stored K) : Res (List (Stored K)) :=
  if buf.length < cap then .ok (buf ++ [p]) else .ub "photon array overrun"

/-- The cosine used: 1 for specular surfaces, `photon.cpp:131-135`. -/
def cosTerm (specular : Bool) (cos : K) : K := if specular then 1 else cos

/-- The power after a bounce and its survival probability, `photon.cpp:137-145`. -/
def nextPower (p : V3 (Flt K)) (specular : Bool) (albedo : V3 K) (cos pdf : K) : V3 (Flt K) × Flt K :=
  let p' := scalePower p ⟨albedo.x * cosTerm specular cos / pdf, albedo.y * cosTerm specular cos / pdf,
    albedo.z * cosTerm specular cos / pdf⟩
  (p', minOne (maxValueF (divPower p' p)))

/-- The bounce loop, `photon.cpp:93-149`, with the number of bounces left. -/
def trace (cap : ℕ) (bs : ℕ → Bounce K) : ℕ → ℕ → V3 (Flt K) → List (Stored K) → Res (List (Stored K))
  | 0, _, _, buf => .ok buf
  | n + 1, i, pw, buf =>
    match bs i with
    | .miss => .ok buf
    | .hit pos dir specular albedo cos pdf u => do
      let buf ← if specular then pure buf else store cap buf ⟨pos, dir, pw⟩
      if pdf = 0 then pure buf
      else
        let (pw', rr) := nextPower pw specular albedo cos pdf
        if Flt.gt (some u) rr then pure buf
        else trace cap bs n (i + 1) (divPowerS pw' rr) buf

/-- The outer loop, `photon.cpp:67-150`, from path `j` on, at most `fuel` paths; `none` means still running.
The array has `cap` entries; the code allocates `num`. -/
def scatter (cap num maxBounces : ℕ) (paths : ℕ → Path K) : ℕ → ℕ → List (Stored K) →
    Option (Res (List (Stored K)))
  | 0, _, buf => if buf.length < num then none else some (.ok buf)
  | fuel + 1, j, buf =>
    if buf.length < num then
      match trace cap (paths j).bounce maxBounces 0 (paths j).power buf with
      | .ok buf => scatter cap num maxBounces paths fuel (j + 1) buf
      | .throw m => some (.throw m)
      | .ub w => some (.ub w)
    else some (.ok buf)

/-- The final division, `photon.cpp:152-156`. -/
def finish (num : ℕ) (buf : List (Stored K)) : List (Stored K) :=
  buf.map fun p => { p with power := divPowerS p.power (some (num : K)) }

/-- `scatter_photons`, `photon.cpp:52-175`: the list handed to `build`. -/
def scatterPhotons (num maxBounces : ℕ) (paths : ℕ → Path K) (fuel : ℕ) : Option (Res (List (Stored K))) :=
  (scatter num num maxBounces paths fuel 0 []).map fun r => r >>= fun buf => pure (finish num buf)

end Feign.Photons
