import Verif.Integrators.VolPath
import Verif.Integrators.Spec

/-!
# Specification of radiance in scenes with media

Written without the loop: what happens in each pass, what light is found there, how much of it reaches the camera,
and which passes are reached.
-/

namespace Feign.Integrators.Vol

variable {K M : Type} [Field K] [LinearOrder K]

/-- What happens to a path between two vertices and at the second: it leaves the scene, scatters in a medium, crosses
a null surface or meets a surface with a material. `w` is the weight of the medium it came through, white if there is
none. -/
inductive Event (K M : Type) where
  | escape (env : V3 K)
  | scatter (w : V3 K) (v : MediumVertex K)
  | null (w : V3 K) (b : Option (Boundary K M))
  | surface (w : V3 K) (s : VSurface K)

/-- The event at a hit target. -/
def arrive (w : V3 K) (b : Option (Boundary K M)) : Target K → Event K M
  | .null => .null w b
  | .surface s => .surface w s

/-- The event that follows from the answers of a pass and the medium the path is in. -/
def happens (a : VolAnswer K M) (m : Option M) : Event K M :=
  match a, m with
  | .escape env, _ => .escape env
  | .hit _ b t, none => arrive white b t
  | .hit medium b t, some m =>
    match (medium m).scatter with
    | some v => .scatter (medium m).weight v
    | none => arrive (medium m).weight b t

/-- The medium on the other side of a boundary: the outside medium for a path that leaves (the direction it came from
points into the object), the inside medium for one that enters. -/
def Boundary.beyond (b : Boundary K M) : Option M := if b.cos ≤ 0 then b.outside else b.inside

/-- The medium the path is in before pass `k`. -/
def mediumAt (env : Option M) (ans : ℕ → VolAnswer K M) : ℕ → Option M
  | 0 => env
  | k + 1 =>
    match happens (ans k) (mediumAt env ans k) with
    | .null _ (some b) => Boundary.beyond b
    | _ => mediumAt env ans k

/-- The event of pass `k`. -/
def eventAt (env : Option M) (ans : ℕ → VolAnswer K M) (k : ℕ) : Event K M := happens (ans k) (mediumAt env ans k)

/-! What follows is about a given sequence of events. -/

/-- Was the last vertex before `k` specular? The camera counts as specular; null surfaces are no vertices. -/
def fromSpecular (ev : ℕ → Event K M) : ℕ → Bool
  | 0 => true
  | k + 1 =>
    match ev k with
    | .scatter .. => false
    | .surface _ s => s.delta
    | _ => fromSpecular ev k

/-- Would the emission of a surface at `k` be counted? A scattering point sets this to whether the vertex *before it*
was specular; a specular surface turns it on, another one off, except under the wireframe shader. -/
def looks (ev : ℕ → Event K M) : ℕ → Bool
  | 0 => true
  | k + 1 =>
    match ev k with
    | .scatter .. => fromSpecular ev k
    | .surface _ s =>
      if s.delta then true
      else match s.shader with
        | .simple => false
        | .wireframe => looks ev k
    | _ => looks ev k

/-- Would a non-specular surface at `k` sample the lights? -/
def samples (ev : ℕ → Event K M) : ℕ → Bool
  | 0 => true
  | k + 1 =>
    match ev k with
    | .surface _ s =>
      match s.scatter with
      | .null => false
      | .bsdf .. =>
        if s.delta then samples ev k
        else match s.shader with
          | .simple => true
          | .wireframe => samples ev k
    | _ => samples ev k

/-- Light samples left over from the last scattering point, if no surface with a material came since. -/
def leftover (ev : ℕ → Event K M) : ℕ → List (VRay K)
  | 0 => []
  | k + 1 =>
    match ev k with
    | .scatter _ v => v.rays
    | .surface .. => []
    | _ => leftover ev k

/-- The sampling density in force before `k`. -/
def density (ev : ℕ → Event K M) : ℕ → K
  | 0 => 1
  | k + 1 =>
    match ev k with
    | .surface _ ⟨_, _, _, _, _, .bsdf _ p, _, _⟩ => p
    | _ => density ev k

/-- The cosine of a surface: one for specular materials. -/
def cosine (s : VSurface K) : K := if s.delta then 1 else |s.cos|

/-- Albedo of the sampled direction. -/
def albedo (s : VSurface K) : V3 K :=
  match s.scatter with
  | .bsdf a _ => a
  | .null => white

/-- Weight of the medium on the way to the event. -/
def mediumWeight : Event K M → V3 K
  | .escape _ => white
  | .scatter w _ => w
  | .null w _ => w
  | .surface w _ => w

/-- Part of the light found after vertex `k - 1` that reaches the camera. A scattering point divides by the
probability of going on, a surface multiplies by albedo times cosine over density times that probability. -/
def thr (quot : K → K → K) (ev : ℕ → Event K M) : ℕ → V3 K
  | 0 => white
  | k + 1 =>
    match ev k with
    | .escape _ => thr quot ev k
    | .scatter w _ => divBy quot (thr quot ev k * w) (min (thr quot ev k * w).maxValue 1)
    | .null w _ => thr quot ev k * w
    | .surface w s =>
      thr quot ev k * w *
        divBy quot ((albedo s).smul (cosine s)) (density ev (k + 1) * min (thr quot ev k * w).maxValue 1)

/-- The same including the medium on the way to `k`. -/
def thrAt (quot : K → K → K) (ev : ℕ → Event K M) (k : ℕ) : V3 K := thr quot ev k * mediumWeight (ev k)

/-- Total of the unblocked light samples in a list, each times its factor. -/
def total (f : V3 K → V3 K) (rays : List (VRay K)) : V3 K :=
  (rays.filter (·.valid)).foldr (fun r v => r.throughput * f r.dir + v) 0

/-- The light samples a surface at `k` evaluates: its own if it is not specular and samples lights, otherwise the ones
left over. -/
def raysAt (ev : ℕ → Event K M) (k : ℕ) (s : VSurface K) : List (VRay K) :=
  if s.delta = false ∧ samples ev k = true then s.rays else leftover ev k

/-- Light found at `k`. -/
def light (ev : ℕ → Event K M) (k : ℕ) : V3 K :=
  match ev k with
  | .escape env => env
  | .scatter _ v => total (fun _ => ⟨v.phase v.wi, v.phase v.wi, v.phase v.wi⟩) v.rays
  | .null .. => 0
  | .surface _ s => (if looks ev k then s.emitted else 0) + total s.mat (raysAt ev k s)

/-- The path goes on after `k`. -/
def Survives (quot : K → K → K) (ev : ℕ → Event K M) (k : ℕ) : Prop :=
  match ev k with
  | .escape _ => False
  | .scatter _ v => v.u ≤ min (thrAt quot ev k).maxValue 1
  | .null .. => True
  | .surface _ s => s.u ≤ min (thrAt quot ev k).maxValue 1 ∧ density ev (k + 1) ≠ 0

/-- Number of vertices before `k`: null surfaces do not count. -/
def vertices (ev : ℕ → Event K M) : ℕ → ℕ
  | 0 => 0
  | k + 1 =>
    match ev k with
    | .null .. => vertices ev k
    | _ => vertices ev k + 1

/-- Pass `k` is reached, with a throughput that is not treated as zero and within the bound on the number of
vertices. -/
def Reached (quot : K → K → K) (maxBounces : ℕ) (ev : ℕ → Event K M) (k : ℕ) : Prop :=
  (∀ j < k, Survives quot ev j) ∧ (∀ j ≤ k, ¬ Negligible (thr quot ev j)) ∧ vertices ev k < maxBounces

/-- The path ends in pass `k` or before. -/
def Ends (quot : K → K → K) (maxBounces : ℕ) (ev : ℕ → Event K M) (k : ℕ) : Prop :=
  ¬ (Reached quot maxBounces ev k ∧ Survives quot ev k)

open Classical in
/-- Contribution of pass `k`. -/
noncomputable def contribution (quot : K → K → K) (maxBounces : ℕ) (ev : ℕ → Event K M) (k : ℕ) : V3 K :=
  if Reached quot maxBounces ev k then thrAt quot ev k * light ev k else 0

end Feign.Integrators.Vol
