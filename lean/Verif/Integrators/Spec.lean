import Verif.Integrators.Model
import Mathlib.Algebra.BigOperators.Group.Finset.Basic
import Mathlib.Algebra.Order.BigOperators.Group.Finset
import Mathlib.Tactic.Tauto

/-!
# Specification of path-traced radiance

Written without the loop: what each vertex of a path is worth, how much of it reaches the camera, and which
vertices are reached.
-/

namespace Feign

namespace V3
variable {K : Type} [Ring K]

instance : AddCommMonoid (V3 K) where
  add_assoc a b c := V3.ext (add_assoc ..) (add_assoc ..) (add_assoc ..)
  zero_add a := V3.ext (zero_add _) (zero_add _) (zero_add _)
  add_zero a := V3.ext (add_zero _) (add_zero _) (add_zero _)
  add_comm a b := V3.ext (add_comm ..) (add_comm ..) (add_comm ..)
  nsmul := nsmulRec

end V3

namespace Integrators
variable {K : Type} [Field K] [LinearOrder K]

/-- Is the light emitted by vertex `k` looked at? At the first vertex it is. Afterwards a specular vertex turns it
on; a non-specular one turns it off, except under the wireframe shader, which leaves the flag as it was. -/
def looksAt (ans : ℕ → Answer K) : ℕ → Bool
  | 0 => true
  | k + 1 =>
    match ans k with
    | .escape .. => looksAt ans k
    | .surface _ s =>
      if s.delta then true
      else match s.shader with
        | .simple => false
        | .wireframe => looksAt ans k

/-- Would a non-specular vertex `k` sample the lights? It would, unless a null surface was passed since the last
non-specular vertex under the simple shader. -/
def samplesLights (ans : ℕ → Answer K) : ℕ → Bool
  | 0 => true
  | k + 1 =>
    match ans k with
    | .escape .. => samplesLights ans k
    | .surface _ s =>
      match s.scatter with
      | .null => false
      | .bsdf .. =>
        if s.delta then samplesLights ans k
        else match s.shader with
          | .simple => true
          | .wireframe => samplesLights ans k

/-- Total of the unblocked light samples of a vertex. -/
def directLight (s : Surface K) : V3 K :=
  (s.shadowRays.filter (·.valid)).foldr (fun r v => r.throughput * r.albedo + v) 0

/-- Emission counted at vertex `k`. -/
def emissionAt (ans : ℕ → Answer K) (k : ℕ) (s : Surface K) : V3 K :=
  if looksAt ans k then s.emitted else 0

/-- Direct light counted at vertex `k`. -/
def directAt (ans : ℕ → Answer K) (k : ℕ) (s : Surface K) : V3 K :=
  if s.delta = false ∧ samplesLights ans k = true then directLight s else 0

/-- Light found at vertex `k`. -/
def lightAt (ans : ℕ → Answer K) (k : ℕ) : V3 K :=
  match ans k with
  | .escape _ env => env
  | .surface _ s => emissionAt ans k s + directAt ans k s

/-- The sampling density in force before vertex `k` is sampled; a null surface does not set one. -/
def densityBefore (ans : ℕ → Answer K) : ℕ → K
  | 0 => 1
  | k + 1 =>
    match ans k with
    | .surface _ ⟨_, _, _, _, _, .bsdf _ p, _, _⟩ => p
    | _ => densityBefore ans k

/-- The cosine of a vertex: one for specular materials. -/
def cosine (s : Surface K) : K := if s.delta then 1 else |s.cos|

/-- Albedo of the sampled direction. -/
def albedo (s : Surface K) : V3 K :=
  match s.scatter with
  | .bsdf a _ => a
  | .null => white

/-- Part of the light found at vertex `k` that reaches the camera: the product over the earlier vertices of
albedo times cosine over density times probability of going on. -/
def throughput (quot : K → K → K) (ans : ℕ → Answer K) : ℕ → V3 K
  | 0 => white
  | k + 1 =>
    match ans k with
    | .escape .. => throughput quot ans k
    | .surface _ s =>
      throughput quot ans k *
        divBy quot ((albedo s).smul (cosine s))
          (densityBefore ans (k + 1) * min (throughput quot ans k).maxValue 1)

/-- Probability of going on at vertex `k`. -/
def goOn (quot : K → K → K) (ans : ℕ → Answer K) (k : ℕ) : K := min (throughput quot ans k).maxValue 1

/-- The path goes on after vertex `k`: there is a surface, the random number does not end the path and a direction
could be sampled. -/
def Survives (quot : K → K → K) (ans : ℕ → Answer K) (k : ℕ) : Prop :=
  ∃ q s, ans k = .surface q s ∧ s.u ≤ goOn quot ans k ∧ densityBefore ans (k + 1) ≠ 0

/-- A throughput so small that the path is given up: every channel is below a ten-thousandth. -/
def Negligible (v : V3 K) : Prop := |v.x| < 1 / 10000 ∧ |v.y| < 1 / 10000 ∧ |v.z| < 1 / 10000

instance (v : V3 K) : Decidable (Negligible v) := inferInstanceAs (Decidable (_ ∧ _ ∧ _))

/-- Vertex `k` is reached with a throughput that is not negligible. -/
def Reached (quot : K → K → K) (ans : ℕ → Answer K) (k : ℕ) : Prop :=
  (∀ j < k, Survives quot ans j) ∧ ∀ j ≤ k, ¬ Negligible (throughput quot ans j)

open Classical in
/-- Contribution of vertex `k`. -/
noncomputable def contribution (quot : K → K → K) (ans : ℕ → Answer K) (k : ℕ) : V3 K :=
  if Reached quot ans k then throughput quot ans k * lightAt ans k else 0

/-- The vertex is under the simple material shader and its material is not the null material. -/
def Plain (a : Answer K) : Prop := ∀ q s, a = .surface q s → s.shader = .simple ∧ s.scatter ≠ .null

/-- The answer is a specular surface. -/
def IsSpecular (a : Answer K) : Prop := ∃ q s, a = .surface q s ∧ s.delta = true

theorem not_negligible_iff (v : V3 K) : ¬ Negligible v ↔ isZero v = false := by
  simp only [Negligible, isZero, Bool.and_eq_false_iff, decide_eq_false_iff_not]
  tauto

end Integrators
end Feign
