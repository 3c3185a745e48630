import Verif.Sdf.Model

/-!
# Specification of distance shapes

The solids as sets of points, and what it means to be the signed distance to a solid. Independent of the
formulas of the model.
-/

namespace Feign.Sdf

/-- Euclidean distance. -/
noncomputable def dist (p q : V3 ℝ) : ℝ := (p - q).norm

/-- Ball. -/
def ball (c : V3 ℝ) (r : ℝ) : Set (V3 ℝ) := {q | dist q c ≤ r}
/-- Plane through `c` across `n`. -/
def planeSet (c n : V3 ℝ) : Set (V3 ℝ) := {q | (q - c).dot n = 0}
/-- Axis-aligned box. -/
def boxSet (lo hi : V3 ℝ) : Set (V3 ℝ) := {q | lo.le q ∧ q.le hi}
/-- Solid cone frustum with axis from `a` to `b` and radius varying linearly from `ra` to `rb`. -/
def frustum (a b : V3 ℝ) (ra rb : ℝ) : Set (V3 ℝ) :=
  {q | ∃ (t : ℝ) (w : V3 ℝ), 0 ≤ t ∧ t ≤ 1 ∧ w.dot (b - a) = 0 ∧ w.norm ≤ ra + t * (rb - ra) ∧
    q = a + (b - a).smul t + w}
/-- Solid cylinder. -/
def cylinderSet (a b : V3 ℝ) (r : ℝ) : Set (V3 ℝ) :=
  {q | ∃ (t : ℝ) (w : V3 ℝ), 0 ≤ t ∧ t ≤ 1 ∧ w.dot (b - a) = 0 ∧ w.norm ≤ r ∧
    q = a + (b - a).smul t + w}

/-- The solid a primitive stands for. -/
def Shape.solid : Shape → Set (V3 ℝ)
  | .sphere c r => ball c r
  | .plane c n => planeSet c n
  | .box t b => boxSet b t
  | .cylinder a b r => cylinderSet a b r
  | .cone a b r s => frustum a b r s

/-- `f` is the signed Euclidean distance to the surface of `S`: not positive exactly on `S`; outside, the
distance to `S`; inside, minus the distance to the complement; and changing at most as fast as the
point moves. -/
structure IsSignedDistance (S : Set (V3 ℝ)) (f : V3 ℝ → ℝ) : Prop where
  inside_iff : ∀ p, f p ≤ 0 ↔ p ∈ S
  outside_le : ∀ p, ∀ q ∈ S, f p ≤ dist p q
  outside_attained : ∀ p, 0 < f p → ∃ q ∈ S, dist p q = f p
  inside_le : ∀ p, ∀ q, q ∉ S → -f p ≤ dist p q
  inside_approached : ∀ p, f p ≤ 0 → ∀ e > 0, ∃ q, q ∉ S ∧ dist p q ≤ -f p + e
  lipschitz : ∀ p q, |f p - f q| ≤ dist p q

end Feign.Sdf
