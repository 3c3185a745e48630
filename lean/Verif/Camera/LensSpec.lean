import Verif.Camera.PerspectiveLemmas
import Verif.Image.ShootSpec

/-!
# Specification: light through a lens

What a camera with a lens should see at a film position: the mean, over the points of the lens, of the light arriving
along the line from the point of the lens to the point in focus. The lens is a disk around the eye.
-/

namespace Feign.Camera

open MeasureTheory
open scoped ENNReal

/-- The part of a camera ray that a scene may look at: origin, direction, and the two ends of its range. -/
abbrev Sight := V3 ℝ × V3 ℝ × ℝ × ℝ

/-- The unit disk. -/
def disk : Set (ℝ × ℝ) := {a | a.1 * a.1 + a.2 * a.2 ≤ 1}

/-- Affine map of points, for transforms whose last row is `0 0 0 1`. -/
noncomputable def place3 (t : Xf ℝ) (p : V3 ℝ) : V3 ℝ := t.vec p + ⟨t.mat.n3, t.mat.n7, t.mat.n11⟩

/-- The point of the lens for a point of the unit disk, in camera space. -/
noncomputable def Persp.lensPoint (c : Persp) (a : ℝ × ℝ) : V3 ℝ := ⟨a.1 * c.radius, a.2 * c.radius, 0⟩

/-- The point in focus for a film position, in camera space: seen at that film position and at depth `focal`. -/
noncomputable def Persp.focus (c : Persp) (p : ℝ × ℝ) : V3 ℝ := (c.filmPoint ⟨p.1, p.2⟩).smul c.focal

/-- From a point of the lens towards the point in focus. -/
noncomputable def Persp.lensRay (c : Persp) (t : Xf ℝ) (p a : ℝ × ℝ) : Sight :=
  let v := c.focus p - c.lensPoint a
  (place3 t (c.lensPoint a), t.vec (v.smul (1 / v.norm)), c.near * (c.filmPoint ⟨p.1, p.2⟩).norm,
    c.far * (c.filmPoint ⟨p.1, p.2⟩).norm)

/-- Mean light over the lens for a film position, `π` being the area of the unit disk. -/
noncomputable def Persp.throughLens (c : Persp) (t : Xf ℝ) (light : Sight → ℝ≥0∞) (p : ℝ × ℝ) : ℝ≥0∞ :=
  (∫⁻ a in disk, light (c.lensRay t p a)) / ENNReal.ofReal Real.pi

/-- `ray` is the camera `c`, placed by `t`: it is given the rays of `sampleRay`, and hands them to the scene by
`see`. -/
def Persp.Shows {R : Type} (c : Persp) (t : Xf ℝ) (see : Sight → R) (ray : ℝ × ℝ → ℝ × ℝ → R) : Prop :=
  ∀ p a, ∃ o d n f, c.sampleRay t ⟨p.1, p.2⟩ ⟨a.1, a.2⟩ = some ⟨o, d, Ext.fin n, Ext.fin f⟩ ∧ ray p a = see (o, d, n, f)

end Feign.Camera
