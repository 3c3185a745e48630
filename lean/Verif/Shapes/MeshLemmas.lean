import Verif.Shapes.Mesh
import Verif.Math.BBoxProps
import Verif.Math.VecRealLemmas
import Mathlib.Algebra.Order.Field.Basic
import Mathlib.Tactic.Linarith
import Mathlib.Tactic.FieldSimp
import Mathlib.Tactic.Ring
import Mathlib.Tactic.LinearCombination

/-! # Helper lemmas for meshes -/

set_option linter.unusedSectionVars false

namespace Feign.Shapes

variable {K : Type} [Field K] [LinearOrder K] [IsStrictOrderedRing K]

/-- `det` of the triangle test. -/
def triDet (p0 p1 p2 d : V3 K) : K := (p1 - p0).dot (d.cross (p2 - p0))

/-- The point with coordinates `u`, `v` in the plane of a triangle. -/
def planePoint (p0 p1 p2 : V3 K) (u v : K) : V3 K := p0 + (p1 - p0).smul u + (p2 - p0).smul v

theorem hitPoint_eq (p0 p1 p2 : V3 K) (u v : K) : hitPoint p0 p1 p2 u v = planePoint p0 p1 p2 u v := by
  ext <;> simp [hitPoint, planePoint] <;> ring

/-- Cramer's rule: with a non-zero determinant, the ray meets the plane exactly at the computed values. -/
theorem cramer (p0 p1 p2 : V3 K) (r : Ray K) (hd : triDet p0 p1 p2 r.dir ≠ 0) (u v t : K) :
    r.point t = planePoint p0 p1 p2 u v ↔
      u = (r.origin - p0).dot (r.dir.cross (p2 - p0)) * (1 / triDet p0 p1 p2 r.dir) ∧
      v = r.dir.dot ((r.origin - p0).cross (p1 - p0)) * (1 / triDet p0 p1 p2 r.dir) ∧
      t = (p2 - p0).dot ((r.origin - p0).cross (p1 - p0)) * (1 / triDet p0 p1 p2 r.dir) := by
  obtain ⟨⟨ox, oy, oz⟩, ⟨dx, dy, dz⟩, nr, fr⟩ := r
  obtain ⟨ax, ay, az⟩ := p0
  obtain ⟨bx, b_y, bz⟩ := p1
  obtain ⟨cx, cy, cz⟩ := p2
  set D := triDet (⟨ax, ay, az⟩ : V3 K) ⟨bx, b_y, bz⟩ ⟨cx, cy, cz⟩ ⟨dx, dy, dz⟩ with hD
  have hD' : D = triDet (⟨ax, ay, az⟩ : V3 K) ⟨bx, b_y, bz⟩ ⟨cx, cy, cz⟩ ⟨dx, dy, dz⟩ := hD
  simp only [triDet, V3.dot, V3.cross, V3.sub_x, V3.sub_y, V3.sub_z] at hD'
  simp only [Ray.point, planePoint, V3.ext_iff, V3.add_x, V3.add_y, V3.add_z, V3.sub_x, V3.sub_y, V3.sub_z,
    V3.smul_x, V3.smul_y, V3.smul_z, V3.dot, V3.cross]
  constructor
  · rintro ⟨h1, h2, h3⟩
    have e1 : ox - ax = (bx - ax) * u + (cx - ax) * v - dx * t := by linear_combination h1
    have e2 : oy - ay = (b_y - ay) * u + (cy - ay) * v - dy * t := by linear_combination h2
    have e3 : oz - az = (bz - az) * u + (cz - az) * v - dz * t := by linear_combination h3
    rw [e1, e2, e3]
    refine ⟨?_, ?_, ?_⟩ <;> rw [mul_one_div, eq_div_iff hd, hD'] <;> ring
  · rintro ⟨hu, hv, ht⟩
    rw [mul_one_div, eq_div_iff hd] at hu hv ht
    refine ⟨?_, ?_, ?_⟩ <;> apply mul_left_cancel₀ hd
    · have : D * (ox + dx * t - (ax + (bx - ax) * u + (cx - ax) * v)) = 0 := by
        have : D * (ox - ax) + dx * (t * D) - (bx - ax) * (u * D) - (cx - ax) * (v * D) = 0 := by
          rw [hu, hv, ht, hD']; ring
        linear_combination this
      linear_combination this
    · have : D * (oy + dy * t - (ay + (b_y - ay) * u + (cy - ay) * v)) = 0 := by
        have : D * (oy - ay) + dy * (t * D) - (b_y - ay) * (u * D) - (cy - ay) * (v * D) = 0 := by
          rw [hu, hv, ht, hD']; ring
        linear_combination this
      linear_combination this
    · have : D * (oz + dz * t - (az + (bz - az) * u + (cz - az) * v)) = 0 := by
        have : D * (oz - az) + dz * (t * D) - (bz - az) * (u * D) - (cz - az) * (v * D) = 0 := by
          rw [hu, hv, ht, hD']; ring
        linear_combination this
      linear_combination this

theorem detEps_pos : (0 : K) < detEps := by unfold detEps; positivity

/-- The triangle test in full: it answers `⟨u, v, t⟩` exactly when the determinant is not tiny, both
coordinates are between 0 and 1, the ray's point at `t` has these coordinates, and `t` is in range. -/
theorem triTest_iff (p0 p1 p2 : V3 K) (r : Ray K) (h : TriHit K) :
    triTest p0 p1 p2 r = some h ↔
      detEps ≤ |triDet p0 p1 p2 r.dir| ∧ 0 ≤ h.u ∧ h.u ≤ 1 ∧ 0 ≤ h.v ∧ h.v ≤ 1 ∧
      r.near ≤ Ext.fin h.t ∧ Ext.fin h.t ≤ r.far ∧ r.point h.t = planePoint p0 p1 p2 h.u h.v := by
  have hdet : (triDet p0 p1 p2 r.dir > -detEps ∧ triDet p0 p1 p2 r.dir < detEps) ↔
      ¬ detEps ≤ |triDet p0 p1 p2 r.dir| := by rw [not_le, abs_lt]
  have key : triTest p0 p1 p2 r =
      if triDet p0 p1 p2 r.dir > -detEps ∧ triDet p0 p1 p2 r.dir < detEps then none else
      if (r.origin - p0).dot (r.dir.cross (p2 - p0)) * (1 / triDet p0 p1 p2 r.dir) < 0 ∨
        (r.origin - p0).dot (r.dir.cross (p2 - p0)) * (1 / triDet p0 p1 p2 r.dir) > 1 then none else
      if r.dir.dot ((r.origin - p0).cross (p1 - p0)) * (1 / triDet p0 p1 p2 r.dir) < 0 ∨
        r.dir.dot ((r.origin - p0).cross (p1 - p0)) * (1 / triDet p0 p1 p2 r.dir) > 1 then none else
      if Ext.fin ((p2 - p0).dot ((r.origin - p0).cross (p1 - p0)) * (1 / triDet p0 p1 p2 r.dir)) ≥ r.near ∧
        Ext.fin ((p2 - p0).dot ((r.origin - p0).cross (p1 - p0)) * (1 / triDet p0 p1 p2 r.dir)) ≤ r.far then
        some ⟨(r.origin - p0).dot (r.dir.cross (p2 - p0)) * (1 / triDet p0 p1 p2 r.dir),
          r.dir.dot ((r.origin - p0).cross (p1 - p0)) * (1 / triDet p0 p1 p2 r.dir),
          (p2 - p0).dot ((r.origin - p0).cross (p1 - p0)) * (1 / triDet p0 p1 p2 r.dir)⟩ else none := rfl
  by_cases hd : detEps ≤ |triDet p0 p1 p2 r.dir|
  swap
  · rw [key, if_pos (hdet.mpr hd)]
    constructor
    · intro h; cases h
    · intro h; exact absurd h.1 hd
  have hd0 : triDet p0 p1 p2 r.dir ≠ 0 := by
    intro h0
    rw [h0, abs_zero] at hd
    exact absurd hd (not_le.mpr detEps_pos)
  rw [key, if_neg (fun hh => hdet.mp hh hd), cramer p0 p1 p2 r hd0]
  generalize (r.origin - p0).dot (r.dir.cross (p2 - p0)) * (1 / triDet p0 p1 p2 r.dir) = U
  generalize r.dir.dot ((r.origin - p0).cross (p1 - p0)) * (1 / triDet p0 p1 p2 r.dir) = V
  generalize (p2 - p0).dot ((r.origin - p0).cross (p1 - p0)) * (1 / triDet p0 p1 p2 r.dir) = W
  constructor
  · intro hh
    split_ifs at hh with h1 h2 h3
    obtain rfl := Option.some.inj hh
    simp only [not_or, not_lt, gt_iff_lt] at h1 h2
    exact ⟨hd, h1.1, h1.2, h2.1, h2.2, h3.1, h3.2, rfl, rfl, rfl⟩
  · rintro ⟨-, hu0, hu1, hv0, hv1, hn, hf, rfl, rfl, rfl⟩
    rw [if_neg (by simp [hu0, hu1]), if_neg (by simp [hv0, hv1]), if_pos ⟨hn, hf⟩]

end Feign.Shapes
