import Verif.Sdf.ShapeLemmas
import Mathlib.Tactic.NormNum

/-!
# Properties of the distance primitives (C28, C29)
-/

set_option linter.unusedSectionVars false

namespace Feign.Sdf
open Feign.V3

/-! ## C28: each primitive reports the signed distance to its solid -/

/-- Spheres. -/
theorem sphere_signed_distance (c : V3 ℝ) (r : ℝ) (hr : 0 ≤ r) :
    IsSignedDistance (ball c r) (sphereEval c r) := by
  -- a point at distance `d` from the centre on the ray through `p`
  have reach : ∀ p, ∀ d, 0 ≤ d → ∃ q, dist q c = d ∧ dist p q = |dist p c - d| := by
    intro p d hd
    obtain ⟨u, hu, hp⟩ : ∃ u : V3 ℝ, u.sqrNorm = 1 ∧ p - c = u.smul (dist p c) := by
      by_cases h : p - c = 0
      · refine ⟨⟨1, 0, 0⟩, by simp [sqrNorm], ?_⟩
        have : dist p c = 0 := (norm_eq_zero _).mpr h
        rw [this, h]; ext <;> simp
      · obtain ⟨u, -, h1, h2⟩ := normalized_spec _ h
        exact ⟨u, h1, h2.symm⟩
    have hun : u.norm = 1 := by rw [norm_eq, hu, Real.sqrt_one]
    refine ⟨c + u.smul d, ?_, ?_⟩
    · unfold dist
      have : c + u.smul d - c = u.smul d := by ext <;> simp
      rw [this, norm_smul', hun, one_mul, abs_of_nonneg hd]
    · have : p - (c + u.smul d) = u.smul (dist p c - d) := by
        have hx := congrArg V3.x hp
        have hy := congrArg V3.y hp
        have hz := congrArg V3.z hp
        simp only [sub_x, sub_y, sub_z, smul_x, smul_y, smul_z] at hx hy hz
        ext <;> simp only [sub_x, sub_y, sub_z, add_x, add_y, add_z, smul_x, smul_y, smul_z] <;> linarith
      unfold dist at this ⊢
      rw [this, norm_smul', hun, one_mul]
  have hev : ∀ p, sphereEval c r p = dist p c - r := fun _ => rfl
  apply IsSignedDistance.mk'
  · intro p
    rw [hev]
    exact sub_nonpos
  · intro p hp
    rw [hev] at hp ⊢
    obtain ⟨q, h1, h2⟩ := reach p r hr
    exact ⟨q, h1.le, by rw [h2, abs_of_pos hp]⟩
  · intro p hp e he
    rw [hev] at hp ⊢
    obtain ⟨q, h1, h2⟩ := reach p (r + e) (by linarith)
    refine ⟨q, ?_, ?_⟩
    · intro hq
      have : dist q c ≤ r := hq
      linarith
    · rw [h2, abs_of_neg (by linarith)]
      linarith
  · intro p q
    rw [hev, hev]
    have := dist_triangle p q c
    linarith

example : sphereEval ⟨0, 0, 0⟩ 1 ⟨0, 3, 4⟩ = 4 := by
  have : (⟨0, 3, 4⟩ - ⟨0, 0, 0⟩ : V3 ℝ).norm = 5 := by
    unfold V3.norm
    rw [show ((⟨0, 3, 4⟩ - ⟨0, 0, 0⟩ : V3 ℝ).x * (⟨0, 3, 4⟩ - ⟨0, 0, 0⟩ : V3 ℝ).x +
      (⟨0, 3, 4⟩ - ⟨0, 0, 0⟩ : V3 ℝ).y * (⟨0, 3, 4⟩ - ⟨0, 0, 0⟩ : V3 ℝ).y +
      (⟨0, 3, 4⟩ - ⟨0, 0, 0⟩ : V3 ℝ).z * (⟨0, 3, 4⟩ - ⟨0, 0, 0⟩ : V3 ℝ).z) = 5 * 5 by
        simp only [sub_x, sub_y, sub_z]; norm_num]
    exact Real.sqrt_mul_self (by norm_num)
  unfold sphereEval
  rw [this]; norm_num

/-- Planes with a unit normal. -/
theorem plane_signed_distance (c n : V3 ℝ) (hn : n.sqrNorm = 1) :
    IsSignedDistance (planeSet c n) (planeEval c n) := by
  have hnorm : n.norm = 1 := by rw [norm_eq, hn, Real.sqrt_one]
  have hev : ∀ p, planeEval c n p = |(p - c).dot n| := fun _ => rfl
  -- moving along the normal
  have move : ∀ p s, (p - n.smul s - c).dot n = (p - c).dot n - s := by
    intro p s
    have : (p - n.smul s - c).dot n = (p - c).dot n - s * n.sqrNorm := by
      simp only [dot, sqrNorm, sub_x, sub_y, sub_z, smul_x, smul_y, smul_z]; ring
    rw [this, hn, mul_one]
  have far : ∀ p s, dist p (p - n.smul s) = |s| := by
    intro p s
    unfold dist
    have : p - (p - n.smul s) = n.smul s := by ext <;> simp
    rw [this, norm_smul', hnorm, one_mul]
  apply IsSignedDistance.mk'
  · intro p
    rw [hev]
    constructor
    · intro h; exact abs_eq_zero.mp (le_antisymm h (abs_nonneg _))
    · intro h
      have : (p - c).dot n = 0 := h
      rw [this, abs_zero]
  · intro p _
    refine ⟨p - n.smul ((p - c).dot n), ?_, far _ _⟩
    show (p - n.smul ((p - c).dot n) - c).dot n = 0
    rw [move, sub_self]
  · intro p hp e he
    rw [hev] at hp
    have h0 : (p - c).dot n = 0 := abs_eq_zero.mp (le_antisymm hp (abs_nonneg _))
    refine ⟨p - n.smul e, ?_, ?_⟩
    · intro h
      have : (p - n.smul e - c).dot n = 0 := h
      rw [move, h0] at this
      linarith
    · rw [far, hev, h0, abs_of_pos he]; simp
  · intro p q
    rw [hev, hev]
    have h1 : (p - c).dot n - (q - c).dot n = (p - q).dot n := by
      simp only [dot, sub_x, sub_y, sub_z]; ring
    have h2 := abs_dot_le (p - q) n
    rw [hnorm, mul_one] at h2
    have h3 := abs_sub_abs_le_abs_sub ((p - c).dot n) ((q - c).dot n)
    rw [h1] at h3
    exact h3.trans h2

example : (⟨0, 0, 1⟩ : V3 ℝ).sqrNorm = 1 := by simp [sqrNorm]

/-- With a normal that is not of unit length a plane over-estimates the distance. -/
theorem plane_signed_distance_refuted : ∃ (c n p : V3 ℝ), ∃ q ∈ planeSet c n,
    dist p q < planeEval c n p := by
  refine ⟨⟨0, 0, 0⟩, ⟨0, 0, 2⟩, ⟨0, 0, 1⟩, ⟨0, 0, 0⟩, ?_, ?_⟩
  · simp [planeSet, dot]
  · simp [planeEval, dist, dot, V3.norm]

/-- Boxes whose first corner is the upper one. -/
theorem box_signed_distance (tlc brc : V3 ℝ) (h : brc.le tlc) :
    IsSignedDistance (boxSet brc tlc) (boxEval tlc brc) := by
  obtain ⟨hx, hy, hz⟩ := h
  -- the three coordinates of `q`
  set Q : V3 ℝ → V3 ℝ := fun p =>
    ⟨|p.x - (tlc.x + brc.x) / 2| - (tlc.x - brc.x) / 2, |p.y - (tlc.y + brc.y) / 2| - (tlc.y - brc.y) / 2,
     |p.z - (tlc.z + brc.z) / 2| - (tlc.z - brc.z) / 2⟩ with hQ
  have hev : ∀ p, boxEval tlc brc p = boxFormula (Q p) := fun _ => rfl
  have ax : ∀ p lo hi : ℝ, |p - (hi + lo) / 2| - (hi - lo) / 2 ≤ 0 ↔ lo ≤ p ∧ p ≤ hi := by
    intro p lo hi
    rw [sub_nonpos, abs_le]
    constructor <;> rintro ⟨h1, h2⟩ <;> constructor <;> linarith
  have hin : ∀ p, boxEval tlc brc p ≤ 0 ↔ p ∈ boxSet brc tlc := by
    intro p
    rw [hev, box3_nonpos]
    show _ ↔ brc.le p ∧ p.le tlc
    simp only [hQ, ax]
    unfold V3.le
    tauto
  -- a signed copy of a coordinate direction
  have sgn : ∀ p m : ℝ, ∃ s : ℝ, s * s = 1 ∧ ∀ d, 0 ≤ d → |p + s * d - m| = |p - m| + d := by
    intro p m
    rcases le_total m p with hle | hle
    · refine ⟨1, by norm_num, fun d hd => ?_⟩
      rw [abs_of_nonneg (by linarith), abs_of_nonneg (by linarith)]; ring
    · refine ⟨-1, by norm_num, fun d hd => ?_⟩
      rw [abs_of_nonpos (by linarith), abs_of_nonpos (by linarith)]; ring
  -- clamping one coordinate
  have clp : ∀ p lo hi : ℝ, lo ≤ hi → ∃ q, lo ≤ q ∧ q ≤ hi ∧
      (p - q) * (p - q) = max (|p - (hi + lo) / 2| - (hi - lo) / 2) 0 *
        max (|p - (hi + lo) / 2| - (hi - lo) / 2) 0 := by
    intro p lo hi hle
    rcases lt_or_ge p lo with h1 | h1
    · refine ⟨lo, le_rfl, hle, ?_⟩
      rw [abs_of_nonpos (by linarith), max_eq_left (by linarith)]; ring
    · rcases lt_or_ge hi p with h2 | h2
      · refine ⟨hi, hle, le_rfl, ?_⟩
        rw [abs_of_nonneg (by linarith), max_eq_left (by linarith)]; ring
      · refine ⟨p, h1, h2, ?_⟩
        rw [max_eq_right ((ax p lo hi).mpr ⟨h1, h2⟩)]; ring
  apply IsSignedDistance.mk' hin
  · intro p hp
    obtain ⟨qx, x1, x2, ex⟩ := clp p.x brc.x tlc.x hx
    obtain ⟨qy, y1, y2, ey⟩ := clp p.y brc.y tlc.y hy
    obtain ⟨qz, z1, z2, ez⟩ := clp p.z brc.z tlc.z hz
    refine ⟨⟨qx, qy, qz⟩, ⟨⟨x1, y1, z1⟩, x2, y2, z2⟩, ?_⟩
    rw [hev] at hp ⊢
    have hm : ¬ max (Q p).x (max (Q p).y (Q p).z) < 0 := by
      intro hc
      rw [box3_neg _ hc] at hp
      linarith
    rw [box3_pos _ hm]
    unfold dist V3.norm
    simp only [sub_x, sub_y, sub_z]
    rw [ex, ey, ez]
  · intro p hp e he
    obtain ⟨u, v, w, hu, hv, hw, h1, ha⟩ := box3_attain (Q p)
    obtain ⟨sx, hsx, mx⟩ := sgn p.x ((tlc.x + brc.x) / 2)
    obtain ⟨sy, hsy, my⟩ := sgn p.y ((tlc.y + brc.y) / 2)
    obtain ⟨sz, hsz, mz⟩ := sgn p.z ((tlc.z + brc.z) / 2)
    have hd : 0 ≤ -boxEval tlc brc p + e := by linarith
    set d := -boxEval tlc brc p + e with hdd
    refine ⟨⟨p.x + sx * (d * u), p.y + sy * (d * v), p.z + sz * (d * w)⟩, ?_, ?_⟩
    · rw [← hin, not_le, hev]
      have hb := box3_upper (Q ⟨p.x + sx * (d * u), p.y + sy * (d * v), p.z + sz * (d * w)⟩)
        u v w hu hv hw h1
      have ex := mx (d * u) (mul_nonneg hd hu)
      have ey := my (d * v) (mul_nonneg hd hv)
      have ez := mz (d * w) (mul_nonneg hd hw)
      simp only [hQ] at hb ha
      rw [ex, ey, ez] at hb
      rw [hev] at hdd
      have hQp : boxFormula (Q p) = -d + e := by linarith
      simp only [hQ] at hQp
      rw [hQp] at ha
      have : -d + e + d * (u * u + v * v + w * w) ≤ boxFormula (Q ⟨p.x + sx * (d * u),
          p.y + sy * (d * v), p.z + sz * (d * w)⟩) := by
        simp only [hQ]
        rw [ex, ey, ez]
        rw [ha]
        linarith
      rw [h1] at this
      linarith
    · apply norm_le_of_sq hd
      simp only [sqrNorm, sub_x, sub_y, sub_z]
      have e1 : (p.x - (p.x + sx * (d * u))) * (p.x - (p.x + sx * (d * u))) +
          (p.y - (p.y + sy * (d * v))) * (p.y - (p.y + sy * (d * v))) +
          (p.z - (p.z + sz * (d * w))) * (p.z - (p.z + sz * (d * w))) =
          d * d * ((sx * sx) * (u * u) + (sy * sy) * (v * v) + (sz * sz) * (w * w)) := by ring
      rw [e1, hsx, hsy, hsz, one_mul, one_mul, one_mul, h1, mul_one]
  · intro p q
    obtain ⟨u, v, w, hu, hv, hw, h1, ha⟩ := box3_attain (Q p)
    have hb := box3_upper (Q q) u v w hu hv hw h1
    rw [hev, hev, ha]
    have lx : ∀ m a b : ℝ, |a - m| - |b - m| ≤ |a - b| := by
      intro m a b
      have := abs_sub_abs_le_abs_sub (a - m) (b - m)
      rwa [sub_sub_sub_cancel_right] at this
    have cx := mul_le_mul_of_nonneg_left (lx ((tlc.x + brc.x) / 2) p.x q.x) hu
    have cy := mul_le_mul_of_nonneg_left (lx ((tlc.y + brc.y) / 2) p.y q.y) hv
    have cz := mul_le_mul_of_nonneg_left (lx ((tlc.z + brc.z) / 2) p.z q.z) hw
    have hcs := cs3 u v w |p.x - q.x| |p.y - q.y| |p.z - q.z| h1
    rw [abs_mul_abs_self, abs_mul_abs_self, abs_mul_abs_self] at hcs
    have hd : dist p q = Real.sqrt ((p.x - q.x) * (p.x - q.x) + (p.y - q.y) * (p.y - q.y) +
      (p.z - q.z) * (p.z - q.z)) := rfl
    rw [hd]
    refine le_trans ?_ hcs
    simp only [hQ] at hb ⊢
    linarith

example : (⟨-1, -1, -1⟩ : V3 ℝ).le ⟨1, 2, 3⟩ := ⟨by norm_num, by norm_num, by norm_num⟩

/-- In the other orientation, which is the one the bounding box needs, the reported distance is positive
everywhere, so the box is invisible. -/
theorem box_orientation_refuted (tlc brc : V3 ℝ) (h : tlc.x < brc.x) (p : V3 ℝ) :
    0 < boxEval tlc brc p := by
  by_contra hc
  rw [not_lt] at hc
  have := ((box3_nonpos _).mp hc).1
  simp only [sub_x] at this
  have h0 := abs_nonneg (p.x - (tlc.x + brc.x) / 2)
  linarith

/-- Cylinders with distinct end points. -/
theorem cylinder_signed_distance (a b : V3 ℝ) (r : ℝ) (hab : a ≠ b) (hr : 0 ≤ r) :
    ∃ f : V3 ℝ → ℝ, (∀ p, cylinderEval a b r p = some (f p)) ∧
      IsSignedDistance (cylinderSet a b r) f := by
  refine ⟨_, cylinderEval_eq hab r, ?_⟩
  rw [cylinderSet_eq]
  exact (cyl2_supported r (len a b) hr (len_pos hab)).space hab

example : (⟨0, 0, 0⟩ : V3 ℝ) ≠ ⟨0, 1, 0⟩ := by
  intro h; have := congrArg V3.y h; norm_num at this

/-- Cones (frusta) with distinct end points. -/
theorem cone_signed_distance (a b : V3 ℝ) (ra rb : ℝ) (hab : a ≠ b) (hra : 0 ≤ ra) (hrb : 0 ≤ rb) :
    ∃ f : V3 ℝ → ℝ, (∀ p, coneEval a b ra rb p = some (f p)) ∧
      IsSignedDistance (frustum a b ra rb) f :=
  ⟨_, coneEval_eq hab ra rb, (cone2_supported ra rb (len a b) (len_pos hab) hra hrb).space hab⟩

/-- A cylinder or cone whose end points coincide has no distance anywhere. -/
theorem degenerate_axis (a : V3 ℝ) (r s : ℝ) (p : V3 ℝ) :
    cylinderEval a a r p = none ∧ coneEval a a r s p = none := by
  have h : (a - a).dot (a - a) = 0 := by simp [dot]
  constructor
  · unfold cylinderEval; dsimp only; rw [if_pos h]
  · unfold coneEval; dsimp only; rw [if_pos h]

/-- The arguments for which the primitives are signed distances. -/
def Shape.WellFormed : Shape → Prop
  | .sphere _ r => 0 ≤ r
  | .plane _ n => n.sqrNorm = 1
  | .box t b => b.le t
  | .cylinder a b r => a ≠ b ∧ 0 ≤ r
  | .cone a b r s => a ≠ b ∧ 0 ≤ r ∧ 0 ≤ s

/-- C28: every well-formed primitive reports the signed distance to its solid. -/
theorem primitives_exact (s : Shape) (h : s.WellFormed) :
    ∃ f : V3 ℝ → ℝ, (∀ p, s.eval p = some (f p)) ∧ IsSignedDistance s.solid f := by
  cases s with
  | sphere c r => exact ⟨_, fun _ => rfl, sphere_signed_distance c r h⟩
  | plane c n => exact ⟨_, fun _ => rfl, plane_signed_distance c n h⟩
  | box t b => exact ⟨_, fun _ => rfl, box_signed_distance t b h⟩
  | cylinder a b r => exact cylinder_signed_distance a b r h.1 h.2
  | cone a b r s => exact cone_signed_distance a b r s h.1 h.2.1 h.2.2

example : (Shape.cone ⟨0, 0, 0⟩ ⟨0, 2, 0⟩ 1 0).WellFormed := by
  refine ⟨?_, by norm_num, by norm_num⟩
  intro h; have := congrArg V3.y h; norm_num at this

/-! ## C29: bounding boxes -/

/-- The full property: the reported box contains every point at distance at most zero. -/
def BoxContains (s : Shape) : Prop :=
  ∃ b, s.boundingBox = some b ∧ ∀ p d, s.eval p = some d → d ≤ 0 → b.containsB p

theorem abs_comp_le (v : V3 ℝ) : |v.x| ≤ v.norm ∧ |v.y| ≤ v.norm ∧ |v.z| ≤ v.norm := by
  have hn := norm_sq v
  have h0 := norm_nonneg v
  unfold sqrNorm at hn
  refine ⟨?_, ?_, ?_⟩ <;> apply abs_le_of_sq_le_sq _ h0 <;>
    nlinarith [mul_self_nonneg v.x, mul_self_nonneg v.y, mul_self_nonneg v.z]

theorem sphere_box_eq (c : V3 ℝ) (r : ℝ) (hr : 0 ≤ r) : Shape.boundingBox (.sphere c r) =
    some ⟨⟨c.x - r, c.y - r, c.z - r⟩, ⟨c.x - r, c.y - r, c.z - r⟩ + ⟨2 * r, 2 * r, 2 * r⟩⟩ := by
  show (if 2 * r ≥ 0 then _ else none) = _
  rw [if_pos (by linarith)]

theorem sphere_box_neg (c : V3 ℝ) (r : ℝ) (hr : r < 0) : Shape.boundingBox (.sphere c r) = none := by
  show (if 2 * r ≥ 0 then _ else none) = _
  rw [if_neg (by linarith)]

/-- C29 for spheres, exactly when the radius is not negative (otherwise the box aborts). -/
theorem sphere_box_contains_partial (c : V3 ℝ) (r : ℝ) : BoxContains (.sphere c r) ↔ 0 ≤ r := by
  constructor
  · rintro ⟨b, hb, -⟩
    by_contra hc
    rw [sphere_box_neg c r (by linarith)] at hb
    cases hb
  · intro hr
    refine ⟨⟨⟨c.x - r, c.y - r, c.z - r⟩, ⟨c.x - r, c.y - r, c.z - r⟩ + ⟨2 * r, 2 * r, 2 * r⟩⟩, ?_, ?_⟩
    · exact sphere_box_eq c r hr
    · intro p d hd h0
      have e : (p - c).norm - r = d := Option.some.inj hd
      obtain ⟨hx, hy, hz⟩ := abs_comp_le (p - c)
      have hle : (p - c).norm ≤ r := by linarith
      obtain ⟨x1, x2⟩ := abs_le.mp (hx.trans hle)
      obtain ⟨y1, y2⟩ := abs_le.mp (hy.trans hle)
      obtain ⟨z1, z2⟩ := abs_le.mp (hz.trans hle)
      simp only [sub_x, sub_y, sub_z] at x1 x2 y1 y2 z1 z2
      refine ⟨⟨?_, ?_, ?_⟩, ?_, ?_, ?_⟩ <;> simp only [add_x, add_y, add_z] <;> linarith

/-- The sphere's box touches the sphere on every side: nothing smaller contains it. -/
theorem sphere_box_tight (c : V3 ℝ) (r : ℝ) (hr : 0 ≤ r) (d : B3 ℝ)
    (hd : ∀ p ∈ ball c r, d.containsB p) :
    ∃ b, Shape.boundingBox (.sphere c r) = some b ∧ d.min.le b.min ∧ b.max.le d.max := by
  refine ⟨_, sphere_box_eq c r hr, ?_⟩
  have hb : ∀ v : V3 ℝ, v.sqrNorm = 1 → ∀ s, |s| = r → d.containsB (c + v.smul s) := by
    intro v hv s hs
    apply hd
    show ((c + v.smul s) - c).norm ≤ r
    have : c + v.smul s - c = v.smul s := by ext <;> simp
    rw [this, norm_smul', norm_eq, hv, Real.sqrt_one, one_mul, hs]
  have x1 := hb ⟨1, 0, 0⟩ (by simp [sqrNorm]) r (abs_of_nonneg hr)
  have x2 := hb ⟨1, 0, 0⟩ (by simp [sqrNorm]) (-r) (by rw [abs_neg, abs_of_nonneg hr])
  have y1 := hb ⟨0, 1, 0⟩ (by simp [sqrNorm]) r (abs_of_nonneg hr)
  have y2 := hb ⟨0, 1, 0⟩ (by simp [sqrNorm]) (-r) (by rw [abs_neg, abs_of_nonneg hr])
  have z1 := hb ⟨0, 0, 1⟩ (by simp [sqrNorm]) r (abs_of_nonneg hr)
  have z2 := hb ⟨0, 0, 1⟩ (by simp [sqrNorm]) (-r) (by rw [abs_neg, abs_of_nonneg hr])
  obtain ⟨-, x1, -, -⟩ := x1
  obtain ⟨⟨x2, -, -⟩, -⟩ := x2
  obtain ⟨-, -, y1, -⟩ := y1
  obtain ⟨⟨-, y2, -⟩, -⟩ := y2
  obtain ⟨-, -, -, z1⟩ := z1
  obtain ⟨⟨-, -, z2⟩, -⟩ := z2
  simp only [add_x, add_y, add_z, smul_x, smul_y, smul_z] at x1 x2 y1 y2 z1 z2
  refine ⟨⟨?_, ?_, ?_⟩, ?_, ?_, ?_⟩ <;> simp only [add_x, add_y, add_z] <;> linarith

/-- No plane lies in the box reported for it. -/
theorem plane_box_refuted (c n : V3 ℝ) : ¬ BoxContains (.plane c n) := by
  rintro ⟨b, hb, h⟩
  cases hb
  obtain ⟨e, he, hen⟩ := exists_perp_unit n
  -- a point of the plane 10000 away
  have hev : Shape.eval (.plane c n) (c + e.smul 10000) = some 0 := by
    show some (planeEval c n (c + e.smul 10000)) = some 0
    unfold planeEval
    have : (c + e.smul 10000 - c).dot n = 10000 * e.dot n := by
      simp only [dot, add_x, add_y, add_z, sub_x, sub_y, sub_z, smul_x, smul_y, smul_z]; ring
    rw [this, hen]; simp
  obtain ⟨⟨x1, y1, z1⟩, x2, y2, z2⟩ := h _ 0 hev le_rfl
  simp only [add_x, add_y, add_z, sub_x, sub_y, sub_z, smul_x, smul_y, smul_z] at x1 y1 z1 x2 y2 z2
  unfold sqrNorm at he
  have hx : e.x * e.x ≤ 1 / 4 := by
    have : |e.x| ≤ 1 / 2 := abs_le.mpr ⟨by linarith, by linarith⟩
    nlinarith [abs_mul_abs_self e.x, abs_nonneg e.x]
  have hy : e.y * e.y ≤ 1 / 4 := by
    have : |e.y| ≤ 1 / 2 := abs_le.mpr ⟨by linarith, by linarith⟩
    nlinarith [abs_mul_abs_self e.y, abs_nonneg e.y]
  have hz : e.z * e.z ≤ 1 / 4 := by
    have : |e.z| ≤ 1 / 2 := abs_le.mpr ⟨by linarith, by linarith⟩
    nlinarith [abs_mul_abs_self e.z, abs_nonneg e.z]
  linarith

/-- A box primitive with a visible solid lies in the box reported for it only if it is a single point. -/
theorem box_box_refuted (tlc brc : V3 ℝ) (hvis : ∃ p, boxEval tlc brc p ≤ 0)
    (h : BoxContains (.box tlc brc)) : tlc = brc := by
  obtain ⟨p, hp⟩ := hvis
  obtain ⟨b, hb, hc⟩ := h
  cases hb
  have hle : brc.le tlc := by
    obtain ⟨h1, h2, h3⟩ := (box3_nonpos _).mp hp
    simp only [sub_x, sub_y, sub_z] at h1 h2 h3
    have a1 := abs_nonneg (p.x - (tlc.x + brc.x) / 2)
    have a2 := abs_nonneg (p.y - (tlc.y + brc.y) / 2)
    have a3 := abs_nonneg (p.z - (tlc.z + brc.z) / 2)
    exact ⟨by linarith, by linarith, by linarith⟩
  have hin := (box_signed_distance tlc brc hle).inside_iff
  have hbrc : boxEval tlc brc brc ≤ 0 :=
    (hin brc).mpr ⟨⟨le_rfl, le_rfl, le_rfl⟩, hle⟩
  obtain ⟨⟨x, y, z⟩, -⟩ := hc brc _ rfl hbrc
  obtain ⟨x', y', z'⟩ := hle
  exact V3.ext (le_antisymm x x') (le_antisymm y y') (le_antisymm z z')

example : ∃ p, boxEval (⟨1, 1, 1⟩ : V3 ℝ) ⟨-1, -1, -1⟩ p ≤ 0 :=
  ⟨⟨0, 0, 0⟩, ((box_signed_distance ⟨1, 1, 1⟩ ⟨-1, -1, -1⟩
    ⟨by norm_num, by norm_num, by norm_num⟩).inside_iff _).mpr
    ⟨⟨by norm_num, by norm_num, by norm_num⟩, by norm_num, by norm_num, by norm_num⟩⟩

/-- No cylinder of positive radius lies in the box reported for it: its first end point is outside. -/
theorem cylinder_box_refuted (a b : V3 ℝ) (r : ℝ) (hab : a ≠ b) (hr : 0 < r) :
    ¬ BoxContains (.cylinder a b r) := by
  rintro ⟨bb, hb, h⟩
  cases hb
  obtain ⟨f, hf, hs⟩ := cylinder_signed_distance a b r hab hr.le
  have ha : f a ≤ 0 := by
    rw [hs.inside_iff]
    exact ⟨0, 0, le_rfl, zero_le_one, by simp [dot], by simp [V3.norm, hr.le], by ext <;> simp⟩
  obtain ⟨⟨x, -, -⟩, -⟩ := h a _ (hf a) ha
  simp only [add_x] at x
  linarith

/-- No cone with a positive radius lies in the box reported for it. -/
theorem cone_box_refuted (a b : V3 ℝ) (ra rb : ℝ) (hab : a ≠ b) (hra : 0 ≤ ra) (hrb : 0 ≤ rb)
    (hpos : 0 < ra ∨ 0 < rb) : ¬ BoxContains (.cone a b ra rb) := by
  rintro ⟨bb, hb, h⟩
  cases hb
  obtain ⟨f, hf, hs⟩ := cone_signed_distance a b ra rb hab hra hrb
  have ha : f a ≤ 0 := by
    rw [hs.inside_iff]
    exact ⟨0, 0, le_rfl, zero_le_one, by simp [dot], by simp [V3.norm, hra], by ext <;> simp⟩
  obtain ⟨⟨x, -, -⟩, -⟩ := h a _ (hf a) ha
  simp only [add_x] at x
  have : 0 < max ra rb := by
    rcases hpos with h | h
    · exact h.trans_le (le_max_left _ _)
    · exact h.trans_le (le_max_right _ _)
  linarith

end Feign.Sdf
