import Verif.Sdf.Cone
import Verif.Sdf.Spec

/-! # Helper lemmas: from the planar formulas to space -/

namespace Feign.Sdf
open Feign.V3

theorem dist_comm (p q : V3 ℝ) : dist p q = dist q p := norm_sub_comm p q
theorem dist_nonneg (p q : V3 ℝ) : 0 ≤ dist p q := norm_nonneg _
theorem dist_self (p : V3 ℝ) : dist p p = 0 := by
  unfold dist; rw [norm_eq_zero]; ext <;> simp
theorem dist_triangle (p q r : V3 ℝ) : dist p r ≤ dist p q + dist q r := norm_sub_le_add p q r

/-- The bounds follow from the Lipschitz condition and the zero set. -/
theorem IsSignedDistance.mk' {S : Set (V3 ℝ)} {f : V3 ℝ → ℝ}
    (inside_iff : ∀ p, f p ≤ 0 ↔ p ∈ S)
    (outside_attained : ∀ p, 0 < f p → ∃ q ∈ S, dist p q = f p)
    (inside_approached : ∀ p, f p ≤ 0 → ∀ e > 0, ∃ q, q ∉ S ∧ dist p q ≤ -f p + e)
    (lip : ∀ p q, f p - f q ≤ dist p q) : IsSignedDistance S f where
  inside_iff := inside_iff
  outside_le := by
    intro p q hq
    have := (inside_iff q).mpr hq
    have := lip p q
    linarith
  outside_attained := outside_attained
  inside_le := by
    intro p q hq
    have h : 0 < f q := by
      by_contra hc
      exact hq ((inside_iff q).mp (not_lt.mp hc))
    have := lip q p
    rw [dist_comm] at this
    linarith
  inside_approached := inside_approached
  lipschitz := by
    intro p q
    have h1 := lip p q
    have h2 := lip q p
    rw [dist_comm] at h2
    exact abs_le.mpr ⟨by linarith, h1⟩

/-- A unit vector across a given one. -/
theorem exists_perp_unit (b : V3 ℝ) : ∃ e : V3 ℝ, e.sqrNorm = 1 ∧ e.dot b = 0 := by
  by_cases h : b.x = 0 ∧ b.y = 0
  · exact ⟨⟨1, 0, 0⟩, by simp [sqrNorm], by simp [dot, h.1]⟩
  · have hv : (⟨-b.y, b.x, 0⟩ : V3 ℝ) ≠ 0 := by
      intro e
      have e1 := congrArg V3.x e
      have e2 := congrArg V3.y e
      simp at e1 e2
      exact h ⟨e2, e1⟩
    obtain ⟨u, hu, h1, h2⟩ := normalized_spec _ hv
    refine ⟨u, h1, ?_⟩
    have hn := norm_pos _ hv
    have e : (u.smul (V3.norm ⟨-b.y, b.x, 0⟩)).dot b = u.dot b * V3.norm ⟨-b.y, b.x, 0⟩ := by
      simp only [dot, smul_x, smul_y, smul_z]; ring
    rw [h2] at e
    have e3 : (⟨-b.y, b.x, 0⟩ : V3 ℝ).dot b = 0 := by simp only [dot]; ring
    rw [e3] at e
    rcases mul_eq_zero.mp e.symm with h | h
    · exact h
    · exact absurd h hn.ne'

/-- Radius and height parameter of a point about the axis from `a` to `b`. -/
noncomputable def rad (a b p : V3 ℝ) : ℝ := (perp (b - a) (p - a)).norm
noncomputable def hgt (a b p : V3 ℝ) : ℝ := (p - a).dot (b - a) / (b - a).dot (b - a)
/-- Length of the axis. -/
noncomputable def len (a b : V3 ℝ) : ℝ := (b - a).norm

theorem len_sq (a b : V3 ℝ) : len a b * len a b = (b - a).dot (b - a) := norm_sq _

theorem axis_ne {a b : V3 ℝ} (h : a ≠ b) : (b - a).dot (b - a) ≠ 0 := by
  rw [dot_self]
  intro e
  apply h
  have := (sqrNorm_eq_zero _).mp e
  have hx := congrArg V3.x this
  have hy := congrArg V3.y this
  have hz := congrArg V3.z this
  simp at hx hy hz
  ext <;> linarith

theorem len_pos {a b : V3 ℝ} (h : a ≠ b) : 0 < len a b := by
  apply norm_pos
  intro e
  apply axis_ne h
  rw [e]; simp [dot]

theorem rad_nonneg (a b p : V3 ℝ) : 0 ≤ rad a b p := norm_nonneg _

/-- Coordinates never exaggerate distances. -/
theorem coords_dist {a b : V3 ℝ} (h : a ≠ b) (p q : V3 ℝ) :
    Real.sqrt ((rad a b p - rad a b q) * (rad a b p - rad a b q) +
      (hgt a b p - hgt a b q) * (hgt a b p - hgt a b q) * (len a b * len a b)) ≤ dist p q := by
  have := coords_le (b - a) (p - a) (q - a) (axis_ne h)
  have e : p - a - (q - a) = p - q := by ext <;> simp
  rw [e] at this
  unfold dist
  rw [norm_eq]
  apply Real.sqrt_le_sqrt
  rw [len_sq]
  unfold rad hgt
  nlinarith

/-- There is a point with given coordinates at exactly the planar distance. -/
theorem exists_coords {a b : V3 ℝ} (h : a ≠ b) (p : V3 ℝ) (x t : ℝ) (hx : 0 ≤ x) :
    ∃ q, rad a b q = x ∧ hgt a b q = t ∧ dist p q =
      Real.sqrt ((rad a b p - x) * (rad a b p - x) +
        (hgt a b p - t) * (hgt a b p - t) * (len a b * len a b)) := by
  have hb := axis_ne h
  set ba := b - a with hba
  set w := perp ba (p - a) with hw
  have hwb : w.dot ba = 0 := perp_dot _ _ hb
  -- unit direction across the axis, with `w = e * |w|`
  obtain ⟨e, he1, heb, hew⟩ : ∃ e : V3 ℝ, e.sqrNorm = 1 ∧ e.dot ba = 0 ∧ w = e.smul w.norm := by
    by_cases h0 : w = 0
    · obtain ⟨e, h1, h2⟩ := exists_perp_unit ba
      refine ⟨e, h1, h2, ?_⟩
      have : w.norm = 0 := (norm_eq_zero w).mpr h0
      rw [this, h0]
      ext <;> simp
    · obtain ⟨u, -, h1, h2⟩ := normalized_spec w h0
      refine ⟨u, h1, ?_, h2.symm⟩
      have e3 : (u.smul w.norm).dot ba = u.dot ba * w.norm := by
        simp only [dot, smul_x, smul_y, smul_z]; ring
      rw [h2, hwb] at e3
      rcases mul_eq_zero.mp e3.symm with h | h
      · exact h
      · exact absurd h (norm_pos w h0).ne'
  have hpa : p - a = ba.smul (hgt a b p) + e.smul w.norm := by
    rw [← hew, hw]; unfold perp hgt
    rw [← hba]
    ext <;> simp
  have hq : a + ba.smul t + e.smul x - a = ba.smul t + e.smul x := by
    ext <;> simp only [sub_x, sub_y, sub_z, add_x, add_y, add_z, smul_x, smul_y, smul_z] <;> ring
  have hgq : hgt a b (a + ba.smul t + e.smul x) = t := by
    unfold hgt
    rw [← hba, hq, div_eq_iff hb]
    have : (ba.smul t + e.smul x).dot ba = t * ba.dot ba + x * e.dot ba := by
      simp only [dot, add_x, add_y, add_z, smul_x, smul_y, smul_z]; ring
    rw [this, heb]; ring
  refine ⟨a + ba.smul t + e.smul x, ?_, hgq, ?_⟩
  · unfold rad perp
    unfold hgt at hgq
    rw [← hba] at hgq ⊢
    rw [hgq, hq]
    have : ba.smul t + e.smul x - ba.smul t = e.smul x := by ext <;> simp
    rw [this, norm_smul', abs_of_nonneg hx]
    have : e.norm = 1 := by rw [norm_eq, he1, Real.sqrt_one]
    rw [this, one_mul]
  · unfold dist
    rw [norm_eq, len_sq]
    congr 1
    have e1 : p - (a + ba.smul t + e.smul x) =
        ba.smul (hgt a b p - t) + e.smul (w.norm - x) := by
      have hx := congrArg V3.x hpa
      have hy := congrArg V3.y hpa
      have hz := congrArg V3.z hpa
      simp only [sub_x, sub_y, sub_z, add_x, add_y, add_z, smul_x, smul_y, smul_z] at hx hy hz
      ext <;> simp only [sub_x, sub_y, sub_z, add_x, add_y, add_z, smul_x, smul_y, smul_z] <;> linarith
    rw [e1]
    have e2 : (ba.smul (hgt a b p - t) + e.smul (w.norm - x)).sqrNorm =
        (hgt a b p - t) * (hgt a b p - t) * ba.dot ba + (w.norm - x) * (w.norm - x) * e.sqrNorm +
          2 * (hgt a b p - t) * (w.norm - x) * e.dot ba := by
      simp only [sqrNorm, dot, add_x, add_y, add_z, smul_x, smul_y, smul_z]; ring
    rw [e2, heb, he1]
    unfold rad
    rw [← hba, ← hw]
    ring

/-- Membership in a frustum by coordinates. -/
theorem mem_frustum {a b : V3 ℝ} (h : a ≠ b) (ra rb : ℝ) (q : V3 ℝ) :
    q ∈ frustum a b ra rb ↔
      0 ≤ hgt a b q ∧ hgt a b q ≤ 1 ∧ rad a b q ≤ ra + hgt a b q * (rb - ra) := by
  have hb := axis_ne h
  constructor
  · rintro ⟨t, w, h0, h1, hw, hn, rfl⟩
    have hq : a + (b - a).smul t + w - a = (b - a).smul t + w := by
      ext <;> simp only [sub_x, sub_y, sub_z, add_x, add_y, add_z, smul_x, smul_y, smul_z] <;> ring
    have hg : hgt a b (a + (b - a).smul t + w) = t := by
      unfold hgt
      rw [hq, div_eq_iff hb]
      have : ((b - a).smul t + w).dot (b - a) = t * (b - a).dot (b - a) + w.dot (b - a) := by
        simp only [dot, add_x, add_y, add_z, smul_x, smul_y, smul_z]; ring
      rw [this, hw]; ring
    have hr : rad a b (a + (b - a).smul t + w) = w.norm := by
      unfold rad perp
      unfold hgt at hg
      rw [hg, hq]
      congr 1
      ext <;> simp
    rw [hg, hr]
    exact ⟨h0, h1, hn⟩
  · rintro ⟨h0, h1, hn⟩
    refine ⟨hgt a b q, perp (b - a) (q - a), h0, h1, perp_dot _ _ hb, hn, ?_⟩
    unfold perp hgt
    ext <;> simp

theorem cylinderSet_eq (a b : V3 ℝ) (r : ℝ) : cylinderSet a b r = frustum a b r r := by
  unfold cylinderSet frustum
  simp

/-- A planar signed distance gives one in space. -/
theorem Supported.space {ra rb : ℝ} {a b : V3 ℝ} {f : ℝ → ℝ → ℝ} (h : a ≠ b)
    (hf : Supported ra rb (len a b) f) :
    IsSignedDistance (frustum a b ra rb) (fun p => f (rad a b p) (hgt a b p)) := by
  have hL := len_pos h
  apply IsSignedDistance.mk'
  · intro p
    rw [mem_frustum h]
    exact hf.nonpos_iff hL _ _ (rad_nonneg a b p)
  · intro p hp
    obtain ⟨cx, ct, hcx, h0, h1, hc, e⟩ := hf.nearest _ _ (rad_nonneg a b p) hp
    obtain ⟨q, hqr, hqh, hd⟩ := exists_coords h p cx ct hcx
    refine ⟨q, ?_, by rw [hd]; exact e.symm⟩
    rw [mem_frustum h, hqr, hqh]
    exact ⟨h0, h1, hc⟩
  · intro p hp e he
    obtain ⟨x', t', hx', hpos, hd⟩ := hf.escape hL _ _ (rad_nonneg a b p) hp e he
    obtain ⟨q, hqr, hqh, hdq⟩ := exists_coords h p x' t' hx'
    refine ⟨q, ?_, by rw [hdq, hd]⟩
    rw [mem_frustum h, hqr, hqh, ← hf.nonpos_iff hL _ _ hx']
    exact not_le.mpr hpos
  · intro p q
    exact (hf.lipschitz _ _ _ _ (rad_nonneg a b p) (rad_nonneg a b q)).trans (coords_dist h p q)

/-- The argument of the cone's first square root is a squared length. -/
theorem cone_radicand_nonneg (a b p : V3 ℝ) (h : a ≠ b) :
    0 ≤ (p - a).dot (p - a) - (p - a).dot (b - a) / (b - a).dot (b - a) *
      ((p - a).dot (b - a) / (b - a).dot (b - a)) * (b - a).dot (b - a) := by
  rw [← perp_sqrNorm _ _ (axis_ne h)]
  exact sqrNorm_nonneg _

theorem coneEval_eq {a b : V3 ℝ} (h : a ≠ b) (ra rb : ℝ) (p : V3 ℝ) :
    coneEval a b ra rb p = some (cone2 ra rb (len a b) (rad a b p) (hgt a b p)) := by
  have hb := axis_ne h
  have hr : Real.sqrt ((p - a).dot (p - a) - (p - a).dot (b - a) / (b - a).dot (b - a) *
      ((p - a).dot (b - a) / (b - a).dot (b - a)) * (b - a).dot (b - a)) = rad a b p := by
    rw [← perp_sqrNorm _ _ hb]; rfl
  unfold coneEval cone2
  dsimp only
  rw [if_neg hb, hr, len_sq]
  rfl

theorem cylinderEval_eq {a b : V3 ℝ} (h : a ≠ b) (r : ℝ) (p : V3 ℝ) :
    cylinderEval a b r p = some (cyl2 r (len a b) (rad a b p) (hgt a b p)) := by
  have hb := axis_ne h
  have hL := len_pos h
  have hBL := len_sq a b
  have hBpos : 0 < (b - a).dot (b - a) := by rw [← hBL]; positivity
  -- the scaled coordinates
  have hx : ((p - a).smul ((b - a).dot (b - a)) - (b - a).smul ((p - a).dot (b - a))).norm =
      rad a b p * (b - a).dot (b - a) := by
    have : (p - a).smul ((b - a).dot (b - a)) - (b - a).smul ((p - a).dot (b - a)) =
        (perp (b - a) (p - a)).smul ((b - a).dot (b - a)) := by
      unfold perp
      ext <;> simp only [sub_x, sub_y, sub_z, smul_x, smul_y, smul_z] <;> field_simp
    rw [this, norm_smul', abs_of_pos hBpos]
    rfl
  have hpaba : (p - a).dot (b - a) = hgt a b p * (b - a).dot (b - a) := by
    unfold hgt; rw [div_mul_cancel₀ _ hb]
  unfold cylinderEval
  dsimp only
  rw [if_neg hb, hx]
  generalize rad a b p = x
  rw [hpaba]
  generalize hgt a b p = t
  rw [← hBL]
  rw [← hBL] at hBpos
  generalize len a b = L at *
  clear hBL hb hx hpaba
  have e1 : x * (L * L) - r * (L * L) = (x - r) * (L * L) := by ring
  have e2 : |t * (L * L) - L * L * (1 / 2)| - L * L * (1 / 2) = (|t - 1 / 2| - 1 / 2) * (L * L) := by
    have : t * (L * L) - L * L * (1 / 2) = (t - 1 / 2) * (L * L) := by ring
    rw [this, abs_mul, abs_of_pos hBpos]; ring
  rw [e1, e2]
  unfold cyl2
  -- both sides in terms of `X` and `Y`
  set X := x - r with hX
  set Y := L * (|t - 1 / 2| - 1 / 2) with hY
  have e3 : (|t - 1 / 2| - 1 / 2) * (L * L) = Y * L := by rw [hY]; ring
  rw [e3]
  have e4 : Y * L * (Y * L) * (L * L) = (Y * (L * L)) * (Y * (L * L)) := by ring
  rw [e4]
  have hneg : max (X * (L * L)) (Y * L) < 0 ↔ max X Y < 0 := by
    have hn : ∀ c : ℝ, 0 < c → ∀ y : ℝ, y * c < 0 ↔ y < 0 := by
      intro c hc y
      constructor
      · intro h
        by_contra hy
        exact absurd h (not_lt.mpr (mul_nonneg (not_lt.mp hy) hc.le))
      · intro h; exact mul_neg_of_neg_of_pos h hc
    rw [max_lt_iff, max_lt_iff, hn _ hBpos, hn _ hL]
  have hXp : X * (L * L) > 0 ↔ X > 0 := by
    constructor
    · intro h; exact pos_of_mul_pos_left h hBpos.le
    · intro h; exact mul_pos h hBpos
  have hYp : Y * L > 0 ↔ Y > 0 := by
    constructor
    · intro h; exact pos_of_mul_pos_left h hL.le
    · intro h; exact mul_pos h hL
  congr 1
  by_cases hm : max X Y < 0
  · rw [if_pos (hneg.mpr hm)]
    unfold box2
    rw [if_pos hm]
    obtain ⟨h1, h2⟩ := max_lt_iff.mp hm
    set m := max X Y with hmdef
    have hmin : min (X * (L * L) * (X * (L * L))) (Y * (L * L) * (Y * (L * L))) =
        (-m * (L * L)) * (-m * (L * L)) := by
      rcases le_total X Y with hle | hle
      · have : m = Y := max_eq_right hle
        rw [min_eq_right, this]
        · ring
        · nlinarith [mul_nonneg (sub_nonneg.mpr hle) hBpos.le, mul_pos_of_neg_of_neg h1 h2,
            mul_pos hBpos hBpos, mul_nonneg (mul_nonneg (sub_nonneg.mpr hle)
              (show 0 ≤ -(X + Y) by linarith)) (mul_pos hBpos hBpos).le]
      · have : m = X := max_eq_left hle
        rw [min_eq_left, this]
        · ring
        · nlinarith [mul_nonneg (mul_nonneg (sub_nonneg.mpr hle)
              (show 0 ≤ -(X + Y) by linarith)) (mul_pos hBpos hBpos).le]
    have hmpos : 0 < -m * (L * L) := mul_pos (by linarith) hBpos
    rw [hmin]
    unfold sign
    rw [if_pos (by nlinarith [mul_pos hmpos hmpos]), abs_neg, abs_of_pos (mul_pos hmpos hmpos),
      Real.sqrt_mul_self hmpos.le]
    field_simp
  · rw [if_neg (fun h => hm (hneg.mp h))]
    unfold box2
    rw [if_neg hm]
    simp only [hXp, hYp]
    have hd : (if X > 0 then X * (L * L) * (X * (L * L)) else 0) +
        (if Y > 0 then Y * (L * L) * (Y * (L * L)) else 0) =
        ((if X > 0 then X * X else 0) + (if Y > 0 then Y * Y else 0)) * ((L * L) * (L * L)) := by
      split_ifs <;> ring
    rw [hd]
    have hs0 : 0 ≤ (if X > 0 then X * X else 0) + (if Y > 0 then Y * Y else 0) := by
      rw [← pos_part_mul, ← pos_part_mul]
      nlinarith [mul_self_nonneg (max X 0), mul_self_nonneg (max Y 0)]
    unfold sign
    have hp0 := mul_nonneg hs0 (mul_pos hBpos hBpos).le
    rw [if_neg (not_lt.mpr hp0), abs_of_nonneg hp0, Real.sqrt_mul hs0,
      Real.sqrt_mul_self hBpos.le]
    field_simp

end Feign.Sdf
