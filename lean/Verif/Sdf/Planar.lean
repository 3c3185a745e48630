import Verif.Sdf.Geom
import Mathlib.Tactic.Linarith
import Mathlib.Tactic.FieldSimp

/-! # Helper lemmas: the planar formulas behind the box, the cylinder and the cone

Each formula is the supremum, over unit normals, of the signed distance to a supporting half plane. -/

namespace Feign.Sdf
open Feign.V3

/-! ## The box formula in two dimensions -/

noncomputable def box2 (X Y : ℝ) : ℝ :=
  if max X Y < 0 then max X Y
  else Real.sqrt ((if X > 0 then X * X else 0) + (if Y > 0 then Y * Y else 0))

theorem pos_part_mul (X : ℝ) : max X 0 * max X 0 = if X > 0 then X * X else 0 := by
  split_ifs with h
  · rw [max_eq_left h.le]
  · rw [max_eq_right (not_lt.mp h), mul_zero]

theorem box2_eq (X Y : ℝ) (h : ¬ max X Y < 0) :
    box2 X Y = Real.sqrt (max X 0 * max X 0 + max Y 0 * max Y 0) := by
  unfold box2; rw [if_neg h, pos_part_mul, pos_part_mul]

theorem one_le_add2 (u w : ℝ) (hu : 0 ≤ u) (hw : 0 ≤ w) (h : u * u + w * w = 1) : 1 ≤ u + w := by
  nlinarith [mul_nonneg hu hw]

theorem box2_upper (X Y u w : ℝ) (hu : 0 ≤ u) (hw : 0 ≤ w) (h : u * u + w * w = 1) :
    u * X + w * Y ≤ box2 X Y := by
  by_cases hm : max X Y < 0
  · have e : box2 X Y = max X Y := by unfold box2; rw [if_pos hm]
    rw [e]
    have h1 := one_le_add2 u w hu hw h
    have hX := le_max_left X Y
    have hY := le_max_right X Y
    nlinarith [mul_le_mul_of_nonneg_left hX hu, mul_le_mul_of_nonneg_left hY hw]
  · rw [box2_eq X Y hm]
    have := cs2 u w (max X 0) (max Y 0) h
    have hX := mul_le_mul_of_nonneg_left (le_max_left X 0) hu
    have hY := mul_le_mul_of_nonneg_left (le_max_left Y 0) hw
    linarith

theorem max_zero_mul (X : ℝ) : max X 0 * X = max X 0 * max X 0 := by
  rcases le_total X 0 with h | h
  · rw [max_eq_right h]; ring
  · rw [max_eq_left h]

theorem box2_attain (X Y : ℝ) :
    ∃ u w, 0 ≤ u ∧ 0 ≤ w ∧ u * u + w * w = 1 ∧ box2 X Y = u * X + w * Y := by
  by_cases hm : max X Y < 0
  · have e : box2 X Y = max X Y := by unfold box2; rw [if_pos hm]
    rw [e]
    rcases le_total X Y with h | h
    · exact ⟨0, 1, le_rfl, zero_le_one, by norm_num, by rw [max_eq_right h]; ring⟩
    · exact ⟨1, 0, zero_le_one, le_rfl, by norm_num, by rw [max_eq_left h]; ring⟩
  · rw [box2_eq X Y hm]
    set a := max X 0 with ha
    set b := max Y 0 with hb
    have ha0 : 0 ≤ a := le_max_right _ _
    have hb0 : 0 ≤ b := le_max_right _ _
    have hD0 : 0 ≤ a * a + b * b := by positivity
    have hDD := Real.mul_self_sqrt hD0
    set D := Real.sqrt (a * a + b * b) with hD
    have hDn : 0 ≤ D := Real.sqrt_nonneg _
    by_cases hz : D = 0
    · rw [hz] at hDD
      have ha' : a = 0 := by nlinarith
      have hb' : b = 0 := by nlinarith
      have hX : X ≤ 0 := by rw [ha] at ha'; exact (max_eq_right_iff).mp ha'
      have hY : Y ≤ 0 := by rw [hb] at hb'; exact (max_eq_right_iff).mp hb'
      rw [not_lt, le_max_iff] at hm
      rcases hm with h | h
      · exact ⟨1, 0, zero_le_one, le_rfl, by norm_num, by rw [hz]; linarith⟩
      · exact ⟨0, 1, le_rfl, zero_le_one, by norm_num, by rw [hz]; linarith⟩
    · have hpos : 0 < D := lt_of_le_of_ne hDn (Ne.symm hz)
      refine ⟨a / D, b / D, div_nonneg ha0 hDn, div_nonneg hb0 hDn, ?_, ?_⟩
      · field_simp; linarith
      · have e1 : a * X = a * a := max_zero_mul X
        have e2 : b * Y = b * b := max_zero_mul Y
        field_simp
        linarith

theorem box2_nonpos (X Y : ℝ) : box2 X Y ≤ 0 ↔ X ≤ 0 ∧ Y ≤ 0 := by
  constructor
  · intro h
    have h1 := box2_upper X Y 1 0 zero_le_one le_rfl (by norm_num)
    have h2 := box2_upper X Y 0 1 le_rfl zero_le_one (by norm_num)
    constructor <;> linarith
  · rintro ⟨hX, hY⟩
    obtain ⟨u, w, hu, hw, -, e⟩ := box2_attain X Y
    rw [e]; nlinarith

theorem box2_pos (X Y : ℝ) (h : 0 ≤ box2 X Y) :
    box2 X Y = Real.sqrt (max X 0 * max X 0 + max Y 0 * max Y 0) := by
  apply box2_eq
  intro hm
  have e : box2 X Y = max X Y := by unfold box2; rw [if_pos hm]
  linarith

/-! ## The box formula in three dimensions -/

theorem maxS_norm (q : V3 ℝ) : (q.maxS 0).norm =
    Real.sqrt (max q.x 0 * max q.x 0 + max q.y 0 * max q.y 0 + max q.z 0 * max q.z 0) := by
  have e : ∀ a : ℝ, (if a > 0 then a else 0) = max a 0 := by
    intro a
    split_ifs with h
    · rw [max_eq_left h.le]
    · rw [max_eq_right (not_lt.mp h)]
  unfold V3.norm V3.maxS
  simp only [e]

theorem box3_neg (q : V3 ℝ) (h : max q.x (max q.y q.z) < 0) :
    boxFormula q = max q.x (max q.y q.z) := by
  unfold boxFormula
  have hx := (le_max_left q.x (max q.y q.z)).trans_lt h
  have hyz := (le_max_right q.x (max q.y q.z)).trans_lt h
  have hy := (le_max_left q.y q.z).trans_lt hyz
  have hz := (le_max_right q.y q.z).trans_lt hyz
  rw [maxS_norm, max_eq_right hx.le, max_eq_right hy.le, max_eq_right hz.le, min_eq_left h.le]
  simp

theorem box3_pos (q : V3 ℝ) (h : ¬ max q.x (max q.y q.z) < 0) :
    boxFormula q =
      Real.sqrt (max q.x 0 * max q.x 0 + max q.y 0 * max q.y 0 + max q.z 0 * max q.z 0) := by
  unfold boxFormula
  rw [maxS_norm, min_eq_right (not_lt.mp h), add_zero]

theorem box3_upper (q : V3 ℝ) (u v w : ℝ) (hu : 0 ≤ u) (hv : 0 ≤ v) (hw : 0 ≤ w)
    (h : u * u + v * v + w * w = 1) : u * q.x + v * q.y + w * q.z ≤ boxFormula q := by
  by_cases hm : max q.x (max q.y q.z) < 0
  · rw [box3_neg q hm]
    have h1 : 1 ≤ u + v + w := by
      nlinarith [mul_nonneg hu hv, mul_nonneg hv hw, mul_nonneg hu hw]
    have hx := le_max_left q.x (max q.y q.z)
    have hy := (le_max_left q.y q.z).trans (le_max_right q.x (max q.y q.z))
    have hz := (le_max_right q.y q.z).trans (le_max_right q.x (max q.y q.z))
    set m := max q.x (max q.y q.z)
    nlinarith [mul_le_mul_of_nonneg_left hx hu, mul_le_mul_of_nonneg_left hy hv,
      mul_le_mul_of_nonneg_left hz hw]
  · rw [box3_pos q hm]
    have := cs3 u v w (max q.x 0) (max q.y 0) (max q.z 0) h
    have hx := mul_le_mul_of_nonneg_left (le_max_left q.x 0) hu
    have hy := mul_le_mul_of_nonneg_left (le_max_left q.y 0) hv
    have hz := mul_le_mul_of_nonneg_left (le_max_left q.z 0) hw
    linarith

theorem box3_attain (q : V3 ℝ) : ∃ u v w, 0 ≤ u ∧ 0 ≤ v ∧ 0 ≤ w ∧ u * u + v * v + w * w = 1 ∧
    boxFormula q = u * q.x + v * q.y + w * q.z := by
  by_cases hm : max q.x (max q.y q.z) < 0
  · rw [box3_neg q hm]
    rcases max_choice q.x (max q.y q.z) with h | h
    · exact ⟨1, 0, 0, zero_le_one, le_rfl, le_rfl, by norm_num, by rw [h]; ring⟩
    · rcases max_choice q.y q.z with h' | h'
      · exact ⟨0, 1, 0, le_rfl, zero_le_one, le_rfl, by norm_num, by rw [h, h']; ring⟩
      · exact ⟨0, 0, 1, le_rfl, le_rfl, zero_le_one, by norm_num, by rw [h, h']; ring⟩
  · rw [box3_pos q hm]
    set a := max q.x 0 with ha
    set b := max q.y 0 with hb
    set c := max q.z 0 with hc
    have ha0 : 0 ≤ a := le_max_right _ _
    have hb0 : 0 ≤ b := le_max_right _ _
    have hc0 : 0 ≤ c := le_max_right _ _
    have hD0 : 0 ≤ a * a + b * b + c * c := by positivity
    have hDD := Real.mul_self_sqrt hD0
    set D := Real.sqrt (a * a + b * b + c * c) with hD
    have hDn : 0 ≤ D := Real.sqrt_nonneg _
    by_cases hz : D = 0
    · rw [hz] at hDD
      have ha' : a = 0 := by nlinarith [mul_self_nonneg b, mul_self_nonneg c]
      have hb' : b = 0 := by nlinarith [mul_self_nonneg a, mul_self_nonneg c]
      have hc' : c = 0 := by nlinarith [mul_self_nonneg b, mul_self_nonneg a]
      have hX : q.x ≤ 0 := by rw [ha] at ha'; exact (max_eq_right_iff).mp ha'
      have hY : q.y ≤ 0 := by rw [hb] at hb'; exact (max_eq_right_iff).mp hb'
      have hZ : q.z ≤ 0 := by rw [hc] at hc'; exact (max_eq_right_iff).mp hc'
      rw [not_lt, le_max_iff, le_max_iff] at hm
      rcases hm with h | h | h
      · exact ⟨1, 0, 0, zero_le_one, le_rfl, le_rfl, by norm_num, by rw [hz]; linarith⟩
      · exact ⟨0, 1, 0, le_rfl, zero_le_one, le_rfl, by norm_num, by rw [hz]; linarith⟩
      · exact ⟨0, 0, 1, le_rfl, le_rfl, zero_le_one, by norm_num, by rw [hz]; linarith⟩
    · have hpos : 0 < D := lt_of_le_of_ne hDn (Ne.symm hz)
      refine ⟨a / D, b / D, c / D, div_nonneg ha0 hDn, div_nonneg hb0 hDn, div_nonneg hc0 hDn, ?_, ?_⟩
      · field_simp; linarith
      · have e1 : a * q.x = a * a := max_zero_mul q.x
        have e2 : b * q.y = b * b := max_zero_mul q.y
        have e3 : c * q.z = c * c := max_zero_mul q.z
        field_simp
        linarith

theorem box3_nonpos (q : V3 ℝ) : boxFormula q ≤ 0 ↔ q.x ≤ 0 ∧ q.y ≤ 0 ∧ q.z ≤ 0 := by
  constructor
  · intro h
    have h1 := box3_upper q 1 0 0 zero_le_one le_rfl le_rfl (by norm_num)
    have h2 := box3_upper q 0 1 0 le_rfl zero_le_one le_rfl (by norm_num)
    have h3 := box3_upper q 0 0 1 le_rfl le_rfl zero_le_one (by norm_num)
    refine ⟨?_, ?_, ?_⟩ <;> linarith
  · rintro ⟨hX, hY, hZ⟩
    obtain ⟨u, v, w, hu, hv, hw, -, e⟩ := box3_attain q
    rw [e]; nlinarith

/-! ## The trapezium of the cone and the cylinder

Corners at radius `ra` (height parameter 0) and `rb` (height parameter 1), axis length `L`. -/

/-- Signed distance of `(x, t)` to the supporting half plane with normal `(u, v)`. -/
noncomputable def support (ra rb L u v x t : ℝ) : ℝ :=
  min (u * (x - ra) + v * L * t) (u * (x - rb) + v * L * (t - 1))

theorem support_le (ra rb L u v x t cx ct : ℝ) (hu : 0 ≤ u) (h0 : 0 ≤ ct) (h1 : ct ≤ 1)
    (hc : cx ≤ ra + ct * (rb - ra)) :
    support ra rb L u v x t ≤ u * (x - cx) + v * L * (t - ct) := by
  unfold support
  set A := u * (x - ra) + v * L * t with hA
  set B := u * (x - rb) + v * L * (t - 1) with hB
  have e : (1 - ct) * A + ct * B = u * (x - (ra + ct * (rb - ra))) + v * L * (t - ct) := by
    rw [hA, hB]; ring
  have hm1 := min_le_left A B
  have hm2 := min_le_right A B
  have : min A B ≤ (1 - ct) * A + ct * B := by nlinarith
  have hcu := mul_le_mul_of_nonneg_left hc hu
  rw [e] at this
  nlinarith

theorem support_le_dist (ra rb L u v x t cx ct : ℝ) (hu : 0 ≤ u) (h : u * u + v * v = 1)
    (h0 : 0 ≤ ct) (h1 : ct ≤ 1) (hc : cx ≤ ra + ct * (rb - ra)) :
    support ra rb L u v x t ≤ Real.sqrt ((x - cx) * (x - cx) + (t - ct) * (t - ct) * (L * L)) := by
  refine (support_le ra rb L u v x t cx ct hu h0 h1 hc).trans ?_
  have := cs2 u v (x - cx) (L * (t - ct)) h
  have e : (x - cx) * (x - cx) + (t - ct) * (t - ct) * (L * L)
    = (x - cx) * (x - cx) + L * (t - ct) * (L * (t - ct)) := by ring
  rw [e]; linarith

/-- A signed distance described by supporting half planes. -/
structure Supported (ra rb L : ℝ) (f : ℝ → ℝ → ℝ) : Prop where
  upper : ∀ x t u v, 0 ≤ x → 0 ≤ u → u * u + v * v = 1 → support ra rb L u v x t ≤ f x t
  attain : ∀ x t, 0 ≤ x → ∃ u v, 0 ≤ u ∧ u * u + v * v = 1 ∧ f x t ≤ support ra rb L u v x t
  nearest : ∀ x t, 0 ≤ x → 0 < f x t → ∃ cx ct, 0 ≤ cx ∧ 0 ≤ ct ∧ ct ≤ 1 ∧
    cx ≤ ra + ct * (rb - ra) ∧
    f x t = Real.sqrt ((x - cx) * (x - cx) + (t - ct) * (t - ct) * (L * L))

theorem support_shift (ra rb L u v x t x' t' : ℝ) (h : u * u + v * v = 1) :
    support ra rb L u v x t - support ra rb L u v x' t' ≤
      Real.sqrt ((x - x') * (x - x') + (t - t') * (t - t') * (L * L)) := by
  have := cs2 u v (x - x') (L * (t - t')) h
  have e : (x - x') * (x - x') + (t - t') * (t - t') * (L * L)
    = (x - x') * (x - x') + L * (t - t') * (L * (t - t')) := by ring
  rw [e]
  set D := Real.sqrt ((x - x') * (x - x') + L * (t - t') * (L * (t - t')))
  unfold support
  have h1 := min_le_left (u * (x - ra) + v * L * t) (u * (x - rb) + v * L * (t - 1))
  have h2 := min_le_right (u * (x - ra) + v * L * t) (u * (x - rb) + v * L * (t - 1))
  rcases min_choice (u * (x' - ra) + v * L * t') (u * (x' - rb) + v * L * (t' - 1)) with h' | h' <;>
    rw [h'] <;> nlinarith

namespace Supported
variable {ra rb L : ℝ} {f : ℝ → ℝ → ℝ}

theorem lipschitz (hf : Supported ra rb L f) (x t x' t' : ℝ) (hx : 0 ≤ x) (hx' : 0 ≤ x') :
    f x t - f x' t' ≤ Real.sqrt ((x - x') * (x - x') + (t - t') * (t - t') * (L * L)) := by
  obtain ⟨u, v, hu, h1, ha⟩ := hf.attain x t hx
  have hb := hf.upper x' t' u v hx' hu h1
  have := support_shift ra rb L u v x t x' t' h1
  linarith

theorem nonpos_iff (hf : Supported ra rb L f) (hL : 0 < L) (x t : ℝ) (hx : 0 ≤ x) :
    f x t ≤ 0 ↔ 0 ≤ t ∧ t ≤ 1 ∧ x ≤ ra + t * (rb - ra) := by
  constructor
  · intro h
    have key : ∀ u v, 0 ≤ u → u * u + v * v = 1 → support ra rb L u v x t ≤ 0 :=
      fun u v hu h1 => (hf.upper x t u v hx hu h1).trans h
    have hlow := key 0 (-1) le_rfl (by norm_num)
    have hup := key 0 1 le_rfl (by norm_num)
    unfold support at hlow hup
    rw [min_le_iff] at hlow hup
    have ht0 : 0 ≤ t := by
      rcases hlow with h | h
      · nlinarith
      · by_contra hc
        nlinarith
    have ht1 : t ≤ 1 := by
      rcases hup with h | h
      · by_contra hc
        nlinarith
      · nlinarith
    refine ⟨ht0, ht1, ?_⟩
    have hk : 0 < (rb - ra) * (rb - ra) + L * L := by nlinarith [mul_self_nonneg (rb - ra)]
    have hs := Real.mul_self_sqrt hk.le
    have hsp := Real.sqrt_pos.mpr hk
    set K := Real.sqrt ((rb - ra) * (rb - ra) + L * L)
    have hsl := key (L / K) (-(rb - ra) / K) (div_nonneg hL.le hsp.le) (by field_simp; nlinarith)
    have e1 : L / K * (x - ra) + -(rb - ra) / K * L * t = L / K * (x - ra - t * (rb - ra)) := by
      field_simp; ring
    have e2 : L / K * (x - rb) + -(rb - ra) / K * L * (t - 1) = L / K * (x - ra - t * (rb - ra)) := by
      field_simp; ring
    unfold support at hsl
    rw [e1, e2, min_self] at hsl
    have := div_pos hL hsp
    by_contra hc
    have : 0 < L / K * (x - ra - t * (rb - ra)) := mul_pos this (by linarith)
    linarith
  · rintro ⟨h0, h1, hc⟩
    obtain ⟨u, v, hu, -, ha⟩ := hf.attain x t hx
    have := support_le ra rb L u v x t x t hu h0 h1 hc
    nlinarith

/-- Moving along the attaining normal leaves the solid. -/
theorem escape (hf : Supported ra rb L f) (hL : 0 < L) (x t : ℝ) (hx : 0 ≤ x) (hneg : f x t ≤ 0)
    (e : ℝ) (he : 0 < e) :
    ∃ x' t', 0 ≤ x' ∧ 0 < f x' t' ∧
      Real.sqrt ((x - x') * (x - x') + (t - t') * (t - t') * (L * L)) = -f x t + e := by
  obtain ⟨u, v, hu, h1, ha⟩ := hf.attain x t hx
  have hd : 0 ≤ -f x t + e := by linarith
  set d := -f x t + e with hdd
  refine ⟨x + d * u, t + d * v / L, by positivity, ?_, ?_⟩
  · have hb := hf.upper (x + d * u) (t + d * v / L) u v (by positivity) hu h1
    have e1 : support ra rb L u v (x + d * u) (t + d * v / L) = support ra rb L u v x t + d := by
      unfold support
      rw [← min_add_add_right]
      congr 1
      · field_simp; linear_combination d * h1
      · field_simp; linear_combination d * h1
    rw [e1] at hb
    linarith
  · rw [show (x - (x + d * u)) * (x - (x + d * u)) +
      (t - (t + d * v / L)) * (t - (t + d * v / L)) * (L * L) = d * d from by
        field_simp; linear_combination d ^ 2 * h1]
    exact Real.sqrt_mul_self hd

end Supported

/-! ### The cylinder's formula -/

noncomputable def cyl2 (r L x t : ℝ) : ℝ := box2 (x - r) (L * (|t - 1 / 2| - 1 / 2))

theorem cyl2_supported (r L : ℝ) (hr : 0 ≤ r) (hL : 0 < L) : Supported r r L (cyl2 r L) where
  upper := by
    intro x t u v hx hu h
    have := box2_upper (x - r) (L * (|t - 1 / 2| - 1 / 2)) u |v| hu (abs_nonneg v)
      (by rw [abs_mul_abs_self]; exact h)
    refine le_trans ?_ this
    unfold support
    rcases le_total 0 v with hv | hv
    · refine (min_le_right _ _).trans ?_
      rw [abs_of_nonneg hv]
      have h1 : t - 1 ≤ |t - 1 / 2| - 1 / 2 := by linarith [le_abs_self (t - 1 / 2)]
      have := mul_le_mul_of_nonneg_left h1 (mul_nonneg hv hL.le)
      linarith
    · refine (min_le_left _ _).trans ?_
      rw [abs_of_nonpos hv]
      have h1 : -t ≤ |t - 1 / 2| - 1 / 2 := by linarith [neg_abs_le (t - 1 / 2)]
      have := mul_le_mul_of_nonneg_left h1 (mul_nonneg (neg_nonneg.mpr hv) hL.le)
      linarith
  attain := by
    intro x t hx
    obtain ⟨u, w, hu, hw, h1, e⟩ := box2_attain (x - r) (L * (|t - 1 / 2| - 1 / 2))
    unfold cyl2 support
    rcases le_total (1 / 2) t with ht | ht
    · refine ⟨u, w, hu, h1, ?_⟩
      rw [e, abs_of_nonneg (by linarith)]
      refine le_min ?_ ?_
      · nlinarith [mul_nonneg hw hL.le]
      · nlinarith [mul_nonneg hw hL.le]
    · refine ⟨u, -w, hu, by rw [neg_mul_neg]; exact h1, ?_⟩
      rw [e, abs_of_nonpos (by linarith)]
      refine le_min ?_ ?_
      · nlinarith [mul_nonneg hw hL.le]
      · nlinarith [mul_nonneg hw hL.le]
  nearest := by
    intro x t hx hpos
    refine ⟨min x r, max 0 (min t 1), le_min hx hr, le_max_left _ _,
      max_le zero_le_one (min_le_right _ _), by simp, ?_⟩
    unfold cyl2 at hpos ⊢
    rw [box2_pos _ _ hpos.le]
    congr 1
    have e1 : max (x - r) 0 = x - min x r := by
      rcases le_total x r with h | h
      · rw [min_eq_left h, max_eq_right (by linarith), sub_self]
      · rw [min_eq_right h, max_eq_left (by linarith)]
    have e2 : max (L * (|t - 1 / 2| - 1 / 2)) 0 * max (L * (|t - 1 / 2| - 1 / 2)) 0 =
        (t - max 0 (min t 1)) * (t - max 0 (min t 1)) * (L * L) := by
      rcases le_total t 0 with h | h
      · rw [min_eq_left (by linarith), max_eq_left h, abs_of_nonpos (by linarith),
          max_eq_left (by nlinarith)]
        ring
      · rcases le_total t 1 with h' | h'
        · rw [min_eq_left h', max_eq_right h, max_eq_right]
          · ring
          · have : |t - 1 / 2| ≤ 1 / 2 := abs_le.mpr ⟨by linarith, by linarith⟩
            nlinarith
        · rw [min_eq_right h', max_eq_right zero_le_one, abs_of_nonneg (by linarith),
            max_eq_left (by nlinarith)]
          ring
    rw [e1, e2]

end Feign.Sdf
