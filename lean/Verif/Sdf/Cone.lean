import Verif.Sdf.Planar

/-! # Helper lemmas: the cone's formula is a signed distance to a trapezium -/

namespace Feign.Sdf
open Feign.V3

/-- `coneEval` in coordinates about the axis. -/
noncomputable def cone2 (ra rb L x t : ℝ) : ℝ :=
  let rba := rb - ra
  let cax := max 0 (x - (if t < 1 / 2 then ra else rb))
  let cay := |t - 1 / 2| - 1 / 2
  let k := rba * rba + L * L
  let f := clamp ((rba * (x - ra) + t * (L * L)) / k) 0 1
  let cbx := x - ra - f * rba
  let cby := t - f
  let s : ℝ := if cbx < 0 ∧ cay < 0 then -1 else 1
  s * Real.sqrt (min (cax * cax + cay * cay * (L * L)) (cbx * cbx + cby * cby * (L * L)))

/-- What the clamped parameter satisfies. -/
theorem clamp_spec (N k : ℝ) (hk : 0 < k) :
    0 ≤ clamp (N / k) 0 1 ∧ clamp (N / k) 0 1 ≤ 1 ∧
    0 ≤ (N - clamp (N / k) 0 1 * k) * clamp (N / k) 0 1 ∧
    0 ≤ (N - clamp (N / k) 0 1 * k) * (clamp (N / k) 0 1 - 1) := by
  unfold clamp
  split_ifs with h1 h2
  · have : N < 0 := by
      by_contra hc
      exact absurd h1 (not_lt.mpr (div_nonneg (not_lt.mp hc) hk.le))
    refine ⟨le_rfl, zero_le_one, by simp, by simp; linarith⟩
  · have : k < N := by
      have h3 := mul_lt_mul_of_pos_right h2 hk
      rwa [one_mul, div_mul_cancel₀ _ hk.ne'] at h3
    refine ⟨zero_le_one, le_rfl, by simp; linarith, by simp⟩
  · have e : N - N / k * k = 0 := by rw [div_mul_cancel₀ _ hk.ne']; ring
    refine ⟨not_lt.mp h1, not_lt.mp h2, by rw [e]; simp, by rw [e]; simp⟩

/-- The clamped parameter, abstractly. -/
structure Param (ra rb L x t f : ℝ) : Prop where
  lo : 0 ≤ f
  hi : f ≤ 1
  left : 0 ≤ ((rb - ra) * (x - ra - f * (rb - ra)) + (t - f) * (L * L)) * f
  right : 0 ≤ ((rb - ra) * (x - ra - f * (rb - ra)) + (t - f) * (L * L)) * (f - 1)

theorem clamp_param (ra rb L x t : ℝ) (hL : 0 < L) :
    Param ra rb L x t (clamp (((rb - ra) * (x - ra) + t * (L * L)) /
      ((rb - ra) * (rb - ra) + L * L)) 0 1) := by
  have hk : 0 < (rb - ra) * (rb - ra) + L * L := by nlinarith [mul_self_nonneg (rb - ra), mul_pos hL hL]
  have := clamp_spec ((rb - ra) * (x - ra) + t * (L * L)) _ hk
  set f := clamp (((rb - ra) * (x - ra) + t * (L * L)) / ((rb - ra) * (rb - ra) + L * L)) 0 1
  have e : (rb - ra) * (x - ra) + t * (L * L) - f * ((rb - ra) * (rb - ra) + L * L) =
    (rb - ra) * (x - ra - f * (rb - ra)) + (t - f) * (L * L) := by ring
  rw [e] at this
  obtain ⟨h1, h2, h3, h4⟩ := this
  exact ⟨h1, h2, h3, h4⟩

section
variable {ra rb L x t f : ℝ}

/-- Inside according to the code's sign, the point is in the trapezium. -/
theorem Param.inside (hp : Param ra rb L x t f) (hL : 0 < L) (hb : x - ra - f * (rb - ra) < 0)
    (h0 : 0 < t) (h1 : t < 1) : x < ra + t * (rb - ra) := by
  by_contra hc
  rw [not_lt] at hc
  have hLL := mul_pos hL hL
  set d := rb - ra with hd
  set c := x - ra - f * d with hcdef
  -- `(t - f) * d ≤ c < 0`
  have h2 : (t - f) * d ≤ c := by rw [hcdef]; linarith
  rcases lt_trichotomy t f with htf | htf | htf
  · -- `d > 0`
    have hdpos : 0 < d := by
      by_contra hn
      have : 0 ≤ (t - f) * d := mul_nonneg_of_nonpos_of_nonpos (by linarith) (not_lt.mp hn)
      linarith
    have : d * c + (t - f) * (L * L) < 0 := by nlinarith
    have hfpos : 0 < f := by linarith
    have := mul_neg_of_neg_of_pos this hfpos
    linarith [hp.left]
  · rw [htf, sub_self, zero_mul] at h2; linarith
  · have hdneg : d < 0 := by
      by_contra hn
      have : 0 ≤ (t - f) * d := mul_nonneg (by linarith) (not_lt.mp hn)
      linarith
    have : 0 < d * c + (t - f) * (L * L) := by nlinarith
    have hf1 : f - 1 < 0 := by linarith
    have := mul_neg_of_pos_of_neg this hf1
    linarith [hp.right]

theorem Param.cap_low (hp : Param ra rb L x t f) (hL : 0 < L) (hb : x - ra - f * (rb - ra) < 0)
    (h0 : t ≤ 0) : x ≤ ra := by
  by_contra hc
  rw [not_le] at hc
  have hLL := mul_pos hL hL
  set d := rb - ra with hd
  have hfd : 0 < f * d := by linarith
  have hf : 0 < f := by
    rcases hp.lo.lt_or_eq with h | h
    · exact h
    · rw [← h, zero_mul] at hfd; exact absurd hfd (lt_irrefl _)
  have hdpos : 0 < d := by
    by_contra hn
    have := mul_nonpos_of_nonneg_of_nonpos hf.le (not_lt.mp hn)
    linarith
  have : d * (x - ra - f * d) + (t - f) * (L * L) < 0 := by nlinarith
  have := mul_neg_of_neg_of_pos this hf
  linarith [hp.left]

theorem Param.cap_high (hp : Param ra rb L x t f) (hL : 0 < L) (hb : x - ra - f * (rb - ra) < 0)
    (h1 : 1 ≤ t) : x ≤ rb := by
  by_contra hc
  rw [not_le] at hc
  have hLL := mul_pos hL hL
  set d := rb - ra with hd
  have hfd : (1 - f) * d < 0 := by linarith
  have hf : 0 < 1 - f := by
    rcases hp.hi.lt_or_eq with h | h
    · linarith
    · rw [h] at hfd; simp at hfd
  have hdneg : d < 0 := by
    by_contra hn
    have := mul_nonneg hf.le (not_lt.mp hn)
    linarith
  have : 0 < d * (x - ra - f * d) + (t - f) * (L * L) := by nlinarith
  have := mul_neg_of_pos_of_neg this (show f - 1 < 0 by linarith)
  linarith [hp.right]

/-- The slanted side's distance is supported when the point is not on the inner side of the nearest
point. -/
theorem Param.slant_attain (hp : Param ra rb L x t f) (hL : 0 < L)
    (hb : 0 ≤ x - ra - f * (rb - ra)) :
    ∃ u v, 0 ≤ u ∧ u * u + v * v = 1 ∧
      Real.sqrt ((x - ra - f * (rb - ra)) * (x - ra - f * (rb - ra)) + (t - f) * (t - f) * (L * L)) ≤
        support ra rb L u v x t := by
  have hD0 : 0 ≤ (x - ra - f * (rb - ra)) * (x - ra - f * (rb - ra)) + (t - f) * (t - f) * (L * L) := by
    nlinarith [mul_self_nonneg (x - ra - f * (rb - ra)), mul_self_nonneg ((t - f) * L)]
  have hDD := Real.mul_self_sqrt hD0
  set D := Real.sqrt ((x - ra - f * (rb - ra)) * (x - ra - f * (rb - ra)) +
    (t - f) * (t - f) * (L * L)) with hD
  have hDn : 0 ≤ D := Real.sqrt_nonneg _
  by_cases hz : D = 0
  · rw [hz] at hDD ⊢
    have hc : x - ra - f * (rb - ra) = 0 := by
      nlinarith [mul_self_nonneg (x - ra - f * (rb - ra)), mul_self_nonneg ((t - f) * L)]
    have ht : (t - f) * L = 0 := by
      nlinarith [mul_self_nonneg (x - ra - f * (rb - ra)), mul_self_nonneg ((t - f) * L)]
    have ht' : t = f := by
      rcases mul_eq_zero.mp ht with h | h
      · linarith
      · exact absurd h hL.ne'
    have hk : 0 < (rb - ra) * (rb - ra) + L * L := by
      nlinarith [mul_self_nonneg (rb - ra), mul_pos hL hL]
    have hs := Real.mul_self_sqrt hk.le
    have hsp := Real.sqrt_pos.mpr hk
    set K := Real.sqrt ((rb - ra) * (rb - ra) + L * L)
    refine ⟨L / K, -(rb - ra) / K, div_nonneg hL.le hsp.le, by field_simp; nlinarith, ?_⟩
    unfold support
    have hx : x = ra + t * (rb - ra) := by rw [ht']; linarith
    refine le_min (le_of_eq ?_) (le_of_eq ?_)
    · rw [hx]; field_simp; ring
    · rw [hx]; field_simp; ring
  · have hpos : 0 < D := lt_of_le_of_ne hDn (Ne.symm hz)
    refine ⟨(x - ra - f * (rb - ra)) / D, L * (t - f) / D, div_nonneg hb hDn, ?_, ?_⟩
    · field_simp; linarith
    · unfold support
      refine le_min ?_ ?_
      · have e : (x - ra - f * (rb - ra)) / D * (x - ra) + L * (t - f) / D * L * t =
            ((x - ra - f * (rb - ra)) * (x - ra) + L * (t - f) * L * t) / D := by ring
        rw [e, le_div_iff₀ hpos, hDD]
        have := hp.left
        nlinarith
      · have e : (x - ra - f * (rb - ra)) / D * (x - rb) + L * (t - f) / D * L * (t - 1) =
            ((x - ra - f * (rb - ra)) * (x - rb) + L * (t - f) * L * (t - 1)) / D := by ring
        rw [e, le_div_iff₀ hpos, hDD]
        have := hp.right
        nlinarith

end

/-- The nearest end of the axis. -/
theorem cay_sq (t : ℝ) : (|t - 1 / 2| - 1 / 2) * (|t - 1 / 2| - 1 / 2) =
    (t - (if t < 1 / 2 then 0 else 1)) * (t - (if t < 1 / 2 then 0 else 1)) := by
  split_ifs with h
  · rw [abs_of_neg (by linarith)]; ring
  · rw [abs_of_nonneg (by linarith)]; ring

theorem cay_neg (t : ℝ) : |t - 1 / 2| - 1 / 2 < 0 ↔ 0 < t ∧ t < 1 := by
  constructor
  · intro h
    have := abs_lt.mp (show |t - 1 / 2| < 1 / 2 by linarith)
    constructor <;> linarith
  · rintro ⟨h0, h1⟩
    have := abs_lt.mpr (show -(1 / 2) < t - 1 / 2 ∧ t - 1 / 2 < 1 / 2 from ⟨by linarith, by linarith⟩)
    linarith

section
variable (ra rb L x t : ℝ)

/-- Squared distance to the nearer cap. -/
noncomputable def capSq : ℝ :=
  max 0 (x - (if t < 1 / 2 then ra else rb)) * max 0 (x - (if t < 1 / 2 then ra else rb)) +
    (|t - 1 / 2| - 1 / 2) * (|t - 1 / 2| - 1 / 2) * (L * L)

noncomputable def par : ℝ :=
  clamp (((rb - ra) * (x - ra) + t * (L * L)) / ((rb - ra) * (rb - ra) + L * L)) 0 1

/-- Squared distance to the slanted side. -/
noncomputable def slantSq : ℝ :=
  (x - ra - par ra rb L x t * (rb - ra)) * (x - ra - par ra rb L x t * (rb - ra)) +
    (t - par ra rb L x t) * (t - par ra rb L x t) * (L * L)

theorem cone2_eq_out (h : ¬ (x - ra - par ra rb L x t * (rb - ra) < 0 ∧ |t - 1 / 2| - 1 / 2 < 0)) :
    cone2 ra rb L x t = Real.sqrt (min (capSq ra rb L x t) (slantSq ra rb L x t)) := by
  have : cone2 ra rb L x t =
      (if x - ra - par ra rb L x t * (rb - ra) < 0 ∧ |t - 1 / 2| - 1 / 2 < 0 then (-1 : ℝ) else 1) *
      Real.sqrt (min (capSq ra rb L x t) (slantSq ra rb L x t)) := rfl
  rw [this, if_neg h, one_mul]

theorem cone2_eq_in (h : x - ra - par ra rb L x t * (rb - ra) < 0 ∧ |t - 1 / 2| - 1 / 2 < 0) :
    cone2 ra rb L x t = -Real.sqrt (min (capSq ra rb L x t) (slantSq ra rb L x t)) := by
  have : cone2 ra rb L x t =
      (if x - ra - par ra rb L x t * (rb - ra) < 0 ∧ |t - 1 / 2| - 1 / 2 < 0 then (-1 : ℝ) else 1) *
      Real.sqrt (min (capSq ra rb L x t) (slantSq ra rb L x t)) := rfl
  rw [this, if_pos h]; ring

/-- The cap's distance is the distance to a point of the trapezium. -/
theorem capSq_eq : capSq ra rb L x t =
    (x - min x (if t < 1 / 2 then ra else rb)) * (x - min x (if t < 1 / 2 then ra else rb)) +
    (t - (if t < 1 / 2 then 0 else 1)) * (t - (if t < 1 / 2 then 0 else 1)) * (L * L) := by
  unfold capSq
  rw [cay_sq]
  generalize (if t < 1 / 2 then ra else rb) = r
  have : max 0 (x - r) = x - min x r := by
    rcases le_total x r with h | h
    · rw [min_eq_left h, max_eq_left (by linarith), sub_self]
    · rw [min_eq_right h, max_eq_right (by linarith)]
  rw [this]

theorem slantSq_eq : slantSq ra rb L x t =
    (x - (ra + par ra rb L x t * (rb - ra))) * (x - (ra + par ra rb L x t * (rb - ra))) +
    (t - par ra rb L x t) * (t - par ra rb L x t) * (L * L) := by
  unfold slantSq; ring

theorem cap_mem : 0 ≤ (if t < 1 / 2 then (0 : ℝ) else 1) ∧ (if t < 1 / 2 then (0 : ℝ) else 1) ≤ 1 ∧
    min x (if t < 1 / 2 then ra else rb) ≤ ra + (if t < 1 / 2 then (0 : ℝ) else 1) * (rb - ra) := by
  split_ifs
  · refine ⟨le_rfl, zero_le_one, ?_⟩
    rw [zero_mul, add_zero]; exact min_le_right _ _
  · refine ⟨zero_le_one, le_rfl, ?_⟩
    rw [one_mul, add_sub_cancel]; exact min_le_right _ _

end

section half
variable {X e t L K d f : ℝ}

/-- Distance to the line of the slanted side, when the parameter is not clamped. -/
theorem line_bound (hL : 0 < L) (hK : 0 < K) (hs : K * K = e * e + L * L) (hw : 0 < t * e - X)
    (hd0 : 0 ≤ d) (hdsl : d * d ≤ (X - f * e) * (X - f * e) + (t - f) * (t - f) * (L * L))
    (hM : e * (X - f * e) + (t - f) * (L * L) = 0) : d * K ≤ (t * e - X) * L := by
  rw [mul_self_le_mul_self_iff (mul_nonneg hd0 hK.le) (mul_nonneg hw.le hL.le)]
  have e1 : (t - f) * (K * K) = e * (t * e - X) := by
    rw [hs]; linear_combination hM
  have e2 : (X - f * e) * (K * K) = -(t * e - X) * (L * L) := by
    have : X - f * e = -(t * e - X) + (t - f) * e := by ring
    rw [this, add_mul, mul_right_comm, e1, hs]; ring
  have hKK : 0 < K * K := mul_pos hK hK
  have e3 : ((X - f * e) * (X - f * e) + (t - f) * (t - f) * (L * L)) * (K * K) * (K * K) =
      ((t * e - X) * L) * ((t * e - X) * L) * (K * K) := by
    have : ((X - f * e) * (X - f * e) + (t - f) * (t - f) * (L * L)) * (K * K) * (K * K) =
      ((X - f * e) * (K * K)) * ((X - f * e) * (K * K)) +
        ((t - f) * (K * K)) * ((t - f) * (K * K)) * (L * L) := by ring
    rw [this, e1, e2, hs]; ring
  have e4 := mul_right_cancel₀ hKK.ne' e3
  calc d * K * (d * K) = d * d * (K * K) := by ring
    _ ≤ _ := mul_le_mul_of_nonneg_right hdsl hKK.le
    _ = _ := e4

theorem clamped_low (hL : 0 < L) (hK : 0 < K) (hs : K * K = e * e + L * L) (h0 : 0 < t)
    (hw : 0 < t * e - X) (hM : e * X + t * (L * L) < 0) : t * K ≤ t * e - X := by
  have hKe : e ≤ K := by
    by_contra hc
    have := mul_self_lt_mul_self hK.le (not_le.mp hc)
    nlinarith [mul_pos hL hL]
  have htL : 0 < t * (L * L) := by positivity
  have he : 0 < e := by
    by_contra hc
    rw [not_lt] at hc
    have h2 : t * e ≤ 0 := mul_nonpos_of_nonneg_of_nonpos h0.le hc
    have h3 : 0 ≤ e * X := mul_nonneg_of_nonpos_of_nonpos hc (by linarith)
    linarith
  have h5 : t * K * K ≤ (t * e - X) * e := by
    rw [mul_assoc, hs]; linarith
  by_contra hc
  rw [not_le] at hc
  have h6 : (t * e - X) * e < t * K * e := mul_lt_mul_of_pos_right hc he
  have h7 : t * K * e ≤ t * K * K := mul_le_mul_of_nonneg_left hKe (by positivity)
  linarith

theorem clamped_high (hL : 0 < L) (hK : 0 < K) (hs : K * K = e * e + L * L) (h1 : t < 1)
    (hw : 0 < t * e - X) (hM : 0 < e * (X - e) + (t - 1) * (L * L)) :
    (1 - t) * K ≤ t * e - X := by
  have := clamped_low (X := X - e) (e := -e) (t := 1 - t) hL hK (by rw [hs]; ring) (by linarith)
    (by linarith) (by linarith)
  linarith

/-- Bounds from the half of the axis nearer to the first cap. -/
theorem half_bounds (hL : 0 < L) (hK : 0 < K) (hs : K * K = e * e + L * L) (h0 : 0 < t)
    (ht : t ≤ 1 / 2) (hw : 0 < t * e - X) (hd0 : 0 ≤ d)
    (hcap : d * d ≤ (X - min X 0) * (X - min X 0) + t * t * (L * L))
    (hdsl : d * d ≤ (X - f * e) * (X - f * e) + (t - f) * (t - f) * (L * L))
    (hlo : 0 ≤ f) (hhi : f ≤ 1)
    (hleft : 0 ≤ (e * (X - f * e) + (t - f) * (L * L)) * f)
    (hright : 0 ≤ (e * (X - f * e) + (t - f) * (L * L)) * (f - 1)) :
    d ≤ t * L ∧ d * K ≤ (t * e - X) * L := by
  have hf0 : e * (X - f * e) + (t - f) * (L * L) < 0 → f = 0 := by
    intro hM
    by_contra hne
    have hf : 0 < f := lt_of_le_of_ne hlo (Ne.symm hne)
    have := mul_neg_of_neg_of_pos hM hf
    linarith
  have hf1 : 0 < e * (X - f * e) + (t - f) * (L * L) → f = 1 := by
    intro hM
    by_contra hne
    have hf : f < 1 := lt_of_le_of_ne hhi hne
    have := mul_neg_of_pos_of_neg hM (show f - 1 < 0 by linarith)
    linarith
  by_cases hx : X ≤ 0
  · rw [min_eq_left hx] at hcap
    have b1 : d ≤ t * L := by
      rw [mul_self_le_mul_self_iff hd0 (by positivity)]; linarith
    refine ⟨b1, ?_⟩
    have fin : t * K ≤ t * e - X → d * K ≤ (t * e - X) * L := by
      intro h
      calc d * K ≤ t * L * K := mul_le_mul_of_nonneg_right b1 hK.le
        _ = t * K * L := by ring
        _ ≤ _ := mul_le_mul_of_nonneg_right h hL.le
    rcases lt_trichotomy (e * (X - f * e) + (t - f) * (L * L)) 0 with hM | hM | hM
    · apply fin
      have hf := hf0 hM
      rw [hf] at hM
      exact clamped_low hL hK hs h0 hw (by linarith)
    · exact line_bound hL hK hs hw hd0 hdsl hM
    · apply fin
      have hf := hf1 hM
      rw [hf] at hM
      have h2 := clamped_high hL hK hs (by linarith) hw (by linarith)
      have : t * K ≤ (1 - t) * K := mul_le_mul_of_nonneg_right (by linarith) hK.le
      linarith
  · have hX : 0 < X := not_le.mp hx
    have he : 0 < e := by
      by_contra hc
      have := mul_nonpos_of_nonneg_of_nonpos h0.le (not_lt.mp hc)
      linarith
    have heX : 0 < e * X := mul_pos he hX
    have htL : 0 < t * (L * L) := by positivity
    have hM : e * (X - f * e) + (t - f) * (L * L) = 0 := by
      rcases lt_trichotomy (e * (X - f * e) + (t - f) * (L * L)) 0 with hM | hM | hM
      · have hf := hf0 hM
        rw [hf] at hM
        linarith
      · exact hM
      · have hf := hf1 hM
        rw [hf] at hM
        have h1 : X - 1 * e < 0 := by nlinarith
        have h2 := mul_neg_of_pos_of_neg he h1
        have h3 : (t - 1) * (L * L) < 0 := mul_neg_of_neg_of_pos (by linarith) (mul_pos hL hL)
        linarith
    have h3 := line_bound hL hK hs hw hd0 hdsl hM
    refine ⟨?_, h3⟩
    have hKe : e ≤ K := by
      by_contra hc
      have := mul_self_lt_mul_self hK.le (not_le.mp hc)
      nlinarith [mul_pos hL hL]
    have h4 : t * e - X ≤ t * K := by
      have := mul_le_mul_of_nonneg_left hKe h0.le
      linarith
    have : d * K ≤ t * L * K := by
      have := mul_le_mul_of_nonneg_right h4 hL.le
      linarith
    exact le_of_mul_le_mul_right this hK

end half

/-- Inside the trapezium the code's value is at most the distance to each side. -/
theorem inside_bounds {ra rb L x t K d : ℝ} (hp : Param ra rb L x t (par ra rb L x t)) (hL : 0 < L)
    (hK : 0 < K) (hs : K * K = (rb - ra) * (rb - ra) + L * L) (h0 : 0 < t) (h1 : t < 1)
    (hins : x < ra + t * (rb - ra)) (hd0 : 0 ≤ d) (hdcap : d * d ≤ capSq ra rb L x t)
    (hdsl : d * d ≤ slantSq ra rb L x t) :
    d ≤ t * L ∧ d ≤ (1 - t) * L ∧ d * K ≤ (ra + t * (rb - ra) - x) * L := by
  unfold slantSq at hdsl
  obtain ⟨hlo, hhi, hleft, hright⟩ := hp
  generalize par ra rb L x t = f at *
  rw [capSq_eq] at hdcap
  have hmin : ∀ r : ℝ, x - min x r = x - r - min (x - r) 0 := by
    intro r
    have : min (x - r) 0 = min x r - r := by rw [← min_sub_sub_right, sub_self]
    rw [this]; ring
  by_cases ht : t < 1 / 2
  · rw [if_pos ht, if_pos ht, hmin] at hdcap
    obtain ⟨b1, b2⟩ := half_bounds (X := x - ra) (e := rb - ra) (f := f) hL hK hs h0 ht.le
      (by linarith) hd0 (by linarith) hdsl hlo hhi hleft hright
    have h5 : t * L ≤ (1 - t) * L := mul_le_mul_of_nonneg_right (by linarith) hL.le
    exact ⟨b1, b1.trans h5, by linarith⟩
  · rw [if_neg ht, if_neg ht, hmin] at hdcap
    rw [not_lt] at ht
    obtain ⟨b1, b2⟩ := half_bounds (X := x - rb) (e := -(rb - ra)) (f := 1 - f) (t := 1 - t) hL hK
      (by rw [hs]; ring) (by linarith) (by linarith) (by linarith) hd0
      (by
        have e1 : (t - 1) * (t - 1) * (L * L) = (1 - t) * (1 - t) * (L * L) := by ring
        rw [← e1]; exact hdcap)
      (by
        have e1 : (x - rb - (1 - f) * -(rb - ra)) * (x - rb - (1 - f) * -(rb - ra)) +
          (1 - t - (1 - f)) * (1 - t - (1 - f)) * (L * L) =
          (x - ra - f * (rb - ra)) * (x - ra - f * (rb - ra)) + (t - f) * (t - f) * (L * L) := by ring
        rw [e1]; exact hdsl)
      (by linarith) (by linarith)
      (by
        have e1 : (-(rb - ra) * (x - rb - (1 - f) * -(rb - ra)) + (1 - t - (1 - f)) * (L * L)) * (1 - f)
          = ((rb - ra) * (x - ra - f * (rb - ra)) + (t - f) * (L * L)) * (f - 1) := by ring
        rw [e1]; exact hright)
      (by
        have e1 : (-(rb - ra) * (x - rb - (1 - f) * -(rb - ra)) + (1 - t - (1 - f)) * (L * L)) *
          (1 - f - 1) = ((rb - ra) * (x - ra - f * (rb - ra)) + (t - f) * (L * L)) * f := by ring
        rw [e1]; exact hleft)
    have h5 : (1 - t) * L ≤ t * L := mul_le_mul_of_nonneg_right (by linarith) hL.le
    exact ⟨b1.trans h5, b1, by linarith⟩

theorem cone2_upper (ra rb L x t u v : ℝ) (hL : 0 < L) (hu : 0 ≤ u) (h : u * u + v * v = 1) :
    support ra rb L u v x t ≤ cone2 ra rb L x t := by
  have hp := clamp_param ra rb L x t hL
  change Param ra rb L x t (par ra rb L x t) at hp
  by_cases hin : x - ra - par ra rb L x t * (rb - ra) < 0 ∧ |t - 1 / 2| - 1 / 2 < 0
  · rw [cone2_eq_in ra rb L x t hin]
    obtain ⟨hb, hc⟩ := hin
    obtain ⟨h0, h1⟩ := (cay_neg t).mp hc
    have hins := hp.inside hL hb h0 h1
    set d := Real.sqrt (min (capSq ra rb L x t) (slantSq ra rb L x t)) with hd
    have hcap0 : 0 ≤ capSq ra rb L x t := by
      unfold capSq
      nlinarith [mul_self_nonneg (max 0 (x - (if t < 1 / 2 then ra else rb))),
        mul_self_nonneg ((|t - 1 / 2| - 1 / 2) * L)]
    have hsl0 : 0 ≤ slantSq ra rb L x t := by
      unfold slantSq
      nlinarith [mul_self_nonneg (x - ra - par ra rb L x t * (rb - ra)),
        mul_self_nonneg ((t - par ra rb L x t) * L)]
    have hmin0 : 0 ≤ min (capSq ra rb L x t) (slantSq ra rb L x t) := le_min hcap0 hsl0
    have hd0 : 0 ≤ d := Real.sqrt_nonneg _
    have hdd : d * d = min (capSq ra rb L x t) (slantSq ra rb L x t) := Real.mul_self_sqrt hmin0
    have hk : 0 < (rb - ra) * (rb - ra) + L * L := by
      nlinarith [mul_self_nonneg (rb - ra), mul_pos hL hL]
    have hs := Real.mul_self_sqrt hk.le
    have hsp := Real.sqrt_pos.mpr hk
    set K := Real.sqrt ((rb - ra) * (rb - ra) + L * L)
    -- the three bounds on `d`
    have hbounds : d ≤ t * L ∧ d ≤ (1 - t) * L ∧ d * K ≤ (ra + t * (rb - ra) - x) * L := by
      have hdcap : d * d ≤ capSq ra rb L x t := hdd.le.trans (min_le_left _ _)
      have hdsl : d * d ≤ slantSq ra rb L x t := hdd.le.trans (min_le_right _ _)
      exact inside_bounds hp hL hsp hs h0 h1 hins hd0 hdcap hdsl
    obtain ⟨b1, b2, b3⟩ := hbounds
    have hv : |v| ≤ 1 := abs_le_one_iff_mul_self_le_one.mpr (by nlinarith [mul_self_nonneg u])
    obtain ⟨hv1, hv2⟩ := abs_le.mp hv
    have := support_le ra rb L u v x t (x + d * u) (t + d * v / L) hu ?_ ?_ ?_
    · have e : u * (x - (x + d * u)) + v * L * (t - (t + d * v / L)) = -d := by
        field_simp; linear_combination -d * h
      linarith
    · have : -(t * L) ≤ d * v := by nlinarith
      have : -t ≤ d * v / L := by rw [le_div_iff₀ hL]; linarith
      linarith
    · have : d * v ≤ (1 - t) * L := by nlinarith
      have : d * v / L ≤ 1 - t := by rw [div_le_iff₀ hL]; linarith
      linarith
    · -- `d * (u - v * (rb - ra) / L) ≤ ra + t * (rb - ra) - x`
      have hcs : u * L + v * -(rb - ra) ≤ K := by
        have := cs2 u v L (-(rb - ra)) h
        rwa [neg_mul_neg, add_comm (L * L)] at this
      have h3 := mul_le_mul_of_nonneg_left hcs hd0
      have h4 : d * u - d * v / L * (rb - ra) ≤ ra + t * (rb - ra) - x := by
        have e : d * u - d * v / L * (rb - ra) = (d * (u * L + v * -(rb - ra))) / L := by
          field_simp; ring
        rw [e, div_le_iff₀ hL]
        linarith
      linarith
  · rw [cone2_eq_out ra rb L x t hin]
    rcases min_choice (capSq ra rb L x t) (slantSq ra rb L x t) with hm | hm
    · rw [hm, capSq_eq]
      obtain ⟨c1, c2, c3⟩ := cap_mem ra rb x t
      exact support_le_dist ra rb L u v x t _ _ hu h c1 c2 c3
    · rw [hm, slantSq_eq]
      exact support_le_dist ra rb L u v x t _ _ hu h hp.lo hp.hi le_rfl

theorem cone2_attain_in (ra rb L x t : ℝ) (hL : 0 < L)
    (hin : x - ra - par ra rb L x t * (rb - ra) < 0 ∧ |t - 1 / 2| - 1 / 2 < 0) :
    ∃ u v, 0 ≤ u ∧ u * u + v * v = 1 ∧ cone2 ra rb L x t ≤ support ra rb L u v x t := by
  have hp := clamp_param ra rb L x t hL
  change Param ra rb L x t (par ra rb L x t) at hp
  rw [cone2_eq_in ra rb L x t hin]
  obtain ⟨hb, hc⟩ := hin
  obtain ⟨h0, h1⟩ := (cay_neg t).mp hc
  have hins := hp.inside hL hb h0 h1
  rcases min_choice (capSq ra rb L x t) (slantSq ra rb L x t) with hm | hm
  · rw [hm]
    have hge : (|t - 1 / 2| - 1 / 2) * (|t - 1 / 2| - 1 / 2) * (L * L) ≤ capSq ra rb L x t := by
      unfold capSq
      nlinarith [mul_self_nonneg (max 0 (x - (if t < 1 / 2 then ra else rb)))]
    by_cases ht : t < 1 / 2
    · refine ⟨0, -1, le_rfl, by norm_num, ?_⟩
      have : t * L ≤ Real.sqrt (capSq ra rb L x t) := by
        apply Real.le_sqrt_of_sq_le
        rw [abs_of_neg (by linarith)] at hge
        nlinarith
      unfold support
      refine le_min ?_ ?_ <;> nlinarith
    · refine ⟨0, 1, le_rfl, by norm_num, ?_⟩
      have : (1 - t) * L ≤ Real.sqrt (capSq ra rb L x t) := by
        apply Real.le_sqrt_of_sq_le
        rw [abs_of_nonneg (by linarith)] at hge
        nlinarith
      unfold support
      refine le_min ?_ ?_ <;> nlinarith
  · rw [hm]
    have hk : 0 < (rb - ra) * (rb - ra) + L * L := by
      nlinarith [mul_self_nonneg (rb - ra), mul_pos hL hL]
    have hs := Real.mul_self_sqrt hk.le
    have hsp := Real.sqrt_pos.mpr hk
    set K := Real.sqrt ((rb - ra) * (rb - ra) + L * L)
    have hunit : L / K * (L / K) + -(rb - ra) / K * (-(rb - ra) / K) = 1 := by field_simp; nlinarith
    refine ⟨L / K, -(rb - ra) / K, div_nonneg hL.le hsp.le, hunit, ?_⟩
    -- both terms are the negated distance to the line
    have hcs := cs2 (-(L / K)) (-(-(rb - ra) / K)) (x - ra - par ra rb L x t * (rb - ra))
      (L * (t - par ra rb L x t)) (by rw [neg_mul_neg, neg_mul_neg]; exact hunit)
    have e : (x - ra - par ra rb L x t * (rb - ra)) * (x - ra - par ra rb L x t * (rb - ra)) +
        L * (t - par ra rb L x t) * (L * (t - par ra rb L x t)) = slantSq ra rb L x t := by
      unfold slantSq; ring
    rw [e] at hcs
    have e0 : -(L / K) * (x - ra - par ra rb L x t * (rb - ra)) +
        -(-(rb - ra) / K) * (L * (t - par ra rb L x t)) = -(L / K * (x - ra - t * (rb - ra))) := by
      field_simp; ring
    rw [e0] at hcs
    have e1 : L / K * (x - ra) + -(rb - ra) / K * L * t = L / K * (x - ra - t * (rb - ra)) := by
      field_simp; ring
    have e2 : L / K * (x - rb) + -(rb - ra) / K * L * (t - 1) = L / K * (x - ra - t * (rb - ra)) := by
      field_simp; ring
    unfold support
    rw [e1, e2, min_self]
    linarith

/-- Outside according to the code's sign: a nearest point and a supporting normal. -/
theorem cone2_out (ra rb L x t : ℝ) (hL : 0 < L) (hra : 0 ≤ ra) (hrb : 0 ≤ rb) (hx : 0 ≤ x)
    (hin : ¬ (x - ra - par ra rb L x t * (rb - ra) < 0 ∧ |t - 1 / 2| - 1 / 2 < 0)) :
    (∃ u v, 0 ≤ u ∧ u * u + v * v = 1 ∧ cone2 ra rb L x t ≤ support ra rb L u v x t) ∧
    ∃ cx ct, 0 ≤ cx ∧ 0 ≤ ct ∧ ct ≤ 1 ∧ cx ≤ ra + ct * (rb - ra) ∧
      cone2 ra rb L x t = Real.sqrt ((x - cx) * (x - cx) + (t - ct) * (t - ct) * (L * L)) := by
  have hp := clamp_param ra rb L x t hL
  change Param ra rb L x t (par ra rb L x t) at hp
  constructor
  · rw [cone2_eq_out ra rb L x t hin]
    by_cases hb : x - ra - par ra rb L x t * (rb - ra) < 0
    · have hcay : ¬ |t - 1 / 2| - 1 / 2 < 0 := fun h => hin ⟨hb, h⟩
      rw [cay_neg] at hcay
      by_cases ht : 0 < t
      · have ht1 : 1 ≤ t := by
          by_contra hc
          exact hcay ⟨ht, not_le.mp hc⟩
        have hxr := hp.cap_high hL hb ht1
        refine ⟨0, 1, le_rfl, by norm_num, (Real.sqrt_le_sqrt (min_le_left _ _)).trans ?_⟩
        have e : capSq ra rb L x t = ((t - 1) * L) * ((t - 1) * L) := by
          rw [capSq_eq, if_neg (by linarith), if_neg (by linarith), min_eq_left hxr]; ring
        rw [e, Real.sqrt_mul_self (mul_nonneg (by linarith) hL.le)]
        unfold support
        refine le_min ?_ ?_ <;> nlinarith
      · have ht0 : t ≤ 0 := not_lt.mp ht
        have hxr := hp.cap_low hL hb ht0
        refine ⟨0, -1, le_rfl, by norm_num, (Real.sqrt_le_sqrt (min_le_left _ _)).trans ?_⟩
        have e : capSq ra rb L x t = (-t * L) * (-t * L) := by
          rw [capSq_eq, if_pos (by linarith), if_pos (by linarith), min_eq_left hxr]; ring
        rw [e, Real.sqrt_mul_self (mul_nonneg (by linarith) hL.le)]
        unfold support
        refine le_min ?_ ?_ <;> nlinarith
    · obtain ⟨u, v, hu, h1, ha⟩ := hp.slant_attain hL (not_lt.mp hb)
      exact ⟨u, v, hu, h1, (Real.sqrt_le_sqrt (min_le_right _ _)).trans ha⟩
  · rw [cone2_eq_out ra rb L x t hin]
    rcases min_choice (capSq ra rb L x t) (slantSq ra rb L x t) with hm | hm
    · obtain ⟨c1, c2, c3⟩ := cap_mem ra rb x t
      refine ⟨_, _, ?_, c1, c2, c3, by rw [hm, capSq_eq]⟩
      refine le_min hx ?_
      split_ifs <;> assumption
    · refine ⟨_, _, ?_, hp.lo, hp.hi, le_rfl, by rw [hm, slantSq_eq]⟩
      nlinarith [hp.lo, hp.hi, mul_nonneg hp.lo hrb, mul_nonneg (sub_nonneg.mpr hp.hi) hra]

theorem cone2_supported (ra rb L : ℝ) (hL : 0 < L) (hra : 0 ≤ ra) (hrb : 0 ≤ rb) :
    Supported ra rb L (cone2 ra rb L) where
  upper := fun x t u v _ hu h => cone2_upper ra rb L x t u v hL hu h
  attain := by
    intro x t hx
    by_cases hin : x - ra - par ra rb L x t * (rb - ra) < 0 ∧ |t - 1 / 2| - 1 / 2 < 0
    · exact cone2_attain_in ra rb L x t hL hin
    · exact (cone2_out ra rb L x t hL hra hrb hx hin).1
  nearest := by
    intro x t hx hpos
    by_cases hin : x - ra - par ra rb L x t * (rb - ra) < 0 ∧ |t - 1 / 2| - 1 / 2 < 0
    · rw [cone2_eq_in ra rb L x t hin] at hpos
      have := Real.sqrt_nonneg (min (capSq ra rb L x t) (slantSq ra rb L x t))
      linarith
    · exact (cone2_out ra rb L x t hL hra hrb hx hin).2

end Feign.Sdf
