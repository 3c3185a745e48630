import Verif.Media.TransFunc
import Mathlib.Analysis.SpecialFunctions.Pow.Deriv
import Mathlib.Analysis.Calculus.Deriv.MeanValue
import Mathlib.Analysis.SpecialFunctions.Log.Deriv
import Mathlib.Analysis.Convex.SpecificFunctions.Basic
import Mathlib.Tactic.FieldSimp
import Mathlib.Tactic.Linarith

/-! # Lemmas about the Davis transmittance and the bisection -/

set_option linter.unusedSectionVars false
set_option linter.unusedSimpArgs false

namespace Feign.Media

/-! ### Logarithm bounds -/

theorem log_lower {x : ℝ} (hx : 0 ≤ x) : x / (1 + x) ≤ Real.log (1 + x) := by
  have h := Real.one_sub_inv_le_log_of_pos (show 0 < 1 + x by linarith)
  have : x / (1 + x) = 1 - (1 + x)⁻¹ := by field_simp; ring
  rw [this]; exact h

theorem log_upper {x : ℝ} (hx : 0 ≤ x) : Real.log (1 + x) ≤ x := by
  have := Real.log_le_sub_one_of_pos (show 0 < 1 + x by linarith)
  linarith

/-- `2 log (1 + x) ≤ x + x / (1 + x)`. -/
theorem log_upper2 {x : ℝ} (hx : 0 ≤ x) : 2 * Real.log (1 + x) ≤ x + x / (1 + x) := by
  have hmono : MonotoneOn (fun y : ℝ => y + y / (1 + y) - 2 * Real.log (1 + y)) (Set.Ici 0) := by
    have hd : ∀ y : ℝ, 0 ≤ y →
        HasDerivAt (fun y : ℝ => y + y / (1 + y) - 2 * Real.log (1 + y)) (y ^ 2 / (1 + y) ^ 2) y := by
      intro y hy
      have h1 : (1 + y) ≠ 0 := by linarith
      have hb : HasDerivAt (fun y : ℝ => 1 + y) 1 y := (hasDerivAt_id y).const_add 1
      have := ((hasDerivAt_id y).add ((hasDerivAt_id y).div hb h1)).sub ((hb.log h1).const_mul 2)
      refine this.congr_deriv ?_
      simp only [id]
      field_simp
      ring
    apply monotoneOn_of_deriv_nonneg (convex_Ici 0)
    · exact fun y hy => (hd y hy).continuousAt.continuousWithinAt
    · intro y hy
      rw [interior_Ici] at hy
      exact (hd y (le_of_lt hy)).differentiableAt.differentiableWithinAt
    · intro y hy
      rw [interior_Ici] at hy
      rw [(hd y (le_of_lt hy)).deriv]
      positivity
  have := hmono (Set.mem_Ici.2 le_rfl) (Set.mem_Ici.2 hx) hx
  simp at this
  linarith

/-- `log (1 + x) / x` falls. -/
theorem log_ratio {x y : ℝ} (hx : 0 < x) (hxy : x ≤ y) : x / y * Real.log (1 + y) ≤ Real.log (1 + x) := by
  have hy : 0 < y := hx.trans_le hxy
  have hc := strictConcaveOn_log_Ioi.concaveOn
  have h1 : x / y ≤ 1 := (div_le_one hy).2 hxy
  have := hc.2 (show (1 : ℝ) ∈ Set.Ioi 0 from by simp) (show 1 + y ∈ Set.Ioi (0 : ℝ) from by simp; linarith)
    (show (0 : ℝ) ≤ 1 - x / y by linarith) (show 0 ≤ x / y by positivity) (by ring)
  simp only [smul_eq_mul, Real.log_one, mul_zero, zero_add, mul_one] at this
  have e : 1 - x / y + x / y * (1 + y) = 1 + x := by field_simp; ring
  rwa [e] at this

/-! ### The Davis functions above the cut-off -/

variable {beta c t : ℝ}

theorem alpha_pos (hc : 0 < c) (ht : 0 < t) : 0 < davisAlpha beta c t :=
  div_pos (Real.rpow_pos_of_pos ht _) (Real.rpow_pos_of_pos hc _)

theorem alpha_deriv (hc : 0 < c) (ht : 0 < t) :
    HasDerivAt (davisAlpha beta c) ((1 - beta) * davisAlpha beta c t / t) t := by
  have h := ((hasDerivAt_id t).rpow_const (p := 1 - beta) (Or.inl ht.ne')).div_const (c ^ (1 + beta))
  refine h.congr_deriv ?_
  simp only [id, davisAlpha]
  rw [Real.rpow_sub_one ht.ne']
  have : c ^ (1 + beta) ≠ 0 := (Real.rpow_pos_of_pos hc _).ne'
  field_simp

theorem base_pos (hc : 0 < c) (ht : 0 < t) : 0 < 1 + t / davisAlpha beta c t := by
  have := div_pos ht (alpha_pos (beta := beta) hc ht)
  linarith

theorem base_deriv (hc : 0 < c) (ht : 0 < t) :
    HasDerivAt (fun t => 1 + t / davisAlpha beta c t) (beta / davisAlpha beta c t) t := by
  have ha := alpha_pos (beta := beta) hc ht
  have h := ((hasDerivAt_id t).div (alpha_deriv (beta := beta) hc ht) ha.ne').const_add 1
  refine h.congr_deriv ?_
  simp only [id]
  field_simp
  ring

/-- The factor by which the transmittance shrinks. -/
noncomputable def davisRate (beta c t : ℝ) : ℝ :=
  beta / (1 + t / davisAlpha beta c t) -
    (beta - 1) * davisAlpha beta c t / t * Real.log (1 + t / davisAlpha beta c t)

/-- The transmittance without the cut-off. -/
noncomputable def davisTr (beta c t : ℝ) : ℝ := (1 + t / davisAlpha beta c t) ^ (-davisAlpha beta c t)

theorem davisTr_pos (hc : 0 < c) (ht : 0 < t) : 0 < davisTr beta c t :=
  Real.rpow_pos_of_pos (base_pos hc ht) _

theorem davisTr_le_one (hc : 0 < c) (ht : 0 < t) : davisTr beta c t ≤ 1 := by
  have ha := alpha_pos (beta := beta) hc ht
  apply Real.rpow_le_one_of_one_le_of_nonpos
  · have := div_pos ht ha; linarith
  · linarith

theorem davisTr_deriv (hc : 0 < c) (ht : 0 < t) :
    HasDerivAt (davisTr beta c) (-(davisTr beta c t * davisRate beta c t)) t := by
  have ha := alpha_pos (beta := beta) hc ht
  have hb := base_pos (beta := beta) hc ht
  have h := (base_deriv (beta := beta) hc ht).rpow (alpha_deriv (beta := beta) hc ht).neg hb
  refine h.congr_deriv ?_
  simp only [davisTr, davisRate, Pi.neg_apply]
  rw [Real.rpow_sub_one hb.ne']
  field_simp
  ring

theorem rate_eq (hc : 0 < c) (ht : 0 < t) : davisRate beta c t =
    beta / (1 + t / davisAlpha beta c t) +
      (1 - beta) * (Real.log (1 + t / davisAlpha beta c t) / (t / davisAlpha beta c t)) := by
  have ha := alpha_pos (beta := beta) hc ht
  unfold davisRate
  field_simp
  ring

theorem rate_nonneg (hb1 : beta ≤ 1) (hc : 0 < c) (ht : 0 < t) : 0 ≤ davisRate beta c t := by
  rw [rate_eq hc ht]
  have hx := div_pos ht (alpha_pos (beta := beta) hc ht)
  generalize t / davisAlpha beta c t = x at hx
  have hb : 0 < 1 + x := by linarith
  have h1 : 1 / (1 + x) ≤ Real.log (1 + x) / x := by
    rw [div_le_div_iff₀ hb hx]
    have := log_lower hx.le
    rw [div_le_iff₀ hb] at this
    linarith
  have h0 : 0 < 1 / (1 + x) := by positivity
  rw [show beta / (1 + x) = beta * (1 / (1 + x)) by ring]
  nlinarith

theorem rate_le_one (hb0 : -1 ≤ beta) (hb1 : beta ≤ 1) (hc : 0 < c) (ht : 0 < t) : davisRate beta c t ≤ 1 := by
  rw [rate_eq hc ht]
  have hx := div_pos ht (alpha_pos (beta := beta) hc ht)
  generalize t / davisAlpha beta c t = x at hx
  have hb : 0 < 1 + x := by linarith
  have h1 : Real.log (1 + x) / x ≤ 1 := by
    rw [div_le_one hx]; exact log_upper hx.le
  have h2 : 2 * (Real.log (1 + x) / x) ≤ 1 + 1 / (1 + x) := by
    have := log_upper2 hx.le
    have e : 1 + 1 / (1 + x) = (x + x / (1 + x)) / x := by field_simp
    rw [e, ← mul_div_assoc]
    exact div_le_div_of_nonneg_right this hx.le
  have h3 : 1 / (1 + x) ≤ 1 := by rw [div_le_one hb]; linarith
  rw [show beta / (1 + x) = beta * (1 / (1 + x)) by ring]
  rcases le_or_gt 0 beta with h | h
  · nlinarith
  · nlinarith

/-- The expression of `mediumMedium` without the cut-off. -/
noncomputable def davisCurve (beta c t : ℝ) : ℝ :=
  let alpha := davisAlpha beta c t
  let base := 1 + t / alpha
  beta * (-1 + beta * (1 + t) + (-1 + 2 * beta) * t / alpha) / (t * base * base) -
    ((-1 + beta) * beta * alpha / (t * t) * (2 * t + base) * Real.log base) / base +
    (beta - 1) * alpha / t * Real.log base * ((beta - 1) * alpha / t * Real.log base)

theorem rate_deriv (hc : 0 < c) (ht : 0 < t) :
    HasDerivAt (davisRate beta c) (davisRate beta c t ^ 2 - davisCurve beta c t) t := by
  have ha := alpha_pos (beta := beta) hc ht
  have hb := base_pos (beta := beta) hc ht
  have hbd := base_deriv (beta := beta) hc ht
  have hA := ((alpha_deriv (beta := beta) hc ht).const_mul (beta - 1)).div (hasDerivAt_id t) ht.ne'
  have h := ((hasDerivAt_const t beta).div hbd hb.ne').sub (hA.mul (hbd.log hb.ne'))
  refine h.congr_deriv ?_
  simp only [davisRate, davisCurve, id, Pi.mul_apply, Pi.div_apply]
  generalize Real.log (1 + t / davisAlpha beta c t) = L
  generalize davisAlpha beta c t = a at ha hb
  have hta : a + t ≠ 0 := by linarith
  field_simp
  ring

theorem davisMed_deriv (hc : 0 < c) (ht : 0 < t) :
    HasDerivAt (fun t => davisTr beta c t * davisRate beta c t) (-(davisTr beta c t * davisCurve beta c t)) t := by
  refine ((davisTr_deriv (beta := beta) hc ht).mul (rate_deriv hc ht)).congr_deriv ?_
  ring

theorem curve_nonneg (hb0 : 0 ≤ beta) (hb1 : beta ≤ 1) (hc : 0 < c) (ht : 0 < t) : 0 ≤ davisCurve beta c t := by
  have ha := alpha_pos (beta := beta) hc ht
  have hl := log_lower (div_pos ht ha).le
  simp only [davisCurve]
  have hx := div_pos ht ha
  generalize hL : Real.log (1 + t / davisAlpha beta c t) = L at hl
  generalize davisAlpha beta c t = a at ha hl hx
  have e : beta * (-1 + beta * (1 + t) + (-1 + 2 * beta) * t / a) / (t * (1 + t / a) * (1 + t / a)) -
      ((-1 + beta) * beta * a / (t * t) * (2 * t + (1 + t / a)) * L) / (1 + t / a) =
      beta ^ 2 * (t + t / a) / (t * (1 + t / a) ^ 2) + 2 * (1 - beta) * beta / (1 + t / a) ^ 2 +
      (1 - beta) * beta * a * (2 * t + (1 + t / a)) / (t * t * (1 + t / a)) * (L - t / a / (1 + t / a)) := by
    have hta : a + t ≠ 0 := by linarith
    field_simp
    ring
  rw [e]
  have h1 : 0 ≤ 1 - beta := by linarith
  have h2 : 0 ≤ L - t / a / (1 + t / a) := by linarith
  have : 0 ≤ (beta - 1) * a / t * L * ((beta - 1) * a / t * L) := mul_self_nonneg _
  positivity

/-! ### With the cut-off -/

theorem ss_eq (ht : 1 / 10000 ≤ t) : davisSS beta c t = davisTr beta c t := by
  simp only [davisSS, if_neg (not_lt.2 ht)]; rfl

theorem sm_eq (ht : 1 / 10000 ≤ t) : davisSM beta c t = davisTr beta c t * davisRate beta c t := by
  simp only [davisSM, if_neg (not_lt.2 ht)]; rfl

theorem mm_eq (ht : 1 / 10000 ≤ t) : davisMM beta c t = davisTr beta c t * davisCurve beta c t := by
  simp only [davisMM, if_neg (not_lt.2 ht)]; rfl

/-- A function that is 1 below the cut-off and falls from at most 1 above it falls. -/
theorem antitone_cut {g s : ℝ → ℝ} (hcut : ∀ t, t < 1 / 10000 → g t = 1) (hs : ∀ t, 1 / 10000 ≤ t → g t = s t)
    (h1 : ∀ t, 0 < t → s t ≤ 1) (hd : ∀ t, 0 < t → ∃ d, d ≤ 0 ∧ HasDerivAt s d t) : Antitone g := by
  have hanti : AntitoneOn s (Set.Ioi 0) := by
    apply antitoneOn_of_deriv_nonpos (convex_Ioi 0)
    · intro t ht
      obtain ⟨d, -, h⟩ := hd t ht
      exact h.continuousAt.continuousWithinAt
    · intro t ht
      rw [interior_Ioi] at ht
      obtain ⟨d, -, h⟩ := hd t ht
      exact h.differentiableAt.differentiableWithinAt
    · intro t ht
      rw [interior_Ioi] at ht
      obtain ⟨d, hd0, h⟩ := hd t ht
      rw [h.deriv]; exact hd0
  intro a b hab
  rcases lt_or_ge b (1 / 10000) with hb | hb
  · rw [hcut a (hab.trans_lt hb), hcut b hb]
  · rcases lt_or_ge a (1 / 10000) with ha | ha
    · rw [hcut a ha, hs b hb]; exact h1 b (by linarith)
    · rw [hs a ha, hs b hb]
      exact hanti (Set.mem_Ioi.2 (by linarith)) (Set.mem_Ioi.2 (by linarith)) hab

theorem ss_antitone (hb1 : beta ≤ 1) (hc : 0 < c) : Antitone (davisSS beta c) :=
  antitone_cut (s := davisTr beta c) (fun t ht => if_pos ht) (fun t ht => ss_eq ht)
    (fun t ht => davisTr_le_one hc ht)
    (fun t ht => ⟨_, neg_nonpos.2 (mul_nonneg (davisTr_pos hc ht).le (rate_nonneg hb1 hc ht)),
      davisTr_deriv hc ht⟩)

theorem sm_antitone (hb0 : 0 ≤ beta) (hb1 : beta ≤ 1) (hc : 0 < c) : Antitone (davisSM beta c) :=
  antitone_cut (s := fun t => davisTr beta c t * davisRate beta c t) (fun t ht => if_pos ht)
    (fun t ht => sm_eq ht)
    (fun t ht => mul_le_one₀ (davisTr_le_one hc ht) (rate_nonneg hb1 hc ht) (rate_le_one (by linarith) hb1 hc ht))
    (fun t ht => ⟨_, neg_nonpos.2 (mul_nonneg (davisTr_pos hc ht).le (curve_nonneg hb0 hb1 hc ht)),
      davisMed_deriv hc ht⟩)

/-- `t / alpha` grows at most linearly. -/
theorem x_le (hb1 : beta ≤ 1) (hc : 0 < c) (ht : 1 ≤ t) : t / davisAlpha beta c t ≤ c ^ (1 + beta) * t := by
  have hC := Real.rpow_pos_of_pos hc (1 + beta)
  have hp : 1 ≤ t ^ (1 - beta) := Real.one_le_rpow ht (by linarith)
  unfold davisAlpha
  rw [div_div_eq_mul_div, div_le_iff₀ (by linarith)]
  nlinarith [mul_pos (show 0 < t by linarith) hC]

/-- An explicit bound on the transmittance that tends to zero. -/
theorem davisTr_bound (hb1 : beta ≤ 1) (hc : 0 < c) (ht : 1 ≤ t) :
    davisTr beta c t ≤ (1 + c ^ (1 + beta) * t) ^ (-(1 / c ^ (1 + beta))) := by
  have ht0 : 0 < t := by linarith
  have hC := Real.rpow_pos_of_pos hc (1 + beta)
  have ha := alpha_pos (beta := beta) hc ht0
  have hx := div_pos ht0 ha
  have hxl := x_le (beta := beta) hb1 hc ht
  have hr := log_ratio hx hxl
  unfold davisTr
  rw [Real.rpow_def_of_pos (base_pos hc ht0), Real.rpow_def_of_pos (by positivity)]
  apply Real.exp_le_exp.2
  have e : Real.log (1 + c ^ (1 + beta) * t) * (1 / c ^ (1 + beta)) =
      davisAlpha beta c t * (t / davisAlpha beta c t / (c ^ (1 + beta) * t) * Real.log (1 + c ^ (1 + beta) * t)) := by
    field_simp
  have := mul_le_mul_of_nonneg_left hr ha.le
  rw [← e] at this
  linarith

/-! ### Bisection -/

theorem bisect_ends {cdf : ℝ → ℝ} {xi : ℝ} (n : ℕ) {step result : ℝ} (h : step ≤ 2 ^ n * (1 / 1000000)) :
    ∃ r, bisect cdf xi (n + 1) step result = some r := by
  induction n generalizing step result with
  | zero =>
    refine ⟨result, ?_⟩
    rw [bisect, if_neg (by simpa using h)]
  | succ n ih =>
    rw [bisect]
    by_cases hs : step > 1 / 1000000
    · rw [if_pos hs]
      exact ih (by rw [pow_succ] at h; linarith)
    · rw [if_neg hs]
      exact ⟨_, rfl⟩

/-- The loop keeps the answer at most twice the step below any depth that is too small. -/
theorem bisect_lo {cdf : ℝ → ℝ} {xi : ℝ} {lo : ℝ} (hlo : ∀ t, t < lo → cdf t ≤ xi)
    {n : ℕ} {step result r : ℝ} (hstep : 0 < step) (h1 : lo ≤ result + 2 * step)
    (h : bisect cdf xi n step result = some r) : lo ≤ r + 2 / 1000000 := by
  induction n generalizing step result with
  | zero => simp [bisect] at h
  | succ n ih =>
    rw [bisect] at h
    split_ifs at h with hs hc
    · refine ih (by linarith) ?_ h
      have : lo ≤ result := le_of_not_gt fun hl => absurd (hlo _ hl) (not_le.2 hc)
      linarith
    · exact ih (by linarith) (by linarith) h
    · cases h
      linarith

/-- … and at most twice the step above any depth that is too large. -/
theorem bisect_hi {cdf : ℝ → ℝ} {xi : ℝ} {hi : ℝ} (hhi : ∀ t, hi < t → xi < cdf t)
    {n : ℕ} {step result r : ℝ} (hstep : 0 < step) (h2 : result - 2 * step ≤ hi)
    (h : bisect cdf xi n step result = some r) : r - 2 / 1000000 ≤ hi := by
  induction n generalizing step result with
  | zero => simp [bisect] at h
  | succ n ih =>
    rw [bisect] at h
    split_ifs at h with hs hc
    · exact ih (by linarith) (by linarith) h
    · refine ih (by linarith) ?_ h
      have : result ≤ hi := le_of_not_gt fun hl => hc (hhi _ hl)
      linarith
    · cases h
      linarith

end Feign.Media
