import Verif.Media.TransFuncLemmas
import Mathlib.MeasureTheory.Measure.Lebesgue.Basic
import Mathlib.MeasureTheory.Integral.Bochner.Set
import Mathlib.Analysis.SpecialFunctions.Pow.Asymptotics
import Mathlib.Analysis.Complex.ExponentialBounds

/-!
# C82: transmittance functions

Each function describes how far light travels before it meets the medium, in units of optical depth, separately for
paths that start on a surface and paths that start inside the medium. The chance to get through and the density of
the next meeting must fit together, and the sampled depths must follow them.
-/

set_option linter.unusedSectionVars false
set_option linter.unusedSimpArgs false
set_option linter.unusedVariables false

open MeasureTheory Filter Topology

namespace Feign.Media

/-! ### Specification -/

/-- The constants are in range. -/
def TransFn.Valid : TransFn → Prop
  | .exp => True
  | .lin maxT => 0 < maxT
  | .davis beta c => -1 ≤ beta ∧ beta ≤ 1 ∧ 0 < c

/-- The chance to travel the optical depth `t` without meeting the medium (same depth in all channels). -/
noncomputable def TransFn.survive (f : TransFn) (start : Bool) (t : ℝ) : ℝ :=
  (f.surfaceProbability (grey t) start).x

/-- The density of the next meeting at the optical depth `t`. -/
noncomputable def TransFn.density (f : TransFn) (start : Bool) (t : ℝ) : ℝ := (f.mediumPdf (grey t) start).x

/-- The share of the random numbers in `[0, 1)` for which the sampled depth is at most `t`. -/
noncomputable def TransFn.share (f : TransFn) (start : Bool) (t : ℝ) : ENNReal :=
  volume {u : ℝ | 0 ≤ u ∧ u < 1 ∧ ∃ r, f.sample u start = some r ∧ r ≤ t}

/-- Paths from inside the medium for which the Davis function is not a survival function (see
`survive_medium_refuted`). -/
def TransFn.Rough : TransFn → Bool → Prop
  | .davis beta _, false => beta < 0
  | _, _ => False

theorem ofDavis_valid (h c : ℝ) (hc : 0 < c) : (TransFn.ofDavis h c).Valid := by
  simp only [TransFn.ofDavis, TransFn.Valid, clampR]
  split_ifs with h1 h2 <;> refine ⟨?_, ?_, hc⟩ <;> linarith

example : (TransFn.ofDavis (3 / 4) 2).Valid := ofDavis_valid _ _ (by norm_num)

/-! ### Channels -/

/-- **C82 (channels).** In the exponential and the linear function each channel of the result belongs to the same
channel of the depth. -/
theorem channels (f : TransFn) (hf : ∀ beta c, f ≠ .davis beta c) (start : Bool) (tau : V3 ℝ) :
    f.surfaceProbability tau start = ⟨f.survive start tau.x, f.survive start tau.y, f.survive start tau.z⟩ ∧
    f.mediumPdf tau start = ⟨f.density start tau.x, f.density start tau.y, f.density start tau.z⟩ := by
  cases f with
  | davis beta c => exact absurd rfl (hf beta c)
  | exp => cases start <;> exact ⟨rfl, rfl⟩
  | lin m => cases start <;> exact ⟨rfl, rfl⟩

/-- **C82 (channels, Davis).** In the Davis function all three channels of the result belong to the first channel of the
depth, so the other two have no effect. -/
theorem davis_channels (beta c : ℝ) (start : Bool) (tau : V3 ℝ) :
    (TransFn.davis beta c).surfaceProbability tau start = grey ((TransFn.davis beta c).survive start tau.x) ∧
    (TransFn.davis beta c).mediumPdf tau start = grey ((TransFn.davis beta c).density start tau.x) := by
  cases start <;> exact ⟨rfl, rfl⟩

/-- The Davis function reads the first channel only: a medium that lets red pass lets everything pass. -/
theorem channels_refuted : ¬ ∀ (f : TransFn) (tau : V3 ℝ), f.Valid →
    (f.surfaceProbability tau true).y = f.survive true tau.y := by
  intro h
  have := h (.davis 1 1) ⟨0, 1, 0⟩ (by simp [TransFn.Valid])
  have e1 : davisSS 1 1 0 = 1 := if_pos (by norm_num)
  have e2 : davisSS 1 1 1 = 1 / 2 := by
    rw [ss_eq (by norm_num), davisTr, davisAlpha]
    norm_num
  have h1 : davisSS 1 1 0 = davisSS 1 1 1 := this
  rw [e1, e2] at h1
  norm_num at h1

/-! ### Survival -/

theorem survive_exp (start : Bool) (t : ℝ) : TransFn.exp.survive start t = Real.exp (-t) := by
  cases start <;> rfl

theorem survive_lin_surface (m t : ℝ) : (TransFn.lin m).survive true t = 1 - min (t / m) 1 := rfl
theorem survive_lin_medium (m t : ℝ) : (TransFn.lin m).survive false t = if m > t then 1 else 0 := rfl
theorem survive_davis_surface (b c t : ℝ) : (TransFn.davis b c).survive true t = davisSS b c t := rfl
theorem survive_davis_medium (b c t : ℝ) : (TransFn.davis b c).survive false t = davisSM b c t := rfl

/-- **C82 (survival).** Nothing is met at depth zero. -/
theorem survive_zero {f : TransFn} (hf : f.Valid) (start : Bool) : f.survive start 0 = 1 := by
  cases f with
  | exp => simp [survive_exp]
  | lin m =>
    cases start
    · rw [survive_lin_medium, if_pos (show m > 0 from hf)]
    · simp [survive_lin_surface]
  | davis b c =>
    cases start
    · rw [survive_davis_medium]; exact if_pos (by norm_num)
    · rw [survive_davis_surface]; exact if_pos (by norm_num)

/-- **C82 (survival).** The value is a probability. -/
theorem survive_range {f : TransFn} (hf : f.Valid) (start : Bool) {t : ℝ} (ht : 0 ≤ t) :
    0 ≤ f.survive start t ∧ f.survive start t ≤ 1 := by
  cases f with
  | exp =>
    rw [survive_exp]
    exact ⟨(Real.exp_pos _).le, Real.exp_le_one_iff.2 (by linarith)⟩
  | lin m =>
    cases start
    · rw [survive_lin_medium]; split_ifs <;> norm_num
    · rw [survive_lin_surface]
      have h1 : min (t / m) 1 ≤ 1 := min_le_right _ _
      have h2 : 0 ≤ min (t / m) 1 := le_min (div_nonneg ht (le_of_lt hf)) zero_le_one
      constructor <;> linarith
  | davis b c =>
    obtain ⟨h0, h1, hc⟩ := hf
    cases start
    · rw [survive_davis_medium]
      rcases lt_or_ge t (1 / 10000) with h | h
      · have : davisSM b c t = 1 := if_pos h
        rw [this]; norm_num
      · have hp : 0 < t := by linarith
        rw [sm_eq h]
        exact ⟨mul_nonneg (davisTr_pos hc hp).le (rate_nonneg h1 hc hp),
          mul_le_one₀ (davisTr_le_one hc hp) (rate_nonneg h1 hc hp) (rate_le_one h0 h1 hc hp)⟩
    · rw [survive_davis_surface]
      rcases lt_or_ge t (1 / 10000) with h | h
      · have : davisSS b c t = 1 := if_pos h
        rw [this]; norm_num
      · have hp : 0 < t := by linarith
        rw [ss_eq h]
        exact ⟨(davisTr_pos hc hp).le, davisTr_le_one hc hp⟩

/-- **C82 (survival).** Longer ways are never more likely to be travelled. The full claim is for every function and
start; it is missing for paths from inside a medium with a Davis function of `h < 1/2`, where it is false. -/
theorem survive_antitone_partial {f : TransFn} (hf : f.Valid) (start : Bool) (hr : ¬ f.Rough start) :
    Antitone (f.survive start) := by
  cases f with
  | exp =>
    intro a b hab
    rw [survive_exp, survive_exp]
    exact Real.exp_le_exp.2 (by linarith)
  | lin m =>
    have hm : 0 < m := hf
    intro a b hab
    cases start
    · rw [survive_lin_medium, survive_lin_medium]
      split_ifs with h1 h2 <;> first | (exfalso; linarith) | norm_num
    · rw [survive_lin_surface, survive_lin_surface]
      have : min (a / m) 1 ≤ min (b / m) 1 := min_le_min_right _ (div_le_div_of_nonneg_right hab hm.le)
      linarith
  | davis b c =>
    obtain ⟨h0, h1, hc⟩ := hf
    cases start
    · exact sm_antitone (not_lt.1 hr) h1 hc
    · exact ss_antitone h1 hc

/-- From a surface every function falls, the Davis function for every `h`. -/
theorem survive_surface {f : TransFn} (hf : f.Valid) : Antitone (f.survive true) :=
  survive_antitone_partial hf true (by cases f <;> simp [TransFn.Rough])

/-- **C82 (survival) fails** inside a medium for Davis functions with `h < 1/2`: the chance to travel the depth 1 is
larger than the chance to travel the depth 1/100. -/
theorem survive_medium_refuted : ¬ ∀ f : TransFn, f.Valid → Antitone (f.survive false) := by
  intro h
  have h1 := h (.davis (-1) 1) (by norm_num [TransFn.Valid]) (show (1 / 100 : ℝ) ≤ 1 by norm_num)
  rw [survive_davis_medium, survive_davis_medium, sm_eq (by norm_num), sm_eq (by norm_num)] at h1
  have a1 : davisAlpha (-1) 1 1 = 1 := by simp [davisAlpha]
  have a2 : davisAlpha (-1) 1 (1 / 100) = 1 / 10000 := by
    simp only [davisAlpha]
    rw [show (1 : ℝ) - -1 = 2 by norm_num]
    norm_num
  have hl : Real.log 2 > 0.69 := by have := Real.log_two_gt_d9; linarith
  have hl2 : Real.log 2 < 0.7 := by have := Real.log_two_lt_d9; linarith
  have h101 : Real.log 101 ≤ 4.9 := by
    have : Real.log 101 ≤ Real.log (2 ^ 7) := Real.log_le_log (by norm_num) (by norm_num)
    rw [Real.log_pow] at this
    push_cast at this
    linarith
  have b1 : 0.4 ≤ davisTr (-1) 1 1 * davisRate (-1) 1 1 := by
    rw [davisTr, davisRate, a1, Real.rpow_neg_one]
    norm_num
    linarith
  have b2 : davisRate (-1) 1 (1 / 100) ≤ 0.1 := by
    rw [davisRate, a2]
    norm_num
    linarith
  have t0 := davisTr_pos (beta := -1) (c := 1) (t := 1 / 100) (by norm_num) (by norm_num)
  have t1 := davisTr_le_one (beta := -1) (c := 1) (t := 1 / 100) (by norm_num) (by norm_num)
  have r0 := rate_nonneg (beta := -1) (c := 1) (t := 1 / 100) (by norm_num) (by norm_num) (by norm_num)
  nlinarith

/-- **C82 (survival).** Every path ends: the chance tends to zero. -/
theorem survive_tendsto {f : TransFn} (hf : f.Valid) (start : Bool) :
    Tendsto (f.survive start) atTop (𝓝 0) := by
  cases f with
  | exp =>
    have : TransFn.exp.survive start = fun t => Real.exp (-t) := funext (survive_exp start)
    rw [this]
    exact Real.tendsto_exp_neg_atTop_nhds_zero
  | lin m =>
    have hm : 0 < m := hf
    apply tendsto_const_nhds.congr'
    filter_upwards [eventually_ge_atTop m] with t ht
    cases start
    · rw [survive_lin_medium, if_neg (not_lt.2 ht)]
    · rw [survive_lin_surface, min_eq_right ((one_le_div hm).2 ht), sub_self]
  | davis b c =>
    obtain ⟨h0, h1, hc⟩ := hf
    have hC := Real.rpow_pos_of_pos hc (1 + b)
    have hlim : Tendsto (fun t : ℝ => (1 + c ^ (1 + b) * t) ^ (-(1 / c ^ (1 + b)))) atTop (𝓝 0) := by
      refine (tendsto_rpow_neg_atTop (show 0 < 1 / c ^ (1 + b) by positivity)).comp ?_
      exact tendsto_atTop_add_const_left _ _ (tendsto_id.const_mul_atTop hC)
    have hTr : ∀ᶠ t : ℝ in atTop, 0 ≤ (TransFn.davis b c).survive start t ∧
        (TransFn.davis b c).survive start t ≤ (1 + c ^ (1 + b) * t) ^ (-(1 / c ^ (1 + b))) := by
      filter_upwards [eventually_ge_atTop 1] with t ht
      have hp : 0 < t := by linarith
      refine ⟨(survive_range (f := .davis b c) ⟨h0, h1, hc⟩ start hp.le).1, ?_⟩
      refine le_trans ?_ (davisTr_bound h1 hc ht)
      cases start
      · rw [survive_davis_medium, sm_eq (by linarith)]
        exact mul_le_of_le_one_right (davisTr_pos hc hp).le (rate_le_one h0 h1 hc hp)
      · rw [survive_davis_surface, ss_eq (by linarith)]
    exact tendsto_of_tendsto_of_tendsto_of_le_of_le' tendsto_const_nhds hlim (hTr.mono fun _ h => h.1)
      (hTr.mono fun _ h => h.2)

/-! ### Density -/

/-- The depths at which the functions are cut or bent. -/
def TransFn.Edge : TransFn → Bool → ℝ → Prop
  | .exp, _, _ => False
  | .lin maxT, true, t => t = maxT
  | .lin maxT, false, t => maxT - 1 / 1000 ≤ t ∧ t ≤ maxT + 1 / 1000
  | .davis _ _, _, t => t ≤ 1 / 10000

/-- **C82 (density).** The density of the next meeting is the rate at which the chance to get through falls. The full
claim is for all depths outside a countable set; missing is the window of the linear function around its last depth
(where it is false) and the first `1e-4` of the Davis function (where it is cut off). -/
theorem density_deriv_partial {f : TransFn} (hf : f.Valid) (start : Bool) {t : ℝ} (he : ¬ f.Edge start t) :
    HasDerivAt (f.survive start) (-(f.density start t)) t := by
  cases f with
  | exp =>
    have e : TransFn.exp.survive start = fun t => Real.exp (-t) := funext (survive_exp start)
    have d : TransFn.exp.density start t = Real.exp (-t) := by cases start <;> rfl
    rw [e, d]
    have := (hasDerivAt_id t).neg.exp
    refine this.congr_deriv ?_
    simp
  | lin m =>
    have hm : 0 < m := hf
    cases start
    · have d : (TransFn.lin m).density false t = 0 := if_neg he
      rw [d, neg_zero]
      rcases lt_or_ge t (m - 1 / 1000) with h | h
      · refine (hasDerivAt_const t (1 : ℝ)).congr_of_eventuallyEq ?_
        filter_upwards [eventually_lt_nhds h] with s hs
        rw [survive_lin_medium, if_pos (by linarith)]
      · have h' : m + 1 / 1000 < t := by
          by_contra hc
          exact he ⟨h, not_lt.1 hc⟩
        refine (hasDerivAt_const t (0 : ℝ)).congr_of_eventuallyEq ?_
        filter_upwards [eventually_gt_nhds h'] with s hs
        rw [survive_lin_medium, if_neg (by linarith)]
    · have d : (TransFn.lin m).density true t = stepC m t * (1 / m) := rfl
      rw [d]
      rcases lt_or_gt_of_ne he with h | h
      · have hd : HasDerivAt (fun t : ℝ => 1 - t / m) (-(stepC m t * (1 / m))) t := by
          refine (((hasDerivAt_id t).div_const m).const_sub 1).congr_deriv ?_
          simp [stepC, h]
        refine hd.congr_of_eventuallyEq ?_
        filter_upwards [eventually_lt_nhds h] with s hs
        rw [survive_lin_surface, min_eq_left ((div_le_one hm).2 hs.le)]
      · have : stepC m t = 0 := if_neg (by linarith)
        rw [this, zero_mul, neg_zero]
        refine (hasDerivAt_const t (0 : ℝ)).congr_of_eventuallyEq ?_
        filter_upwards [eventually_gt_nhds h] with s hs
        rw [survive_lin_surface, min_eq_right ((one_le_div hm).2 hs.le), sub_self]
  | davis b c =>
    obtain ⟨h0, h1, hc⟩ := hf
    have ht : 1 / 10000 < t := not_le.1 he
    have hp : 0 < t := by linarith
    cases start
    · have d : (TransFn.davis b c).density false t = davisMM b c t := rfl
      rw [d, mm_eq ht.le]
      refine (davisMed_deriv hc hp).congr_of_eventuallyEq ?_
      filter_upwards [eventually_gt_nhds ht] with s hs
      rw [survive_davis_medium, sm_eq hs.le]
    · have d : (TransFn.davis b c).density true t = davisSM b c t := rfl
      rw [d, sm_eq ht.le]
      refine (davisTr_deriv hc hp).congr_of_eventuallyEq ?_
      filter_upwards [eventually_gt_nhds ht] with s hs
      rw [survive_davis_surface, ss_eq hs.le]

example : ¬ (TransFn.ofDavis (3 / 4) 2).Edge false 1 ∧ ¬ (TransFn.lin 2).Edge true 1 := by
  constructor <;> norm_num [TransFn.ofDavis, TransFn.Edge]

/-- **C82 (density) fails** for the linear function inside a medium: at depths just below the last one nothing can be
met (the chance to get through is constant), yet the density is 1. -/
theorem density_refuted : ¬ ∀ (f : TransFn) (t : ℝ), f.Valid → 1 / 10000 < t → t ≠ 1 →
    HasDerivAt (f.survive false) (-(f.density false t)) t := by
  intro h
  have h1 := h (.lin 1) (1 - 1 / 2000) (by norm_num [TransFn.Valid]) (by norm_num) (by norm_num)
  have d : (TransFn.lin 1).density false (1 - 1 / 2000) = 1 := if_pos (by norm_num [grey])
  rw [d] at h1
  have h2 : HasDerivAt ((TransFn.lin 1).survive false) 0 (1 - 1 / 2000) := by
    refine (hasDerivAt_const _ (1 : ℝ)).congr_of_eventuallyEq ?_
    filter_upwards [eventually_lt_nhds (show (1 - 1 / 2000 : ℝ) < 1 by norm_num)] with s hs
    rw [survive_lin_medium, if_pos (by linarith)]
  have := h1.unique h2
  norm_num at this

/-- The density of the linear function inside a medium adds up to 2/1000, not to 1. -/
theorem lin_medium_mass (m : ℝ) : ∫ t, (TransFn.lin m).density false t = 2 / 1000 := by
  have e : (TransFn.lin m).density false = (Set.Icc (m - 1 / 1000) (m + 1 / 1000)).indicator (fun _ => (1 : ℝ)) := by
    funext t
    by_cases h : t ∈ Set.Icc (m - 1 / 1000) (m + 1 / 1000)
    · rw [Set.indicator_of_mem h]; exact if_pos h
    · rw [Set.indicator_of_notMem h]; exact if_neg h
  rw [e, integral_indicator measurableSet_Icc]
  rw [setIntegral_const, Real.volume_real_Icc, max_eq_left (by linarith)]
  simp
  ring

/-- **C82 (density).** Densities are not negative. -/
theorem density_nonneg_partial {f : TransFn} (hf : f.Valid) (start : Bool) (hr : ¬ f.Rough start) {t : ℝ} (ht : 0 ≤ t) :
    0 ≤ f.density start t := by
  cases f with
  | exp => cases start <;> exact (Real.exp_pos _).le
  | lin m =>
    have hm : 0 < m := hf
    cases start
    · show 0 ≤ boxcarC _ _ _
      unfold boxcarC; split_ifs <;> norm_num
    · show 0 ≤ stepC _ _ * _
      unfold stepC; split_ifs <;> simp [hm.le]
  | davis b c =>
    obtain ⟨h0, h1, hc⟩ := hf
    rcases lt_or_ge t (1 / 10000) with h | h
    · have e1 : davisMM b c t = 1 := if_pos h
      have e2 : davisSM b c t = 1 := if_pos h
      cases start
      · show 0 ≤ davisMM b c t
        rw [e1]; norm_num
      · show 0 ≤ davisSM b c t
        rw [e2]; norm_num
    · have hp : 0 < t := by linarith
      cases start
      · show 0 ≤ davisMM b c t
        rw [mm_eq h]
        exact mul_nonneg (davisTr_pos hc hp).le (curve_nonneg (not_lt.1 hr) h1 hc hp)
      · show 0 ≤ davisSM b c t
        rw [sm_eq h]
        exact mul_nonneg (davisTr_pos hc hp).le (rate_nonneg h1 hc hp)

/-! ### Both directions -/

/-- **C82 (direction).** A path from a surface to a point of the medium and the same path backwards fit together: the
density of the first is the mean density of the medium times the chance of the second. -/
theorem reciprocity {f : TransFn} (hf : f.Valid) (tau : V3 ℝ) :
    f.surfaceMedium tau = f.mediumSurface tau * grey f.sigmaBar := by
  cases f with
  | exp => ext <;> simp [TransFn.surfaceMedium, TransFn.mediumSurface, TransFn.sigmaBar, grey]
  | lin m => ext <;> simp [TransFn.surfaceMedium, TransFn.mediumSurface, TransFn.sigmaBar, grey, mapC]
  | davis b c => ext <;> simp [TransFn.surfaceMedium, TransFn.mediumSurface, TransFn.sigmaBar, grey]

/-- **C82 (direction).** The attenuation of a path does not depend on the direction it is travelled in. -/
theorem eval_symm (f : TransFn) (tau : V3 ℝ) (a b : Bool) : f.eval tau a b = f.eval tau b a := by
  cases a <;> cases b <;> rfl

/-- **C82 (evaluation).** What `eval` returns for the four kinds of paths: between surfaces the chance to get
through; to or from a point of the medium the density of meeting it there, divided by the mean density. -/
theorem eval_eq {f : TransFn} (hf : f.Valid) (tau : V3 ℝ) (start : Bool) :
    f.eval tau true true = f.surfaceProbability tau true ∧
    f.eval tau false true = f.surfaceProbability tau false ∧
    f.eval tau start false = divS (f.mediumPdf tau start) f.sigmaBar := by
  refine ⟨rfl, rfl, ?_⟩
  cases start
  · rfl
  · show f.mediumSurface tau = divS (f.surfaceMedium tau) f.sigmaBar
    rw [reciprocity hf]
    have h : f.sigmaBar ≠ 0 := by
      cases f with
      | exp => simp [TransFn.sigmaBar]
      | lin m => have hm : 0 < m := hf; simp [TransFn.sigmaBar, hm.ne']
      | davis b c => simp [TransFn.sigmaBar]
    ext <;> simp [divS, grey, h]

/-! ### Sampling -/

/-- **C82 (sampling).** Sampled depths of the exponential function follow it exactly. -/
theorem exp_share (start : Bool) {t : ℝ} (ht : 0 ≤ t) :
    TransFn.exp.share start t = ENNReal.ofReal (1 - TransFn.exp.survive start t) := by
  have e : {u : ℝ | 0 ≤ u ∧ u < 1 ∧ ∃ r, TransFn.exp.sample u start = some r ∧ r ≤ t} =
      Set.Icc 0 (1 - Real.exp (-t)) := by
    ext u
    simp only [Set.mem_ofPred_eq, Set.mem_Icc]
    have hs : TransFn.exp.sample u start = some (-Real.log (1 - u)) := by cases start <;> rfl
    rw [hs]
    simp only [Option.some.injEq, exists_eq_left']
    constructor
    · rintro ⟨h0, h1, h2⟩
      refine ⟨h0, ?_⟩
      have : Real.exp (-t) ≤ 1 - u := by
        rw [← Real.le_log_iff_exp_le (by linarith)]
        linarith
      linarith
    · rintro ⟨h0, h1⟩
      have hp := Real.exp_pos (-t)
      refine ⟨h0, by linarith, ?_⟩
      have : -t ≤ Real.log (1 - u) := by
        rw [Real.le_log_iff_exp_le (by linarith)]
        linarith
      linarith
  rw [TransFn.share, e, Real.volume_Icc, survive_exp, sub_zero]

/-- **C82 (sampling).** Inside a medium the depths of the linear function follow it exactly. -/
theorem lin_medium_share {m : ℝ} (t : ℝ) :
    (TransFn.lin m).share false t = ENNReal.ofReal (1 - (TransFn.lin m).survive false t) := by
  rw [TransFn.share, survive_lin_medium]
  by_cases h : m ≤ t
  · have e : {u : ℝ | 0 ≤ u ∧ u < 1 ∧ ∃ r, (TransFn.lin m).sample u false = some r ∧ r ≤ t} = Set.Ico 0 1 := by
      ext u
      simp only [Set.mem_ofPred_eq, Set.mem_Ico]
      exact ⟨fun h => ⟨h.1, h.2.1⟩, fun h' => ⟨h'.1, h'.2, m, rfl, h⟩⟩
    rw [e, Real.volume_Ico, if_neg (not_lt.2 h)]
  · have e : {u : ℝ | 0 ≤ u ∧ u < 1 ∧ ∃ r, (TransFn.lin m).sample u false = some r ∧ r ≤ t} = ∅ := by
      ext u
      simp only [Set.mem_ofPred_eq, Set.mem_empty_iff_false, iff_false]
      rintro ⟨-, -, r, hr, hle⟩
      cases hr
      exact h hle
    rw [e, measure_empty, if_pos (not_le.1 h)]
    simp

/-- What the linear function samples from a surface: depths up to `0.99999 maxT` only. -/
theorem lin_surface_share {m t : ℝ} (hm : 0 < m) (ht : 0 ≤ t) :
    (TransFn.lin m).share true t = ENNReal.ofReal (min (t / (m * (1 - 1 / 100000))) 1) := by
  have hk : 0 < m * (1 - 1 / 100000) := by linarith
  have key : ∀ u : ℝ, (0 ≤ u ∧ u < 1 ∧ ∃ r, (TransFn.lin m).sample u true = some r ∧ r ≤ t) ↔
      0 ≤ u ∧ u < 1 ∧ u ≤ t / (m * (1 - 1 / 100000)) := by
    intro u
    have hs : (TransFn.lin m).sample u true = some (m * (1 - 1 / 100000) * u) := rfl
    rw [hs]
    simp only [Option.some.injEq, exists_eq_left']
    rw [le_div_iff₀ hk, mul_comm u]
  have hq : 0 ≤ t / (m * (1 - 1 / 100000)) := by positivity
  rw [TransFn.share]
  simp only [key]
  generalize t / (m * (1 - 1 / 100000)) = q at hq
  rcases lt_or_ge q 1 with h | h
  · have e : {u : ℝ | 0 ≤ u ∧ u < 1 ∧ u ≤ q} = Set.Icc 0 q := by
      ext u
      simp only [Set.mem_ofPred_eq, Set.mem_Icc]
      exact ⟨fun h' => ⟨h'.1, h'.2.2⟩, fun h' => ⟨h'.1, by linarith, h'.2⟩⟩
    rw [e, Real.volume_Icc, min_eq_left h.le, sub_zero]
  · have e : {u : ℝ | 0 ≤ u ∧ u < 1 ∧ u ≤ q} = Set.Ico 0 1 := by
      ext u
      simp only [Set.mem_ofPred_eq, Set.mem_Ico]
      exact ⟨fun h' => ⟨h'.1, h'.2.1⟩, fun h' => ⟨h'.1, h'.2, by linarith⟩⟩
    rw [e, Real.volume_Ico, min_eq_right h, sub_zero]

/-- **C82 (sampling).** The full claim is equality with the chance not to get through; the shares of the linear
function from a surface are off by at most `1e-5`, and it is false without that slack (`lin_surface_refuted`). -/
theorem lin_surface_share_partial {m t : ℝ} (hm : 0 < m) (ht : 0 ≤ t) :
    ∃ p : ℝ, (TransFn.lin m).share true t = ENNReal.ofReal p ∧
      1 - (TransFn.lin m).survive true t ≤ p ∧ p ≤ 1 - (TransFn.lin m).survive true t + 1 / 100000 := by
  refine ⟨_, lin_surface_share hm ht, ?_⟩
  rw [survive_lin_surface]
  have e : t / (m * (1 - 1 / 100000)) = t / m * (100000 / 99999) := by field_simp; norm_num
  rw [e]
  have hq : 0 ≤ t / m := by positivity
  generalize t / m = q at hq
  rcases le_total q 1 with h | h
  · rw [min_eq_left h]
    rcases le_total (q * (100000 / 99999)) 1 with h' | h'
    · rw [min_eq_left h']; constructor <;> linarith
    · rw [min_eq_right h']; constructor <;> linarith
  · rw [min_eq_right h, min_eq_right (by linarith)]; constructor <;> linarith

theorem lin_surface_refuted : ¬ ∀ m t : ℝ, 0 < m → 0 ≤ t →
    (TransFn.lin m).share true t = ENNReal.ofReal (1 - (TransFn.lin m).survive true t) := by
  intro h
  have h1 := h 1 (1 / 2) (by norm_num) (by norm_num)
  rw [lin_surface_share (by norm_num) (by norm_num), survive_lin_surface,
    ENNReal.ofReal_eq_ofReal_iff (by positivity) (by norm_num)] at h1
  norm_num at h1

/-- The Davis search always ends. -/
theorem davis_search_ends (b c u : ℝ) (start : Bool) : ∃ r, (TransFn.davis b c).sample u start = some r := by
  cases start <;> exact bisect_ends 40 (by norm_num)

/-- The Davis search is the bisection of the survival function. -/
theorem davis_sample_eq (b c u : ℝ) (start : Bool) : (TransFn.davis b c).sample u start =
    bisect (fun tau => 1 - (TransFn.davis b c).survive start tau) u 41 1000000 2000000 := by
  cases start <;> rfl

/-- **C82 (sampling).** The depth found by the search of the Davis function is within `2e-6` of the depth at which the
chance of a meeting reaches the random number, as long as that depth is below `4e6`. -/
theorem davis_search_partial {b c u : ℝ} (hf : (TransFn.davis b c).Valid) {start : Bool}
    (hr : ¬ (TransFn.davis b c).Rough start) (hu : 0 ≤ u) {r : ℝ} (h : (TransFn.davis b c).sample u start = some r) :
    (∀ s, s < r - 2 / 1000000 → 1 - (TransFn.davis b c).survive start s ≤ u) ∧
    (∀ s, r + 2 / 1000000 < s → s ≤ 4000000 → u < 1 - (TransFn.davis b c).survive start s) := by
  have hanti := survive_antitone_partial hf start hr
  rw [davis_sample_eq] at h
  constructor
  · intro s hs
    by_contra hc
    rw [not_le] at hc
    have hs0 : 0 ≤ s := by
      by_contra hneg
      have h1 := hanti (not_le.1 hneg).le
      rw [survive_zero hf] at h1
      linarith
    have hpast : ∀ t : ℝ, s < t → u < 1 - (TransFn.davis b c).survive start t := by
      intro t ht
      have := hanti ht.le
      linarith
    have := bisect_hi hpast (by norm_num) (by linarith) h
    linarith
  · intro s hs h4
    by_contra hc
    rw [not_lt] at hc
    have hpast : ∀ t : ℝ, t < s → 1 - (TransFn.davis b c).survive start t ≤ u := by
      intro t ht
      have := hanti ht.le
      linarith
    have := bisect_lo hpast (by norm_num) (by linarith) h
    linarith

/-- **C82 (sampling).** The share of depths up to `t` that the Davis function samples lies between the chances to have
met the medium at any depths `2e-6` before and after `t`. -/
theorem davis_share_partial {b c : ℝ} (hf : (TransFn.davis b c).Valid) {start : Bool}
    (hr : ¬ (TransFn.davis b c).Rough start) {s t s' : ℝ} (h0 : 0 ≤ s) (h1 : s < t - 2 / 1000000)
    (h2 : t + 2 / 1000000 < s') (h3 : s' ≤ 4000000) :
    ENNReal.ofReal (1 - (TransFn.davis b c).survive start s) ≤ (TransFn.davis b c).share start t ∧
    (TransFn.davis b c).share start t ≤ ENNReal.ofReal (1 - (TransFn.davis b c).survive start s') := by
  constructor
  · have hsub : Set.Ico 0 (1 - (TransFn.davis b c).survive start s) ⊆
        {u : ℝ | 0 ≤ u ∧ u < 1 ∧ ∃ r, (TransFn.davis b c).sample u start = some r ∧ r ≤ t} := by
      rintro u ⟨hu0, hu1⟩
      have hpos := (survive_range hf start h0).1
      obtain ⟨r, hsam⟩ := davis_search_ends b c u start
      refine ⟨hu0, by linarith, r, hsam, ?_⟩
      by_contra hc
      have := (davis_search_partial hf hr hu0 hsam).1 s (by linarith [not_le.1 hc])
      linarith
    have := measure_mono (μ := volume) hsub
    rwa [Real.volume_Ico, sub_zero] at this
  · have hsub : {u : ℝ | 0 ≤ u ∧ u < 1 ∧ ∃ r, (TransFn.davis b c).sample u start = some r ∧ r ≤ t} ⊆
        Set.Ico 0 (1 - (TransFn.davis b c).survive start s') := by
      rintro u ⟨hu0, hu1, r, hsam, hrt⟩
      exact ⟨hu0, (davis_search_partial hf hr hu0 hsam).2 s' (by linarith) h3⟩
    have := measure_mono (μ := volume) hsub
    rwa [Real.volume_Ico, sub_zero] at this

example : ¬ (TransFn.ofDavis (3 / 4) 2).Rough false := by
  norm_num [TransFn.ofDavis, TransFn.Rough, clampR]

end Feign.Media
