import Verif.Media.Poisson
import Verif.Media.SampleProps
import Mathlib.Topology.Algebra.Polynomial

/-!
# C74: tracking estimators have the right expectation and the right distribution
-/

set_option linter.unusedSectionVars false

namespace Feign.Media

open MeasureTheory Set Filter Topology

/-! ## Specification -/

/-- The average of `f` over `n` independent random numbers, each uniform in `[0, 1]`. -/
noncomputable def mean : ℕ → (List ℝ → ℝ) → ℝ
  | 0, f => f []
  | n + 1, f => ∫ u in (0 : ℝ)..1, mean n fun us => f (u :: us)

/-- A channel of a colour. -/
inductive Channel where
  | red | green | blue

def Channel.of (v : V3 ℝ) : Channel → ℝ
  | red => v.x
  | green => v.y
  | blue => v.z

/-- A channel of what a call returned; nothing (0) while it is still running. -/
def valueOf (c : Channel) : Option (V3 ℝ) → ℝ
  | none => 0
  | some v => c.of v

/-- The share of walks that report a distance before `x`. -/
noncomputable def before (x : ℝ) : Option (WithTop ℝ) → ℝ
  | none => 0
  | some r => if r < (x : WithTop ℝ) then 1 else 0

/-- The share of walks that report a distance at or after `x`. -/
noncomputable def after (x : ℝ) : Option (WithTop ℝ) → ℝ
  | none => 0
  | some r => if r < (x : WithTop ℝ) then 0 else 1

/-- Continuous except at countably many points. -/
def AlmostContinuous (f : ℝ → ℝ) : Prop := ∃ S : Set ℝ, S.Countable ∧ ∀ t, t ∉ S → ContinuousAt f t

/-! ## Averages -/

theorem mean_const (n : ℕ) (c : ℝ) : mean n (fun _ => c) = c := by
  induction n with
  | zero => rfl
  | succ n ih => simp only [mean, ih]; simp

theorem mean_mul (n : ℕ) (c : ℝ) (f : List ℝ → ℝ) : mean n (fun us => c * f us) = c * mean n f := by
  induction n generalizing f with
  | zero => rfl
  | succ n ih => simp only [mean, ih]; simp

theorem mean_congr (n : ℕ) (f g : List ℝ → ℝ) (h : ∀ us, (∀ u ∈ us, 0 ≤ u ∧ u < 1) → f us = g us) :
    mean n f = mean n g := by
  induction n generalizing f g with
  | zero => exact h [] (by simp)
  | succ n ih =>
    simp only [mean]
    apply intervalIntegral.integral_congr_ae
    have hne : ∀ᵐ u : ℝ, u ≠ 1 := by simp [ae_iff]
    filter_upwards [hne] with u hu1 hu
    rw [uIoc_of_le zero_le_one] at hu
    apply ih
    intro us hus
    apply h
    intro v hv
    rcases List.mem_cons.1 hv with rfl | hv
    · exact ⟨hu.1.le, lt_of_le_of_ne hu.2 hu1⟩
    · exact hus v hv

theorem AlmostContinuous.measurable {f : ℝ → ℝ} (h : AlmostContinuous f) : Measurable f := by
  obtain ⟨S, hS, hc⟩ := h
  classical
  have h1 : ContinuousOn f Sᶜ := fun t ht => (hc t ht).continuousWithinAt
  have h2 : Measurable (Sᶜ.piecewise f fun _ => (0 : ℝ)) := by
    refine ContinuousOn.measurable_piecewise h1 ?_ hS.measurableSet.compl
    exact continuousOn_const
  refine h2.measurable_of_countable_ne (hS.mono ?_)
  intro t ht
  by_contra hn
  exact ht (Set.piecewise_eq_of_mem _ _ _ hn)

theorem rate_of (maj : ℝ) (hm : 0 < maj) (σ : ℝ → ℝ) (h0 : ∀ t, 0 ≤ σ t) (hσ : AlmostContinuous σ) :
    Rate (fun t => maj - min (σ t) maj) maj := by
  have hme := hσ.measurable
  refine ⟨hm, by fun_prop, fun t => by linarith [min_le_right (σ t) maj], fun t => ?_, ?_⟩
  · linarith [le_min (h0 t) hm.le]
  · obtain ⟨S, hS, hc⟩ := hσ
    refine ⟨S, hS, fun t ht => ?_⟩
    have := hc t ht
    fun_prop

/-! ## Ratio tracking -/

theorem ratioLoop_next (maj tMax : ℝ) (hm : 0 < maj) (ext : ℝ → V3 ℝ) (u : ℝ) (us : List ℝ) (t : ℝ) (tr : V3 ℝ) :
    ratioLoop maj tMax ext (u :: us) t tr =
      if tMax ≤ next maj t u then some tr
      else ratioLoop maj tMax ext us (next maj t u)
        (tr * ⟨ratio maj (ext (next maj t u)).x, ratio maj (ext (next maj t u)).y, ratio maj (ext (next maj t u)).z⟩) := by
  rw [ratioLoop]
  have : flight maj t u = some ((next maj t u : ℝ) : WithTop ℝ) := by rw [flight, if_neg hm.ne']; rfl
  rw [this]
  rfl

theorem ratioLoop_scale (maj tMax : ℝ) (hm : 0 < maj) (ext : ℝ → V3 ℝ) (c : Channel) (us : List ℝ) (t : ℝ)
    (tr : V3 ℝ) :
    valueOf c (ratioLoop maj tMax ext us t tr) = c.of tr * valueOf c (ratioLoop maj tMax ext us t (grey 1)) := by
  induction us generalizing t tr with
  | nil => simp [ratioLoop, valueOf]
  | cons u us ih =>
    rw [ratioLoop_next _ _ hm, ratioLoop_next _ _ hm]
    split_ifs with h
    · cases c <;> simp [valueOf, Channel.of, grey]
    · rw [ih, ih _ (grey 1 * _)]
      cases c <;> simp [Channel.of, grey, mul_assoc]

theorem mean_ratio (maj tMax : ℝ) (hm : 0 < maj) (ext : ℝ → V3 ℝ) (c : Channel) (n : ℕ) (t : ℝ) :
    mean n (fun us => valueOf c (ratioLoop maj tMax ext us t (grey 1))) =
      walk (fun t => maj - min (c.of (ext t)) maj) maj tMax 0 n t := by
  induction n generalizing t with
  | zero => rfl
  | succ n ih =>
    simp only [mean, walk]
    congr 1
    funext u
    simp only [ratioLoop_next _ _ hm, stepF]
    by_cases h : tMax ≤ next maj t u
    · simp only [if_pos h]
      have : valueOf c (some (grey 1)) = 1 := by cases c <;> rfl
      rw [this, mean_const]
    · simp only [if_neg h]
      rw [← ih, ← mean_mul]
      congr 1
      funext us
      rw [ratioLoop_scale _ _ hm]
      congr 1
      cases c <;> simp [Channel.of, grey, ratio_eq]

/-- C74: as the number of random numbers available to the loop grows, the average of what ratio tracking returns tends
to the transmittance of an extinction cut off at the majorant, in every channel and for every positive majorant. -/
theorem ratio_tracking_mean (maj tMin tMax : ℝ) (hm : 0 < maj) (ht : tMin ≤ tMax) (D : ℝ → V3 ℝ) (sigma_t : V3 ℝ)
    (c : Channel) (h0 : ∀ t, 0 ≤ c.of (D t * sigma_t)) (hc : AlmostContinuous fun t => c.of (D t * sigma_t)) :
    ∃ f : List ℝ → Option (V3 ℝ),
      (∀ us fuel, transmittance (.ratioTracking maj) D sigma_t tMin tMax us fuel = .ok (f us)) ∧
      Tendsto (fun n => mean n fun us => valueOf c (f us)) atTop
        (𝓝 (Real.exp (-∫ t in tMin..tMax, min (c.of (D t * sigma_t)) maj))) := by
  refine ⟨_, fun us fuel => rfl, ?_⟩
  simp only [mean_ratio _ _ hm]
  have := walk_tendsto (rate_of maj hm _ h0 hc) ht (Or.inl rfl : (0 : ℝ) = 0 ∨ (0 : ℝ) = 1)
  simpa only [sub_sub_cancel] using this

/-- C74: with a majorant that really bounds the extinction, ratio tracking is unbiased. -/
theorem ratio_tracking_unbiased (maj tMin tMax : ℝ) (hm : 0 < maj) (ht : tMin ≤ tMax) (D : ℝ → V3 ℝ)
    (sigma_t : V3 ℝ) (c : Channel) (h0 : ∀ t, 0 ≤ c.of (D t * sigma_t))
    (hle : ∀ t, c.of (D t * sigma_t) ≤ maj) (hc : AlmostContinuous fun t => c.of (D t * sigma_t)) :
    ∃ f : List ℝ → Option (V3 ℝ),
      (∀ us fuel, transmittance (.ratioTracking maj) D sigma_t tMin tMax us fuel = .ok (f us)) ∧
      Tendsto (fun n => mean n fun us => valueOf c (f us)) atTop
        (𝓝 (Real.exp (-∫ t in tMin..tMax, c.of (D t * sigma_t)))) := by
  obtain ⟨f, h1, h2⟩ := ratio_tracking_mean maj tMin tMax hm ht D sigma_t c h0 hc
  refine ⟨f, h1, ?_⟩
  simpa only [min_eq_left (hle _)] using h2

/-- C74 fails for a majorant that is too small, which nothing rejects: with extinction 2 and majorant 1 over a unit
segment the estimates average to `exp(-1)` instead of `exp(-2)`. -/
theorem ratio_tracking_biased_refuted :
    ∃ f : List ℝ → Option (V3 ℝ),
      (∀ us fuel, transmittance (.ratioTracking 1) (fun _ => grey 2) (grey 1) 0 1 us fuel = .ok (f us)) ∧
      Tendsto (fun n => mean n fun us => valueOf .red (f us)) atTop (𝓝 (Real.exp (-1))) ∧
      Real.exp (-1) ≠ Real.exp (-∫ _ in (0 : ℝ)..1, Channel.red.of (grey 2 * grey 1)) := by
  obtain ⟨f, h1, h2⟩ := ratio_tracking_mean 1 0 1 one_pos zero_le_one (fun _ => grey 2) (grey 1) .red
    (fun _ => by norm_num [Channel.of, grey]) ⟨∅, countable_empty, fun _ _ => continuousAt_const⟩
  refine ⟨f, h1, ?_, ?_⟩
  · have : (-∫ t in (0 : ℝ)..1, min (Channel.red.of (grey 2 * grey 1)) 1) = -1 := by
      norm_num [Channel.of, grey]
    rwa [this] at h2
  · rw [Ne, Real.exp_eq_exp]
    norm_num [Channel.of, grey]

/-! ## Delta tracking -/

theorem deltaLoop_next (maj tMax : ℝ) (hm : 0 < maj) (dense : ℝ → ℝ) (u v : ℝ) (us : List ℝ) (t : ℝ) :
    deltaLoop maj tMax dense (u :: v :: us) t =
      if tMax ≤ next maj t u then some ((next maj t u : ℝ) : WithTop ℝ)
      else if v < dense (next maj t u) / maj then some ((next maj t u : ℝ) : WithTop ℝ)
      else deltaLoop maj tMax dense us (next maj t u) := by
  rw [deltaLoop]
  have : flight maj t u = some ((next maj t u : ℝ) : WithTop ℝ) := by rw [flight, if_neg hm.ne']; rfl
  rw [this]

theorem integrable_reject (p c a b : ℝ) : IntervalIntegrable (fun v => if v < p then 0 else c) volume a b := by
  rw [intervalIntegrable_iff]
  refine Measure.integrableOn_of_bounded (M := |c|) measure_Ioc_lt_top.ne ?_ ?_
  · exact (Measurable.ite measurableSet_Iio measurable_const measurable_const).aestronglyMeasurable
  · filter_upwards with v
    split_ifs
    · simp
    · exact le_rfl

theorem integral_reject (p c : ℝ) (hp : 0 ≤ p) :
    ∫ v in (0 : ℝ)..1, (if v < p then 0 else c) = (1 - min p 1) * c := by
  have hq0 : 0 ≤ min p 1 := le_min hp zero_le_one
  have hq1 : min p 1 ≤ 1 := min_le_right _ _
  have hi := integrable_reject p c
  rw [← intervalIntegral.integral_add_adjacent_intervals (hi 0 (min p 1)) (hi (min p 1) 1)]
  have h1 : ∫ v in (0 : ℝ)..(min p 1), (if v < p then 0 else c) = ∫ v in (0 : ℝ)..(min p 1), (0 : ℝ) := by
    apply intervalIntegral.integral_congr_ae
    have hne : ∀ᵐ v : ℝ, v ≠ p := by simp [ae_iff]
    filter_upwards [hne] with v hv hmem
    rw [uIoc_of_le hq0] at hmem
    rw [if_pos (lt_of_le_of_ne (hmem.2.trans (min_le_left _ _)) hv)]
  have h2 : ∫ v in (min p 1)..1, (if v < p then 0 else c) = ∫ v in (min p 1)..1, c := by
    apply intervalIntegral.integral_congr_ae
    filter_upwards with v hmem
    rw [uIoc_of_le hq1] at hmem
    rw [if_neg]
    intro hlt
    rcases min_choice p 1 with h | h
    · rw [h] at hmem; exact lt_asymm hlt hmem.1
    · rw [h] at hmem; exact absurd hmem.2 (not_le.2 hmem.1)
  rw [h1, h2]
  simp

/-- "Left the segment, or (for `c = 1`) still running". -/
noncomputable def alive (c x : ℝ) : Option (WithTop ℝ) → ℝ
  | none => c
  | some r => if r < (x : WithTop ℝ) then 0 else 1

theorem mean_delta (maj tMax : ℝ) (hm : 0 < maj) (dense : ℝ → ℝ) (hd : ∀ t, 0 ≤ dense t) (c : ℝ) (n : ℕ) (t : ℝ) :
    mean (2 * n) (fun us => alive c tMax (deltaLoop maj tMax dense us t)) =
      walk (fun t => maj - min (dense t) maj) maj tMax c n t := by
  induction n generalizing t with
  | zero => rfl
  | succ n ih =>
    rw [Nat.mul_succ]
    simp only [mean, walk]
    congr 1
    funext u
    simp only [deltaLoop_next _ _ hm, stepF]
    by_cases h : tMax ≤ next maj t u
    · simp only [if_pos h]
      have : alive c tMax (some ((next maj t u : ℝ) : WithTop ℝ)) = 1 := by
        rw [alive, if_neg (by rw [WithTop.coe_lt_coe]; exact not_lt.2 h)]
      simp only [this, mean_const]
      simp
    · simp only [if_neg h]
      have h0 : alive c tMax (some ((next maj t u : ℝ) : WithTop ℝ)) = 0 := by
        rw [alive, if_pos (by rw [WithTop.coe_lt_coe]; exact not_le.1 h)]
      have hif : ∀ v : ℝ, (mean (2 * n) fun us => alive c tMax
          (if v < dense (next maj t u) / maj then some ((next maj t u : ℝ) : WithTop ℝ)
            else deltaLoop maj tMax dense us (next maj t u))) =
          if v < dense (next maj t u) / maj then 0
          else walk (fun t => maj - min (dense t) maj) maj tMax c n (next maj t u) := by
        intro v
        split_ifs with hv
        · rw [h0, mean_const]
        · exact ih _
      simp only [hif]
      rw [integral_reject _ _ (div_nonneg (hd _) hm.le)]
      congr 1
      rw [sub_div, div_self hm.ne', ← min_div_div_right hm.le, div_self hm.ne']

/-- Cutting the segment short does not change which scattering events happen before its new end. -/
theorem deltaLoop_cut (maj tMax x : ℝ) (hm : 0 < maj) (hx : x ≤ tMax) (dense : ℝ → ℝ) (n : ℕ) (us : List ℝ)
    (hn : us.length = 2 * n) (hus : ∀ u ∈ us, 0 ≤ u ∧ u < 1) (t : ℝ) :
    before x (deltaLoop maj tMax dense us t) = before x (deltaLoop maj x dense us t) := by
  have late : ∀ (n : ℕ) (us : List ℝ), us.length = 2 * n → (∀ u ∈ us, 0 ≤ u ∧ u < 1) → ∀ t, x ≤ t →
      before x (deltaLoop maj tMax dense us t) = 0 := by
    intro n
    induction n with
    | zero =>
      intro us hn _ t _
      rw [List.length_eq_zero_iff.1 hn]
      rfl
    | succ n ih =>
      intro us hn hus t ht
      match us, hn, hus with
      | u :: v :: us, hn, hus =>
        have hu := hus u (by simp)
        have hle := le_next hm t hu.1 hu.2.le
        have h0 : before x (some ((next maj t u : ℝ) : WithTop ℝ)) = 0 := by
          rw [before, if_neg (by rw [WithTop.coe_lt_coe]; linarith)]
        rw [deltaLoop_next _ _ hm]
        split_ifs
        · exact h0
        · exact h0
        · exact ih us (by simp at hn; omega) (fun w hw => hus w (by simp [hw])) _ (by linarith)
  induction n generalizing us t with
  | zero => rw [List.length_eq_zero_iff.1 hn]; rfl
  | succ n ih =>
    match us, hn, hus with
    | u :: v :: us, hn, hus =>
      have hus' : ∀ w ∈ us, 0 ≤ w ∧ w < 1 := fun w hw => hus w (by simp [hw])
      have hlen : us.length = 2 * n := by simp at hn; omega
      rw [deltaLoop_next _ _ hm, deltaLoop_next _ _ hm]
      by_cases h1 : x ≤ next maj t u
      · have h0 : before x (some ((next maj t u : ℝ) : WithTop ℝ)) = 0 := by
          rw [before, if_neg (by rw [WithTop.coe_lt_coe]; exact not_lt.2 h1)]
        rw [if_pos h1, h0]
        split_ifs
        · exact h0
        · exact h0
        · exact late n us hlen hus' _ h1
      · rw [if_neg h1, if_neg (by linarith)]
        split_ifs
        · rfl
        · exact ih us hlen hus' _

theorem mean_before (maj x : ℝ) (dense : ℝ → ℝ) (hd : ∀ t, 0 ≤ dense t)
    (hr : Rate (fun t => maj - min (dense t) maj) maj) (n : ℕ) (t : ℝ) :
    mean (2 * n) (fun us => before x (deltaLoop maj x dense us t)) =
      1 - walk (fun t => maj - min (dense t) maj) maj x 1 n t := by
  have hm := hr.pos
  induction n generalizing t with
  | zero => simp [mean, walk, deltaLoop, before]
  | succ n ih =>
    rw [Nat.mul_succ]
    simp only [mean, walk]
    have hi := hr.stepF_integrable (walk_measurable (T := x) hr 1 n) (walk_range hr zero_le_one le_rfl n) t 0 1
    have hone : (1 : ℝ) = ∫ u in (0 : ℝ)..1, (1 : ℝ) := by simp
    have hsub : 1 - ∫ u in (0 : ℝ)..1, stepF (fun t => maj - min (dense t) maj) maj x
        (walk (fun t => maj - min (dense t) maj) maj x 1 n) t u = ∫ u in (0 : ℝ)..1, (1 - stepF (fun t => maj -
          min (dense t) maj) maj x (walk (fun t => maj - min (dense t) maj) maj x 1 n) t u) := by
      rw [intervalIntegral.integral_sub intervalIntegrable_const hi, ← hone]
    rw [hsub]
    congr 1
    funext u
    simp only [deltaLoop_next _ _ hm, stepF]
    by_cases h : x ≤ next maj t u
    · simp only [if_pos h]
      have : before x (some ((next maj t u : ℝ) : WithTop ℝ)) = 0 := by
        rw [before, if_neg (by rw [WithTop.coe_lt_coe]; exact not_lt.2 h)]
      simp only [this, mean_const]
      simp
    · simp only [if_neg h]
      have h0 : before x (some ((next maj t u : ℝ) : WithTop ℝ)) = 1 := by
        rw [before, if_pos (by rw [WithTop.coe_lt_coe]; exact not_le.1 h)]
      have hif : ∀ v : ℝ, (mean (2 * n) fun us => before x
          (if v < dense (next maj t u) / maj then some ((next maj t u : ℝ) : WithTop ℝ)
            else deltaLoop maj x dense us (next maj t u))) =
          1 - if v < dense (next maj t u) / maj then 0
          else walk (fun t => maj - min (dense t) maj) maj x 1 n (next maj t u) := by
        intro v
        split_ifs with hv
        · rw [h0, mean_const, sub_zero]
        · exact ih _
      simp only [hif]
      rw [intervalIntegral.integral_sub intervalIntegrable_const (integrable_reject _ _ _ _),
        integral_reject _ _ (div_nonneg (hd _) hm.le), ← hone]
      congr 2
      rw [sub_div, div_self hm.ne', ← min_div_div_right hm.le, div_self hm.ne']

/-- `f` gets its random numbers only from lists of even length. -/
theorem mean_congr_len (n : ℕ) (f g : List ℝ → ℝ)
    (h : ∀ us, us.length = n → (∀ u ∈ us, 0 ≤ u ∧ u < 1) → f us = g us) : mean n f = mean n g := by
  induction n generalizing f g with
  | zero => exact h [] rfl (by simp)
  | succ n ih =>
    simp only [mean]
    apply intervalIntegral.integral_congr_ae
    have hne : ∀ᵐ u : ℝ, u ≠ 1 := by simp [ae_iff]
    filter_upwards [hne] with u hu1 hu
    rw [uIoc_of_le zero_le_one] at hu
    apply ih
    intro us hl hus
    refine h _ (by simp [hl]) ?_
    intro v hv
    rcases List.mem_cons.1 hv with rfl | hv
    · exact ⟨hu.1.le, lt_of_le_of_ne hu.2 hu1⟩
    · exact hus v hv

/-- C74: delta tracking with a positive majorant scatters before a distance `x` of the segment with the probability
that the extinction cut off at the majorant asks for, and leaves the segment with the corresponding transmittance.
(The extinction is that of the least dense channel.) -/
theorem delta_tracking_distribution (maj tMin tMax : ℝ) (hm : 0 < maj) (ht : tMin ≤ tMax) (D : ℝ → V3 ℝ)
    (sigma_t : V3 ℝ) (h0 : ∀ t, 0 ≤ (D t * sigma_t).maxOp)
    (hc : AlmostContinuous fun t => (D t * sigma_t).maxOp) (fuel : ℕ) :
    (∀ x, tMin ≤ x → x ≤ tMax →
      Tendsto (fun n => mean (2 * n) fun us => before x (sampleT (.delta maj) D sigma_t tMin tMax us fuel)) atTop
        (𝓝 (1 - Real.exp (-∫ t in tMin..x, min (D t * sigma_t).maxOp maj)))) ∧
    Tendsto (fun n => mean (2 * n) fun us => after tMax (sampleT (.delta maj) D sigma_t tMin tMax us fuel)) atTop
      (𝓝 (Real.exp (-∫ t in tMin..tMax, min (D t * sigma_t).maxOp maj))) := by
  have hr := rate_of maj hm _ h0 hc
  refine ⟨fun x hx hxT => ?_, ?_⟩
  · have h := (walk_tendsto hr hx (Or.inr rfl : (1 : ℝ) = 0 ∨ (1 : ℝ) = 1)).const_sub 1
    simp only [sub_sub_cancel] at h
    refine h.congr fun n => ?_
    rw [← mean_before maj x _ h0 hr n tMin]
    apply mean_congr_len
    intro us hl hus
    exact (deltaLoop_cut maj tMax x hm hxT _ n us hl hus tMin).symm
  · have h := walk_tendsto hr ht (Or.inl rfl : (0 : ℝ) = 0 ∨ (0 : ℝ) = 1)
    simp only [sub_sub_cancel] at h
    refine h.congr fun n => ?_
    rw [← mean_delta maj tMax hm _ h0 0 n tMin]
    rfl

/-! ## The implemented densities are covered -/

/-- A function of `t` that is constant near every point outside a finite set. -/
def Steps {α : Type} (f : ℝ → α) : Prop := ∃ S : Set ℝ, S.Finite ∧ ∀ t, t ∉ S → ∀ᶠ s in 𝓝 t, f s = f t

theorem Steps.const {α : Type} (a : α) : Steps fun _ => a :=
  ⟨∅, finite_empty, fun _ _ => Eventually.of_forall fun _ => rfl⟩

theorem Steps.map {α β : Type} {f : ℝ → α} (h : Steps f) (g : α → β) : Steps fun t => g (f t) := by
  obtain ⟨S, hS, hf⟩ := h
  exact ⟨S, hS, fun t ht => (hf t ht).mono fun s hs => congrArg g hs⟩

theorem Steps.map₂ {α β γ : Type} {f : ℝ → α} {f' : ℝ → β} (h : Steps f) (h' : Steps f') (g : α → β → γ) :
    Steps fun t => g (f t) (f' t) := by
  obtain ⟨S, hS, hf⟩ := h
  obtain ⟨S', hS', hf'⟩ := h'
  refine ⟨S ∪ S', hS.union hS', fun t ht => ?_⟩
  filter_upwards [hf t fun h => ht (Or.inl h), hf' t fun h => ht (Or.inr h)] with s a b
  rw [a, b]

theorem Steps.ite {α : Type} {p : ℝ → Prop} [DecidablePred p] {f g : ℝ → α} (hp : Steps p) (hf : Steps f)
    (hg : Steps g) : Steps fun t => if p t then f t else g t := by
  classical
  have := (hp.map₂ hf fun a b => (a, b)).map₂ hg fun ab c => if ab.1 then ab.2 else c
  convert this using 1
  funext t
  split_ifs <;> rfl

/-- The sign of a polynomial changes at finitely many points only. -/
theorem steps_poly (P : Polynomial ℝ) : Steps (fun t => P.eval t ≤ 0) ∧ Steps (fun t => P.eval t < 0) := by
  by_cases h0 : P = 0
  · subst h0
    simp only [Polynomial.eval_zero]
    exact ⟨Steps.const _, Steps.const _⟩
  · have hfin : {t | P.IsRoot t}.Finite := by
      have := P.roots.toFinset.finite_toSet
      refine this.subset fun t ht => ?_
      simp only [Finset.mem_coe, Multiset.mem_toFinset]
      exact (Polynomial.mem_roots h0).2 ht
    have hev : ∀ t, ¬ P.IsRoot t → (P.eval t < 0 ∧ ∀ᶠ s in 𝓝 t, P.eval s < 0) ∨
        (0 < P.eval t ∧ ∀ᶠ s in 𝓝 t, 0 < P.eval s) := by
      intro t ht
      have hc : ContinuousAt (fun s => P.eval s) t := P.continuous.continuousAt
      rcases lt_or_gt_of_ne (show P.eval t ≠ 0 from ht) with h | h
      · exact Or.inl ⟨h, hc.eventually_lt_const h⟩
      · exact Or.inr ⟨h, hc.eventually_const_lt h⟩
    constructor
    · refine ⟨_, hfin, fun t ht => ?_⟩
      rcases hev t ht with ⟨h, he⟩ | ⟨h, he⟩
      · filter_upwards [he] with s hs
        exact propext ⟨fun _ => h.le, fun _ => hs.le⟩
      · filter_upwards [he] with s hs
        exact propext ⟨fun a => absurd a (not_le.2 hs), fun a => absurd a (not_le.2 h)⟩
    · refine ⟨_, hfin, fun t ht => ?_⟩
      rcases hev t ht with ⟨h, he⟩ | ⟨h, he⟩
      · filter_upwards [he] with s hs
        exact propext ⟨fun _ => h, fun _ => hs⟩
      · filter_upwards [he] with s hs
        exact propext ⟨fun a => absurd a (not_lt.2 hs.le), fun a => absurd a (not_lt.2 h.le)⟩

/-- A complex value whose components are polynomials in `t`. -/
def evalC (c : C3 (Polynomial ℝ)) (t : ℝ) : C3 ℝ := ⟨c.re.eval t, c.im.eval t, c.im2.eval t⟩

theorem steps_escape (bound : ℝ) (c : C3 (Polynomial ℝ)) (k : ℕ) (val : C3 (Polynomial ℝ)) (m : Int) :
    Steps fun t => escape bound (evalC c t) k (evalC val t) m := by
  induction k generalizing val m with
  | zero => exact Steps.const m
  | succ k ih =>
    simp only [escape]
    have hp : Steps fun t => (evalC val t).norm ≤ bound := by
      have := (steps_poly (val.norm - Polynomial.C bound)).1
      convert this using 1
      funext t
      simp only [C3.norm, evalC, Polynomial.eval_sub, Polynomial.eval_add, Polynomial.eval_mul, Polynomial.eval_C,
        sub_nonpos]
    have hv : ∀ t, ((evalC val t).mul (evalC val t)).add (evalC c t) = evalC ((val.mul val).add c) t := by
      intro t
      simp [C3.mul, C3.add, evalC]
    simp only [hv]
    exact Steps.ite hp (ih _ _) (Steps.const m)

/-- C74: along every straight line, every implemented density is piecewise constant with finitely many pieces. -/
theorem density_steps (d : Density) (sigma_t o w : V3 ℝ) : Steps fun t => d.D sigma_t (o + w.smul t) := by
  cases d with
  | constant density => exact Steps.const _
  | sphere density radius =>
    refine Steps.ite ?_ (Steps.const _) (Steps.const _)
    have := (steps_poly ((Polynomial.C o.x + Polynomial.C w.x * Polynomial.X) ^ 2 +
      (Polynomial.C o.y + Polynomial.C w.y * Polynomial.X) ^ 2 +
      (Polynomial.C o.z + Polynomial.C w.z * Polynomial.X) ^ 2 - Polynomial.C (radius * radius))).2
    convert this using 1
    funext t
    simp only [V3.sqrNorm, V3.add_x, V3.add_y, V3.add_z, V3.smul, Polynomial.eval_sub, Polynomial.eval_add,
      Polynomial.eval_mul, Polynomial.eval_C, Polynomial.eval_X, sub_neg, pow_two]
  | mandelbrot _ =>
    simp only [Density.D, mandelbrotD]
    let c : C3 (Polynomial ℝ) := ⟨(Polynomial.C o.x + Polynomial.C w.x * Polynomial.X) * Polynomial.C (1 / 16),
      (Polynomial.C o.y + Polynomial.C w.y * Polynomial.X) * Polynomial.C (1 / 16),
      (Polynomial.C o.z + Polynomial.C w.z * Polynomial.X) * Polynomial.C (1 / 16)⟩
    have hc : ∀ t, (⟨(o + w.smul t).x * (1 / 16), (o + w.smul t).y * (1 / 16), (o + w.smul t).z * (1 / 16)⟩ : C3 ℝ) =
        evalC c t := by
      intro t
      simp [c, evalC, V3.smul]
    have h0 : ∀ t, (⟨0, 0, 0⟩ : C3 ℝ) = evalC ⟨0, 0, 0⟩ t := by intro t; simp [evalC]
    have hs : ∀ bound : ℝ, Steps fun t => escape bound (evalC c t) 1001 ⟨0, 0, 0⟩ (-1) := by
      intro bound
      have := steps_escape bound c 1001 ⟨0, 0, 0⟩ (-1)
      simpa only [← h0] using this
    simp only [hc]
    exact ((hs (1 / 10)).map₂ (hs (1 / 2)) fun a b => (a, b)).map₂ (hs 2)
      fun ab m3 => (⟨(ab.1 : ℝ) / 1000, (ab.2 : ℝ) / 1000, (m3 : ℝ) / 1000⟩ : V3 ℝ)

theorem Steps.almostContinuous {α : Type} {f : ℝ → α} (h : Steps f) (g : α → ℝ) :
    AlmostContinuous fun t => g (f t) := by
  obtain ⟨S, hS, hf⟩ := h
  refine ⟨S, hS.countable, fun t ht => ?_⟩
  refine (continuousAt_const (y := g (f t))).congr ?_
  filter_upwards [hf t ht] with s hs
  rw [hs]

/-- C74 for the densities of the program: on every ray through a medium with one of the implemented densities, ratio
tracking with a positive majorant not below the extinction is unbiased. -/
theorem medium_ratio_unbiased (d : Density) (sigma_t o w : V3 ℝ) (maj tMin tMax : ℝ) (hm : 0 < maj)
    (ht : tMin ≤ tMax) (c : Channel) (h0 : ∀ p, 0 ≤ c.of (d.D sigma_t p * sigma_t))
    (hle : ∀ p, c.of (d.D sigma_t p * sigma_t) ≤ maj) :
    ∃ f : List ℝ → Option (V3 ℝ),
      (∀ us fuel, transmittance (.ratioTracking maj) (fun t => d.D sigma_t (o + w.smul t)) sigma_t tMin tMax us fuel =
        .ok (f us)) ∧
      Tendsto (fun n => mean n fun us => valueOf c (f us)) atTop
        (𝓝 (Real.exp (-∫ t in tMin..tMax, c.of (d.D sigma_t (o + w.smul t) * sigma_t)))) :=
  ratio_tracking_unbiased maj tMin tMax hm ht _ sigma_t c (fun _ => h0 _) (fun _ => hle _)
    ((density_steps d sigma_t o w).almostContinuous fun v => c.of (v * sigma_t))

example : ∀ p, 0 ≤ Channel.red.of ((Density.sphere (grey 3) 2).D (grey 1) p * grey 1) ∧
    Channel.red.of ((Density.sphere (grey 3) 2).D (grey 1) p * grey 1) ≤ 3 := by
  intro p
  simp only [Density.D, Channel.of, V3.mul_x]
  split_ifs <;> norm_num [grey]

end Feign.Media
