import Verif.Media.TransProps
import Mathlib.MeasureTheory.Integral.DivergenceTheorem
import Mathlib.MeasureTheory.Integral.DominatedConvergence
import Mathlib.MeasureTheory.Integral.Prod
import Mathlib.MeasureTheory.Integral.IntervalIntegral.FundThmCalculus
import Mathlib.Analysis.SpecialFunctions.Exponential
import Mathlib.Analysis.SpecialFunctions.Log.Deriv
import Mathlib.Analysis.SpecialFunctions.ExpDeriv
import Mathlib.MeasureTheory.Function.SpecialFunctions.Basic

/-!
# Helper lemmas: the integral equation behind tracking estimators
-/

set_option linter.unusedSectionVars false

namespace Feign.Media

open MeasureTheory Set Filter Topology

/-- The next position of a walk. -/
noncomputable def next (μ t u : ℝ) : ℝ := t - Real.log (1 - u) / μ

/-- `∫_t^T κ`. -/
noncomputable def depth (κ : ℝ → ℝ) (T t : ℝ) : ℝ := ∫ s in t..T, κ s

/-- The chance of having left the segment within `n` flights, thinned by `κ / μ`. -/
noncomputable def part (κ : ℝ → ℝ) (μ T : ℝ) (n : ℕ) (t : ℝ) : ℝ :=
  Real.exp (-(μ * (T - t))) * ∑ k ∈ Finset.range n, depth κ T t ^ k / (k.factorial : ℝ)

/-- One flight of a walk, followed by `g`. -/
noncomputable def stepF (κ : ℝ → ℝ) (μ T : ℝ) (g : ℝ → ℝ) (t u : ℝ) : ℝ :=
  if T ≤ next μ t u then 1 else κ (next μ t u) / μ * g (next μ t u)

/-- A thinning rate: measurable, between 0 and the majorant, with at most countably many discontinuities. -/
structure Rate (κ : ℝ → ℝ) (μ : ℝ) : Prop where
  pos : 0 < μ
  meas : Measurable κ
  nonneg : ∀ t, 0 ≤ κ t
  le : ∀ t, κ t ≤ μ
  cont : ∃ S : Set ℝ, S.Countable ∧ ∀ t, t ∉ S → ContinuousAt κ t

theorem Rate.const {μ : ℝ} (h : 0 < μ) : Rate (fun _ => μ) μ :=
  ⟨h, measurable_const, fun _ => h.le, fun _ => le_rfl, ∅, countable_empty, fun _ _ => continuousAt_const⟩

variable {κ : ℝ → ℝ} {μ T : ℝ}

theorem Rate.integrable (h : Rate κ μ) (a b : ℝ) : IntervalIntegrable κ volume a b := by
  rw [intervalIntegrable_iff]
  refine Measure.integrableOn_of_bounded (M := μ) measure_Ioc_lt_top.ne h.meas.aestronglyMeasurable ?_
  filter_upwards with t
  rw [Real.norm_eq_abs, abs_of_nonneg (h.nonneg t)]
  exact h.le t

theorem Rate.continuous_depth (h : Rate κ μ) : Continuous (depth κ T) := by
  have := intervalIntegral.continuous_primitive (μ := volume) h.integrable T
  have he : depth κ T = fun t => -∫ s in T..t, κ s := by
    funext t
    rw [depth, intervalIntegral.integral_symm]
  rw [he]
  exact this.neg

theorem Rate.continuous_part (h : Rate κ μ) (n : ℕ) : Continuous (part κ μ T n) := by
  unfold part
  have := h.continuous_depth (T := T)
  fun_prop

theorem Rate.depth_range (h : Rate κ μ) {t : ℝ} (ht : t ≤ T) : 0 ≤ depth κ T t ∧ depth κ T t ≤ μ * (T - t) := by
  constructor
  · exact intervalIntegral.integral_nonneg ht fun s _ => h.nonneg s
  · have := intervalIntegral.integral_mono_on ht (h.integrable t T) intervalIntegrable_const fun s _ => h.le s
    rw [intervalIntegral.integral_const, smul_eq_mul, mul_comm] at this
    exact this

theorem Rate.part_range (h : Rate κ μ) {t : ℝ} (ht : t ≤ T) (n : ℕ) : 0 ≤ part κ μ T n t ∧ part κ μ T n t ≤ 1 := by
  obtain ⟨h0, h1⟩ := h.depth_range ht
  constructor
  · exact mul_nonneg (Real.exp_pos _).le (Finset.sum_nonneg fun k _ => div_nonneg (pow_nonneg h0 k) (by positivity))
  · have h2 := (Real.sum_le_exp_of_nonneg h0 n).trans (Real.exp_le_exp.2 h1)
    have h3 := mul_le_mul_of_nonneg_left h2 (Real.exp_pos (-(μ * (T - t)))).le
    rw [← Real.exp_add, neg_add_cancel, Real.exp_zero] at h3
    exact h3

theorem le_next (hm : 0 < μ) (t : ℝ) {u : ℝ} (h0 : 0 ≤ u) (h1 : u ≤ 1) : t ≤ next μ t u := by
  have := Real.log_nonpos (by linarith : (0 : ℝ) ≤ 1 - u) (by linarith)
  have := div_nonpos_of_nonpos_of_nonneg this hm.le
  unfold next
  linarith

theorem measurable_next : Measurable fun p : ℝ × ℝ => next μ p.1 p.2 := by
  unfold next
  fun_prop

theorem Rate.measurable_stepF (h : Rate κ μ) {g : ℝ → ℝ} (hg : Measurable g) :
    Measurable fun p : ℝ × ℝ => stepF κ μ T g p.1 p.2 := by
  unfold stepF
  refine Measurable.ite (measurableSet_le measurable_const measurable_next) measurable_const ?_
  exact ((h.meas.comp measurable_next).div_const μ).mul (hg.comp measurable_next)

theorem Rate.stepF_range (h : Rate κ μ) {g : ℝ → ℝ} (hg : ∀ t, t ≤ T → 0 ≤ g t ∧ g t ≤ 1) (t : ℝ) (u : ℝ) :
    0 ≤ stepF κ μ T g t u ∧ stepF κ μ T g t u ≤ 1 := by
  unfold stepF
  split_ifs with hc
  · exact ⟨zero_le_one, le_rfl⟩
  · obtain ⟨g0, g1⟩ := hg _ (not_le.1 hc).le
    have k0 := div_nonneg (h.nonneg (next μ t u)) h.pos.le
    have k1 : κ (next μ t u) / μ ≤ 1 := (div_le_one h.pos).2 (h.le _)
    exact ⟨mul_nonneg k0 g0, mul_le_one₀ k1 g0 g1⟩

theorem Rate.stepF_integrable (h : Rate κ μ) {g : ℝ → ℝ} (hm : Measurable g)
    (hg : ∀ t, t ≤ T → 0 ≤ g t ∧ g t ≤ 1) (t a b : ℝ) : IntervalIntegrable (stepF κ μ T g t) volume a b := by
  rw [intervalIntegrable_iff]
  refine Measure.integrableOn_of_bounded (M := 1) measure_Ioc_lt_top.ne
    ((h.measurable_stepF hm).comp measurable_prodMk_left).aestronglyMeasurable ?_
  filter_upwards with u
  rw [Real.norm_eq_abs, abs_of_nonneg (h.stepF_range hg t u).1]
  exact (h.stepF_range hg t u).2

theorem hasDerivAt_next (hm : 0 < μ) (t : ℝ) {u : ℝ} (hu : u < 1) :
    HasDerivAt (next μ t) (1 / (μ * (1 - u))) u := by
  have h1 : HasDerivAt (fun u : ℝ => 1 - u) (-1) u := by
    simpa using (hasDerivAt_id u).const_sub 1
  have h2 := (h1.log (by linarith : (1 : ℝ) - u ≠ 0)).div_const μ
  have h3 := h2.const_sub t
  have : -(-1 / (1 - u) / μ) = 1 / (μ * (1 - u)) := by
    have : (1 : ℝ) - u ≠ 0 := by linarith
    field_simp
  rw [this] at h3
  exact h3

/-- The integral equation: one more flight adds one more term. -/
theorem Rate.step_part (h : Rate κ μ) {t : ℝ} (ht : t ≤ T) (n : ℕ) :
    ∫ u in (0 : ℝ)..1, stepF κ μ T (part κ μ T n) t u = part κ μ T (n + 1) t := by
  have hm := h.pos
  set e := Real.exp (-(μ * (T - t))) with he
  have he0 : 0 < e := Real.exp_pos _
  have he1 : e ≤ 1 := Real.exp_le_one_iff.2 (by nlinarith)
  have hint := h.stepF_integrable (h.continuous_part n).measurable (fun s hs => h.part_range (T := T) hs n) t
  rw [← intervalIntegral.integral_add_adjacent_intervals (hint 0 (1 - e)) (hint (1 - e) 1)]
  -- flights that leave the segment
  have hlog : ∀ {u : ℝ}, u < 1 → (T ≤ next μ t u ↔ 1 - e ≤ u) := by
    intro u hu
    unfold next
    have hpos : 0 < 1 - u := by linarith
    rw [show (1 - e ≤ u ↔ 1 - u ≤ e) by constructor <;> intro h <;> linarith, he, ← Real.log_le_iff_le_exp hpos]
    rw [show (T ≤ t - Real.log (1 - u) / μ ↔ Real.log (1 - u) / μ ≤ t - T) by constructor <;> intro h <;> linarith,
      div_le_iff₀ hm]
    constructor <;> intro h <;> linarith
  have h2 : ∫ u in (1 - e)..1, stepF κ μ T (part κ μ T n) t u = e := by
    have : ∫ u in (1 - e)..1, stepF κ μ T (part κ μ T n) t u = ∫ u in (1 - e)..1, (1 : ℝ) := by
      apply intervalIntegral.integral_congr_ae
      have hne : ∀ᵐ u : ℝ, u ≠ 1 := by simp [ae_iff]
      filter_upwards [hne] with u hu1 hu
      rw [uIoc_of_le (by linarith)] at hu
      rw [stepF, if_pos ((hlog (lt_of_le_of_ne hu.2 hu1)).2 hu.1.le)]
    rw [this, intervalIntegral.integral_const]
    simp
  -- flights that stay inside
  obtain ⟨S, hS, hcont⟩ := h.cont
  let G : ℝ → ℝ := fun u => -(e * ∑ k ∈ Finset.range n, depth κ T (next μ t u) ^ (k + 1) / ((k + 1).factorial : ℝ))
  have hle : 0 ≤ 1 - e := by linarith
  have hinj : Set.InjOn (next μ t) (Set.Iio 1) := by
    intro a ha b hb hab
    unfold next at hab
    have h1 : Real.log (1 - a) / μ = Real.log (1 - b) / μ := by linarith
    have h2 : Real.log (1 - a) = Real.log (1 - b) := by
      field_simp at h1
      exact h1
    have ha' : (0 : ℝ) < 1 - a := by have := Set.mem_Iio.1 ha; linarith
    have hb' : (0 : ℝ) < 1 - b := by have := Set.mem_Iio.1 hb; linarith
    have := Real.log_injOn_pos ha' hb' h2
    linarith
  have hcnt : (next μ t ⁻¹' S ∩ Set.Iio 1).Countable := by
    have : (next μ t '' (next μ t ⁻¹' S ∩ Set.Iio 1)).Countable :=
      hS.mono (by rintro _ ⟨x, hx, rfl⟩; exact hx.1)
    exact Set.countable_of_injective_of_countable_image (hinj.mono fun x hx => hx.2) this
  have hd := h.continuous_depth (T := T)
  have hFTC : ∫ u in (0 : ℝ)..(1 - e), stepF κ μ T (part κ μ T n) t u = G (1 - e) - G 0 := by
    refine integral_eq_of_hasDerivAt_off_countable_of_le G _ hle hcnt ?_ ?_ (hint 0 (1 - e))
    · intro u hu
      have hu1 : u < 1 := by have := hu.2; linarith
      have hnx := (hasDerivAt_next hm t hu1).continuousAt
      apply ContinuousAt.continuousWithinAt
      have hdn : ContinuousAt (fun u => depth κ T (next μ t u)) u := hd.continuousAt.comp hnx
      show ContinuousAt (fun u => -(e * ∑ k ∈ Finset.range n, depth κ T (next μ t u) ^ (k + 1) /
        ((k + 1).factorial : ℝ))) u
      fun_prop
    · intro u hu
      have hu1 : u < 1 := by have := hu.1.2; linarith
      have hs : next μ t u ∉ S := fun hmem => hu.2 ⟨hmem, hu1⟩
      have hnT : ¬ T ≤ next μ t u := by
        rw [hlog hu1]
        exact not_le.2 hu.1.2
      have hdd : HasDerivAt (depth κ T) (-κ (next μ t u)) (next μ t u) :=
        intervalIntegral.integral_hasDerivAt_left (h.integrable _ _)
          (h.meas.stronglyMeasurable.stronglyMeasurableAtFilter) (hcont _ hs)
      have hcomp := hdd.comp u (hasDerivAt_next hm t hu1)
      have hsum : HasDerivAt (fun u => ∑ k ∈ Finset.range n, depth κ T (next μ t u) ^ (k + 1) /
          ((k + 1).factorial : ℝ)) (∑ k ∈ Finset.range n, depth κ T (next μ t u) ^ k / (k.factorial : ℝ) *
            (-κ (next μ t u) * (1 / (μ * (1 - u))))) u := by
        apply HasDerivAt.fun_sum
        intro k _
        have := (hcomp.pow (k + 1)).div_const ((k + 1).factorial : ℝ)
        refine this.congr_deriv ?_
        rw [Nat.factorial_succ]
        push_cast
        have hk : (k.factorial : ℝ) ≠ 0 := by positivity
        have hk1 : ((k : ℝ) + 1) ≠ 0 := by positivity
        simp only [Function.comp]
        field_simp
      have hG := (hsum.const_mul e).neg
      refine hG.congr_deriv ?_
      rw [stepF, if_neg hnT, part, ← Finset.sum_mul]
      have hexp : Real.exp (-(μ * (T - next μ t u))) = e / (1 - u) := by
        have hpos : 0 < 1 - u := by linarith
        have : -(μ * (T - next μ t u)) = -(μ * (T - t)) - Real.log (1 - u) := by
          unfold next
          field_simp
          ring
        rw [this, Real.exp_sub, Real.exp_log hpos]
      rw [hexp]
      have : (1 : ℝ) - u ≠ 0 := by linarith
      field_simp
  have hT : depth κ T (next μ t (1 - e)) = 0 := by
    have : next μ t (1 - e) = T := by
      unfold next
      rw [sub_sub_cancel, he, Real.log_exp]
      field_simp
      ring
    rw [this, depth, intervalIntegral.integral_same]
  have h0 : next μ t 0 = t := by simp [next]
  rw [h2, hFTC]
  simp only [G, hT, h0, part]
  rw [Finset.sum_range_succ' _ n]
  simp
  ring

/-- Repeated flights, started from a constant. -/
noncomputable def walk (κ : ℝ → ℝ) (μ T c : ℝ) : ℕ → ℝ → ℝ
  | 0, _ => c
  | n + 1, t => ∫ u in (0 : ℝ)..1, stepF κ μ T (walk κ μ T c n) t u

theorem walk_zero (h : Rate κ μ) {t : ℝ} (ht : t ≤ T) (n : ℕ) : walk κ μ T 0 n t = part κ μ T n t := by
  induction n generalizing t with
  | zero => simp [walk, part]
  | succ n ih =>
    rw [walk, ← h.step_part ht n]
    congr 1
    funext u
    unfold stepF
    split_ifs with hc
    · rfl
    · rw [ih (not_le.1 hc).le]

theorem walk_measurable (h : Rate κ μ) (c : ℝ) (n : ℕ) : Measurable (walk κ μ T c n) := by
  induction n with
  | zero => exact measurable_const
  | succ n ih =>
    have hF := (h.measurable_stepF (T := T) ih).stronglyMeasurable
    have : walk κ μ T c (n + 1) = fun t => ∫ u, stepF κ μ T (walk κ μ T c n) t u ∂(volume.restrict (Ioc (0 : ℝ) 1)) := by
      funext t
      rw [walk, intervalIntegral.integral_of_le zero_le_one]
    rw [this]
    exact (hF.integral_prod_right' (ν := volume.restrict (Ioc (0 : ℝ) 1))).measurable

theorem walk_range (h : Rate κ μ) {c : ℝ} (h0 : 0 ≤ c) (h1 : c ≤ 1) (n : ℕ) (t : ℝ) (ht : t ≤ T) :
    0 ≤ walk κ μ T c n t ∧ walk κ μ T c n t ≤ 1 := by
  induction n generalizing t with
  | zero => exact ⟨h0, h1⟩
  | succ n ih =>
    have hr := h.stepF_range (T := T) ih t
    have hi := h.stepF_integrable (walk_measurable h c n) ih t 0 1
    constructor
    · exact intervalIntegral.integral_nonneg zero_le_one fun u _ => (hr u).1
    · have := intervalIntegral.integral_mono_on zero_le_one hi intervalIntegrable_const fun u _ => (hr u).2
      simpa [walk] using this

theorem walk_one_le (h : Rate κ μ) (n : ℕ) (t : ℝ) (ht : t ≤ T) :
    part κ μ T n t ≤ walk κ μ T 1 n t ∧ walk κ μ T 1 n t ≤ part κ μ T n t + (1 - part (fun _ => μ) μ T n t) := by
  induction n generalizing t with
  | zero => simp [walk, part]
  | succ n ih =>
    have hc := Rate.const h.pos
    have hw := walk_range (T := T) h zero_le_one le_rfl n
    have hp := fun s (hs : s ≤ T) => h.part_range hs n
    have hq := fun s (hs : s ≤ T) => hc.part_range hs n
    have iw := h.stepF_integrable (walk_measurable h 1 n) hw t 0 1
    have ip := h.stepF_integrable (h.continuous_part n).measurable hp t 0 1
    have iq := hc.stepF_integrable (hc.continuous_part n).measurable hq t 0 1
    rw [walk, ← h.step_part ht n, ← hc.step_part ht n]
    constructor
    · apply intervalIntegral.integral_mono_on zero_le_one ip iw
      intro u _
      unfold stepF
      split_ifs with hT
      · exact le_rfl
      · exact mul_le_mul_of_nonneg_left (ih _ (not_le.1 hT).le).1 (div_nonneg (h.nonneg _) h.pos.le)
    · have hone : (1 : ℝ) = ∫ u in (0 : ℝ)..1, (1 : ℝ) := by simp
      have : ∫ u in (0 : ℝ)..1, stepF κ μ T (walk κ μ T 1 n) t u ≤
          ∫ u in (0 : ℝ)..1, (stepF κ μ T (part κ μ T n) t u +
            (1 - stepF (fun _ => μ) μ T (part (fun _ => μ) μ T n) t u)) := by
        apply intervalIntegral.integral_mono_on zero_le_one iw (ip.add (intervalIntegrable_const.sub iq))
        intro u _
        unfold stepF
        split_ifs with hT
        · linarith
        · have hs := (not_le.1 hT).le
          have k0 := div_nonneg (h.nonneg (next μ t u)) h.pos.le
          have k1 : κ (next μ t u) / μ ≤ 1 := (div_le_one h.pos).2 (h.le _)
          have := mul_le_mul_of_nonneg_left (ih _ hs).2 k0
          rw [div_self h.pos.ne', one_mul]
          have hq1 := (hq _ hs).2
          nlinarith
      rw [intervalIntegral.integral_add ip (intervalIntegrable_const.sub iq),
        intervalIntegral.integral_sub intervalIntegrable_const iq, ← hone] at this
      exact this

theorem part_tendsto (κ : ℝ → ℝ) (μ T t : ℝ) :
    Tendsto (fun n => part κ μ T n t) atTop (𝓝 (Real.exp (-(μ * (T - t)) + depth κ T t))) := by
  have h := (NormedSpace.expSeries_div_hasSum_exp (depth κ T t)).tendsto_sum_nat
  rw [← Real.exp_eq_exp_ℝ] at h
  rw [Real.exp_add]
  exact h.const_mul _

theorem walk_tendsto (h : Rate κ μ) {t : ℝ} (ht : t ≤ T) {c : ℝ} (hc : c = 0 ∨ c = 1) :
    Tendsto (fun n => walk κ μ T c n t) atTop (𝓝 (Real.exp (-∫ s in t..T, (μ - κ s)))) := by
  have he : -∫ s in t..T, (μ - κ s) = -(μ * (T - t)) + depth κ T t := by
    rw [intervalIntegral.integral_sub intervalIntegrable_const (h.integrable _ _), intervalIntegral.integral_const,
      smul_eq_mul, depth]
    ring
  rw [he]
  rcases hc with rfl | rfl
  · simp only [walk_zero h ht]
    exact part_tendsto κ μ T t
  · refine tendsto_of_tendsto_of_tendsto_of_le_of_le (part_tendsto κ μ T t) ?_ (fun n => (walk_one_le h n t ht).1)
      (fun n => (walk_one_le h n t ht).2)
    have h1 := part_tendsto (fun _ => μ) μ T t
    have h2 : -(μ * (T - t)) + depth (fun _ => μ) T t = 0 := by
      rw [depth, intervalIntegral.integral_const, smul_eq_mul]
      ring
    rw [h2, Real.exp_zero] at h1
    simpa using (part_tendsto κ μ T t).add (h1.const_sub 1)

end Feign.Media
