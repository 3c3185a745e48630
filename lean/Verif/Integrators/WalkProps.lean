import Verif.Integrators.WalkLemmas

/-!
# C100: the mean of a path-traced radiance

The average over the sampler's numbers of what the path integrator returns is the light carried back along paths of at
most `max_bounces` segments, up to the light lost when throughputs below 1e-4 are given up: at most a ten-thousandth of
the brightest light in the scene.
-/

set_option linter.unusedSectionVars false

namespace Feign.Integrators

open Sampling MeasureTheory Warp
open scoped ENNReal

variable {R : Type} [MeasurableSpace R]

theorem mean_le (W : World R) (h : W.Lawful) (i : Fin 3) (n : ℕ) : ∀ β look r, NonNeg β →
    W.mean i n β look r ≤ ENNReal.ofReal (β.get i) * W.carried i n look r := by
  induction n with
  | zero => intro β look r _; simp [World.mean, World.gather, get_zero]
  | succ n ih =>
    intro β look r hβ
    by_cases hz : isZero β = true
    · rw [mean_zero W i _ β look r hz]; exact zero_le
    · have hz' : isZero β = false := by simpa using hz
      cases he : W.escapes r with
      | true => rw [mean_escape W i n β look r hβ hz' he, World.carried, if_pos he]
      | false =>
        have he' : ¬ W.escapes r = true := by simp [he]
        rw [mean_surface W h i n β look r hβ hz' he, World.carried, if_neg he']
        conv_rhs => rw [mul_add]
        refine add_le_add le_rfl ?_
        rw [← lintegral_const_mul' _ _ ENNReal.ofReal_ne_top, ← lintegral_const_mul' _ _ ENNReal.ofReal_ne_top]
        refine lintegral_mono fun ω => ?_
        by_cases hp : (W.scatter r ω).1.pdf = 0
        · simp [hp]
        · rw [if_neg hp, ← mul_assoc, ← step_factor i hβ hz' hp, mul_assoc]
          have := h.scatter_nonneg r ω
          gcongr
          exact ih _ _ _ (hβ.step hz' this.1 this.2)

theorem zero_get_le {β : V3 ℝ} (hz : isZero β = true) (i : Fin 3) : β.get i ≤ 1 / 10000 := by
  simp only [isZero, Bool.and_eq_true, decide_eq_true_eq] at hz
  fin_cases i
  · exact (le_abs_self _).trans hz.1.1.le
  · exact (le_abs_self _).trans hz.1.2.le
  · exact (le_abs_self _).trans hz.2.le

theorem mean_ge (W : World R) (h : W.Lawful) (i : Fin 3) (M : ℝ≥0∞) (n : ℕ)
    (hM : ∀ k ≤ n, ∀ look r, W.carried i k look r ≤ M) : ∀ β look r, NonNeg β →
    ENNReal.ofReal (β.get i) * W.carried i n look r ≤ W.mean i n β look r + ENNReal.ofReal (1 / 10000) * M := by
  induction n with
  | zero => intro β look r _; simp [World.carried]
  | succ n ih =>
    intro β look r hβ
    have ih := ih fun k hk => hM k (by omega)
    by_cases hz : isZero β = true
    · refine le_add_left ?_
      gcongr
      · exact zero_get_le hz i
      · exact hM _ le_rfl look r
    · have hz' : isZero β = false := by simpa using hz
      cases he : W.escapes r with
      | true =>
        rw [mean_escape W i n β look r hβ hz' he, World.carried, if_pos he]
        exact le_self_add
      | false =>
        have he' : ¬ W.escapes r = true := by simp [he]
        rw [mean_surface W h i n β look r hβ hz' he, World.carried, if_neg he']
        conv_lhs => rw [mul_add]
        conv_rhs => rw [add_assoc]
        refine add_le_add le_rfl ?_
        have hrr1 : ENNReal.ofReal (min β.maxValue 1) ≤ 1 := by
          rw [← ENNReal.ofReal_one]
          exact ENNReal.ofReal_le_ofReal (min_le_right _ _)
        rw [← lintegral_const_mul' _ _ ENNReal.ofReal_ne_top, ← lintegral_const_mul' _ _ ENNReal.ofReal_ne_top]
        calc ∫⁻ ω, ENNReal.ofReal (β.get i) * (ENNReal.ofReal (factor (W.delta r) i (W.scatter r ω).1) *
                W.carried i n (W.delta r) (W.scatter r ω).1.ray) ∂uniform
            ≤ ∫⁻ ω, (ENNReal.ofReal (min β.maxValue 1) * (if (W.scatter r ω).1.pdf = 0 then 0
                else W.mean i n (step (W.delta r) β (W.scatter r ω).1) (W.delta r) (W.scatter r ω).1.ray) +
                ENNReal.ofReal (1 / 10000) * M) ∂uniform := by
              refine lintegral_mono fun ω => ?_
              by_cases hp : (W.scatter r ω).1.pdf = 0
              · simp [hp, factor]
              · have hn := h.scatter_nonneg r ω
                rw [if_neg hp, ← mul_assoc, ← step_factor i hβ hz' hp, mul_assoc]
                calc ENNReal.ofReal (min β.maxValue 1) * (ENNReal.ofReal ((step (W.delta r) β (W.scatter r ω).1).get i) *
                      W.carried i n (W.delta r) (W.scatter r ω).1.ray)
                    ≤ ENNReal.ofReal (min β.maxValue 1) *
                      (W.mean i n (step (W.delta r) β (W.scatter r ω).1) (W.delta r) (W.scatter r ω).1.ray +
                        ENNReal.ofReal (1 / 10000) * M) := by
                      gcongr
                      exact ih _ _ _ (hβ.step hz' hn.1 hn.2)
                  _ ≤ _ := by
                      rw [mul_add]
                      refine add_le_add le_rfl ?_
                      calc _ ≤ 1 * (ENNReal.ofReal (1 / 10000) * M) := by gcongr
                        _ = _ := one_mul _
          _ = _ := by rw [lintegral_add_right _ measurable_const, lintegral_const, measure_univ, mul_one]

/-- What the call returns. -/
theorem Li_eq (W : World R) (h : W.Lawful) (quot : ℝ → ℝ → ℝ) (hq : IsQuot quot) (maxBounces : ℕ) (ray : R) (ω : Stream)
    (t : Running) (ht : Idle t) :
    W.Li quot maxBounces ray ω t = .ok (W.gather maxBounces white true ray ω, t) := by
  rw [World.Li, pathLi, pathLoop_eq ht, pathPure_gather W quot hq h.scatter_nonneg (ray, ω) maxBounces 0 _ NonNeg.white rfl]
  simp only [zero_add]
  rfl

/-- **C100.** For every scene and every bounce limit the path integrator returns for every stream of random numbers, and
the mean of the result is at most the light carried back along paths of at most `maxBounces` segments, and less than
that by at most a ten-thousandth of the brightest light that arrives along any ray. -/
theorem path_mean (W : World R) (h : W.Lawful) (quot : ℝ → ℝ → ℝ) (hq : IsQuot quot) (maxBounces : ℕ) (ray : R)
    (t : Running) (ht : Idle t) :
    ∃ v : Stream → V3 ℝ, (∀ ω, W.Li quot maxBounces ray ω t = .ok (v ω, t)) ∧ (∀ ω, NonNeg (v ω)) ∧ Measurable v ∧
      ∀ i, ∫⁻ ω, ENNReal.ofReal ((v ω).get i) ∂uniform ≤ W.carried i maxBounces true ray ∧
        ∀ M, (∀ k ≤ maxBounces, ∀ look r, W.carried i k look r ≤ M) →
          W.carried i maxBounces true ray ≤
            ∫⁻ ω, ENNReal.ofReal ((v ω).get i) ∂uniform + ENNReal.ofReal (1 / 10000) * M := by
  have hw : ∀ i : Fin 3, (white : V3 ℝ).get i = 1 := by intro i; fin_cases i <;> rfl
  refine ⟨fun ω => W.gather maxBounces white true ray ω, fun ω => Li_eq W h quot hq maxBounces ray ω t ht,
    fun ω => gather_nonneg W h _ _ _ _ _ NonNeg.white,
    (measurable_gather W h maxBounces).comp (measurable_const.prodMk (measurable_const.prodMk
      (measurable_const.prodMk measurable_id))), fun i => ⟨?_, fun M hM => ?_⟩⟩
  · have := mean_le W h i maxBounces white true ray NonNeg.white
    rwa [hw, ENNReal.ofReal_one, one_mul] at this
  · have := mean_ge W h i M maxBounces hM white true ray NonNeg.white
    rwa [hw, ENNReal.ofReal_one, one_mul] at this

/-- The factor of every sampled direction is the same in the three channels and at least a ten-thousandth. -/
def World.Grey (W : World R) : Prop :=
  ∀ r ω, (W.scatter r ω).1.pdf ≠ 0 → ∃ f : ℝ, 1 / 10000 ≤ f ∧ ∀ i, factor (W.delta r) i (W.scatter r ω).1 = f

theorem grey_step {delta : Bool} {b : Bounce R} {c f : ℝ} (hc : 1 / 10000 ≤ c) (hf : 1 / 10000 ≤ f) (hp : b.pdf ≠ 0)
    (hb : ∀ i, factor delta i b = f) :
    ∃ c', 1 / 10000 ≤ c' ∧ step delta (⟨c, c, c⟩ : V3 ℝ) b = ⟨c', c', c'⟩ := by
  have hm : (⟨c, c, c⟩ : V3 ℝ).maxValue = c := by simp [V3.maxValue]
  have hc0 : 0 < c := by linarith
  have hmin : 0 < min c 1 := lt_min hc0 one_pos
  have hg : ∀ i, (step delta (⟨c, c, c⟩ : V3 ℝ) b).get i = c * f / min c 1 := by
    intro i
    have := hb i
    rw [factor, if_neg hp] at this
    rw [step, get_mul, get_smul, hm, ← this]
    have hci : (⟨c, c, c⟩ : V3 ℝ).get i = c := by fin_cases i <;> rfl
    rw [hci]
    field_simp
  refine ⟨c * f / min c 1, ?_, ?_⟩
  · rw [le_div_iff₀ hmin]
    have : min c 1 ≤ c := min_le_left _ _
    nlinarith
  · ext
    · exact hg 0
    · exact hg 1
    · exact hg 2

theorem mean_grey (W : World R) (h : W.Lawful) (hg : W.Grey) (i : Fin 3) (n : ℕ) : ∀ (c : ℝ) look r, 1 / 10000 ≤ c →
    W.mean i n ⟨c, c, c⟩ look r = ENNReal.ofReal c * W.carried i n look r := by
  induction n with
  | zero => intro c look r _; simp [World.mean, World.gather, get_zero, World.carried]
  | succ n ih =>
    intro c look r hc
    have hc0 : 0 < c := by linarith
    have hβ : NonNeg (⟨c, c, c⟩ : V3 ℝ) := ⟨hc0.le, hc0.le, hc0.le⟩
    have hci : (⟨c, c, c⟩ : V3 ℝ).get i = c := by fin_cases i <;> rfl
    have hz : isZero (⟨c, c, c⟩ : V3 ℝ) = false := by
      simp only [isZero, Bool.and_self, decide_eq_false_iff_not, not_lt]
      exact hc.trans (le_abs_self c)
    cases he : W.escapes r with
    | true => rw [mean_escape W i n _ look r hβ hz he, World.carried, if_pos he, hci]
    | false =>
      have he' : ¬ W.escapes r = true := by simp [he]
      rw [mean_surface W h i n _ look r hβ hz he, World.carried, if_neg he', hci]
      conv_rhs => rw [mul_add]
      congr 1
      rw [← lintegral_const_mul' _ _ ENNReal.ofReal_ne_top, ← lintegral_const_mul' _ _ ENNReal.ofReal_ne_top]
      refine lintegral_congr fun ω => ?_
      by_cases hp : (W.scatter r ω).1.pdf = 0
      · simp [hp, factor]
      · obtain ⟨f, hf, hb⟩ := hg r ω hp
        obtain ⟨c', hc', hs⟩ := grey_step (delta := W.delta r) hc hf hp hb
        have hsf := step_factor (delta := W.delta r) (b := (W.scatter r ω).1) i hβ hz hp
        rw [if_neg hp, hs, ih c' _ _ hc', ← mul_assoc, ← mul_assoc]
        rw [hs, hci] at hsf
        have : (⟨c', c', c'⟩ : V3 ℝ).get i = c' := by fin_cases i <;> rfl
        rw [this] at hsf
        rw [hsf]

/-- **C100, without loss.** If the factors of the sampled directions are grey and at least a ten-thousandth, no path is
given up and the mean is exactly the light carried back. -/
theorem path_mean_grey (W : World R) (h : W.Lawful) (hg : W.Grey) (quot : ℝ → ℝ → ℝ) (hq : IsQuot quot)
    (maxBounces : ℕ) (ray : R) (t : Running) (ht : Idle t) (v : Stream → V3 ℝ)
    (hv : ∀ ω, W.Li quot maxBounces ray ω t = .ok (v ω, t)) (i : Fin 3) :
    ∫⁻ ω, ENNReal.ofReal ((v ω).get i) ∂uniform = W.carried i maxBounces true ray := by
  have hv' : ∀ ω, v ω = W.gather maxBounces white true ray ω := by
    intro ω
    have := hv ω
    rw [Li_eq W h quot hq maxBounces ray ω t ht] at this
    injection this with this
    exact (congrArg Prod.fst this).symm
  simp only [hv']
  have := mean_grey W h hg i maxBounces 1 true ray (by norm_num)
  rwa [ENNReal.ofReal_one, one_mul] at this

end Feign.Integrators
