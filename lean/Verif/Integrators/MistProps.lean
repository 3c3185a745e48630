import Verif.Integrators.MistMean

/-!
# C105: what the volumetric path tracer shows on average
-/

set_option linter.unusedSectionVars false
set_option linter.unusedSimpArgs false
set_option linter.unusedVariables false

namespace Feign.Integrators

open Sampling MeasureTheory Warp
open scoped ENNReal

variable {R M : Type} [MeasurableSpace R]

/-! ## Against the light carried back -/

theorem veiled_fly (W : Mist R M) (i : Fin 3) (m : Option M) (r : R) (fog : M → ℝ → ℝ≥0∞) (back : ℝ≥0∞) :
    W.veiled i m r fog back = ∫⁻ ω, ENNReal.ofReal ((W.fly m r ω).1.weight.get i) *
      (if (W.fly m r ω).1.scatters = true then m.elim 0 (fun m => fog m (W.fly m r ω).1.t) else back) ∂uniform := by
  cases m with
  | none =>
    have : ∀ ω, ENNReal.ofReal ((W.fly none r ω).1.weight.get i) = 1 := by
      intro ω
      have : (W.fly none r ω).1.weight = white := rfl
      rw [this]
      fin_cases i <;> exact ENNReal.ofReal_one
    simp only [this, one_mul]
    have h2 : ∀ ω, (W.fly none r ω).1.scatters = false := fun ω => rfl
    simp only [h2, Bool.false_eq_true, if_false, lintegral_const, measure_univ, mul_one]
    rfl
  | some m => rfl

/-- What the flight is worth in the specification. -/
noncomputable def Mist.passLight (W : Mist R M) (i : Fin 3) (A B : Option M → R → ℝ≥0∞) (m : Option M) (r : R)
    (f : Flight) : ℝ≥0∞ :=
  if f.scatters = true then m.elim 0 (fun m => W.haze i m r f.t (A (some m)))
  else if W.null r = true then B (W.beyond m r) (W.past r) else W.sheen i m r (A m)

theorem carried_pass (W : Mist R M) (i : Fin 3) (k n : ℕ) (m : Option M) (r : R) (he : W.escapes r = false) :
    W.carried i (k + 1) (n + 1) m r = ∫⁻ ω, ENNReal.ofReal ((W.fly m r ω).1.weight.get i) *
      W.passLight i (W.carried i k n) (W.carried i k (n + 1)) m r (W.fly m r ω).1 ∂uniform := by
  rw [Mist.carried, if_neg (by simp [he]), veiled_fly]
  cases m <;> rfl

theorem passMean_le (W : Mist R M) (h : W.Lawful) (i : Fin 3) {A B : V3 ℝ → Option M → R → ℝ≥0∞}
    {A' B' : Option M → R → ℝ≥0∞} (hA : ∀ β m r, NonNeg β → A β m r ≤ ENNReal.ofReal (β.get i) * A' m r)
    (hB : ∀ β m r, NonNeg β → B β m r ≤ ENNReal.ofReal (β.get i) * B' m r) {β : V3 ℝ} (m : Option M) (r : R)
    (f : Flight) (hβ : NonNeg (β * f.weight)) (hp : 0 < min (β * f.weight).maxValue 1) :
    W.passMean i A B β m r f ≤ ENNReal.ofReal ((β * f.weight).get i) * W.passLight i A' B' m r f := by
  unfold Mist.passMean Mist.passLight
  generalize β * f.weight = β' at hβ hp ⊢
  by_cases hs : f.scatters = true
  · rw [if_pos hs, if_pos hs]
    cases m with
    | none => exact zero_le
    | some m =>
      simp only [Option.elim, Mist.haze]
      rw [mul_add]
      refine add_le_add le_rfl ?_
      rw [← lintegral_const_mul' _ _ ENNReal.ofReal_ne_top, ← lintegral_const_mul' _ _ ENNReal.ofReal_ne_top]
      refine lintegral_mono fun ω => ?_
      rw [← cut_factor i hp, mul_assoc]
      gcongr
      exact hA _ _ _ (hβ.cut hp)
  · rw [if_neg hs, if_neg hs]
    by_cases hn : W.null r = true
    · rw [if_pos hn, if_pos hn]
      exact hB _ _ _ hβ
    · rw [if_neg hn, if_neg hn, Mist.sheen, mul_add]
      refine add_le_add le_rfl ?_
      rw [← lintegral_const_mul' _ _ ENNReal.ofReal_ne_top, ← lintegral_const_mul' _ _ ENNReal.ofReal_ne_top]
      refine lintegral_mono fun ω => ?_
      by_cases hpdf : (W.scatter r ω).1.pdf = 0
      · simp [hpdf]
      · rw [if_neg hpdf, ← mul_assoc, ← step_factor' i hβ hp hpdf, mul_assoc]
        have := h.scatter_nonneg r ω
        gcongr
        exact hA _ _ _ (nonNeg_step hβ hp this.1 this.2)

theorem mist_mean_le [Countable M] (W : Mist R M) (h : W.Lawful) (i : Fin 3) (k : ℕ) : ∀ n β m r, NonNeg β →
    W.mean i k n β m r ≤ ENNReal.ofReal (β.get i) * W.carried i k n m r := by
  induction k with
  | zero => intro n β m r _; simp [Mist.mean, meanOf, Mist.gather, get_zero]
  | succ k ih =>
    intro n β m r hβ
    cases n with
    | zero => simp [Mist.mean, meanOf, Mist.gather, get_zero]
    | succ n =>
      by_cases hz : isZero β = true
      · rw [mist_zero W i _ _ β m r hz]; exact zero_le
      · have hz' : isZero β = false := by simpa using hz
        cases he : W.escapes r with
        | true => rw [mist_escape W i k n β m r hβ hz' he, Mist.carried, if_pos he]
        | false =>
          rw [mist_pass W h i k n β m r hβ hz' he, carried_pass W i k n m r he,
            ← lintegral_const_mul' _ _ ENNReal.ofReal_ne_top]
          refine lintegral_mono fun ω => ?_
          obtain ⟨hβw, hpos⟩ := weighed_pos hβ hz' (fly_pos W h m r ω)
          refine (passMean_le W h i (ih n) (ih (n + 1)) m r _ hβw hpos).trans (le_of_eq ?_)
          rw [get_mul, ENNReal.ofReal_mul (hβ.get i), mul_assoc]

theorem mist_zero_get_le {β : V3 ℝ} (hz : isZero β = true) (i : Fin 3) : β.get i ≤ 1 / 10000 := by
  simp only [isZero, Bool.and_eq_true, decide_eq_true_eq] at hz
  fin_cases i
  · exact (le_abs_self _).trans hz.1.1.le
  · exact (le_abs_self _).trans hz.1.2.le
  · exact (le_abs_self _).trans hz.2.le

theorem passMean_ge (W : Mist R M) (h : W.Lawful) (i : Fin 3) {A B : V3 ℝ → Option M → R → ℝ≥0∞}
    {A' B' : Option M → R → ℝ≥0∞} {ε : ℝ≥0∞}
    (hA : ∀ β m r, NonNeg β → ENNReal.ofReal (β.get i) * A' m r ≤ A β m r + ε)
    (hB : ∀ β m r, NonNeg β → ENNReal.ofReal (β.get i) * B' m r ≤ B β m r + ε) {β : V3 ℝ} (m : Option M) (r : R)
    (f : Flight) (hβ : NonNeg (β * f.weight)) (hp : 0 < min (β * f.weight).maxValue 1) :
    ENNReal.ofReal ((β * f.weight).get i) * W.passLight i A' B' m r f ≤ W.passMean i A B β m r f + ε := by
  unfold Mist.passMean Mist.passLight
  generalize β * f.weight = β' at hβ hp ⊢
  have hrr1 : ENNReal.ofReal (min β'.maxValue 1) ≤ 1 := by
    rw [← ENNReal.ofReal_one]
    exact ENNReal.ofReal_le_ofReal (min_le_right _ _)
  have hε : ENNReal.ofReal (min β'.maxValue 1) * ε ≤ ε := by
    calc _ ≤ 1 * ε := by gcongr
      _ = ε := one_mul _
  by_cases hs : f.scatters = true
  · rw [if_pos hs, if_pos hs]
    cases m with
    | none => simp
    | some m =>
      simp only [Option.elim, Mist.haze]
      rw [mul_add, add_assoc]
      refine add_le_add le_rfl ?_
      rw [← lintegral_const_mul' _ _ ENNReal.ofReal_ne_top, ← lintegral_const_mul' _ _ ENNReal.ofReal_ne_top]
      calc _ ≤ ∫⁻ ω, (ENNReal.ofReal (min β'.maxValue 1) * A (cut β') (some m) (W.onward r f.t (W.turn m r ω).1) + ε)
              ∂uniform := by
            refine lintegral_mono fun ω => ?_
            rw [← cut_factor i hp, mul_assoc]
            calc _ ≤ ENNReal.ofReal (min β'.maxValue 1) *
                  (A (cut β') (some m) (W.onward r f.t (W.turn m r ω).1) + ε) := by
                  gcongr
                  exact hA _ _ _ (hβ.cut hp)
              _ ≤ _ := by
                  rw [mul_add]
                  exact add_le_add le_rfl hε
        _ = _ := by
            rw [lintegral_add_right _ measurable_const, lintegral_const, measure_univ, mul_one]
  · rw [if_neg hs, if_neg hs]
    by_cases hn : W.null r = true
    · rw [if_pos hn, if_pos hn]
      exact hB _ _ _ hβ
    · rw [if_neg hn, if_neg hn, Mist.sheen, mul_add, add_assoc]
      refine add_le_add le_rfl ?_
      rw [← lintegral_const_mul' _ _ ENNReal.ofReal_ne_top, ← lintegral_const_mul' _ _ ENNReal.ofReal_ne_top]
      calc _ ≤ ∫⁻ ω, (ENNReal.ofReal (min β'.maxValue 1) * (if (W.scatter r ω).1.pdf = 0 then 0
                else A (step false β' (W.scatter r ω).1) m (W.scatter r ω).1.ray) + ε) ∂uniform := by
            refine lintegral_mono fun ω => ?_
            by_cases hpdf : (W.scatter r ω).1.pdf = 0
            · simp [hpdf, factor]
            · rw [if_neg hpdf, ← mul_assoc, ← step_factor' i hβ hp hpdf, mul_assoc]
              have := h.scatter_nonneg r ω
              calc _ ≤ ENNReal.ofReal (min β'.maxValue 1) *
                    (A (step false β' (W.scatter r ω).1) m (W.scatter r ω).1.ray + ε) := by
                    gcongr
                    exact hA _ _ _ (nonNeg_step hβ hp this.1 this.2)
                _ ≤ _ := by
                    rw [mul_add]
                    exact add_le_add le_rfl hε
        _ = _ := by
            rw [lintegral_add_right _ measurable_const, lintegral_const, measure_univ, mul_one]

theorem mist_mean_ge [Countable M] (W : Mist R M) (h : W.Lawful) (i : Fin 3) (L : ℝ≥0∞) (k : ℕ) : ∀ n,
    (∀ k' ≤ k, ∀ n' ≤ n, ∀ m r, W.carried i k' n' m r ≤ L) → ∀ β m r, NonNeg β →
    ENNReal.ofReal (β.get i) * W.carried i k n m r ≤ W.mean i k n β m r + ENNReal.ofReal (1 / 10000) * L := by
  induction k with
  | zero => intro n _ β m r _; simp [Mist.carried]
  | succ k ih =>
    intro n hL β m r hβ
    cases n with
    | zero => simp [Mist.carried]
    | succ n =>
      by_cases hz : isZero β = true
      · refine le_add_left ?_
        gcongr
        · exact mist_zero_get_le hz i
        · exact hL _ le_rfl _ le_rfl m r
      · have hz' : isZero β = false := by simpa using hz
        cases he : W.escapes r with
        | true =>
          rw [mist_escape W i k n β m r hβ hz' he, Mist.carried, if_pos he]
          exact le_self_add
        | false =>
          rw [mist_pass W h i k n β m r hβ hz' he, carried_pass W i k n m r he,
            ← lintegral_const_mul' _ _ ENNReal.ofReal_ne_top]
          have ihA := ih n fun k' hk n' hn => hL k' (by omega) n' (by omega)
          have ihB := ih (n + 1) fun k' hk n' hn => hL k' (by omega) n' (by omega)
          calc _ ≤ ∫⁻ ω, (W.passMean i (W.mean i k n) (W.mean i k (n + 1)) β m r (W.fly m r ω).1 +
                ENNReal.ofReal (1 / 10000) * L) ∂uniform := by
                refine lintegral_mono fun ω => ?_
                obtain ⟨hβw, hpos⟩ := weighed_pos hβ hz' (fly_pos W h m r ω)
                refine le_trans (le_of_eq ?_) (passMean_ge W h i ihA ihB m r _ hβw hpos)
                rw [get_mul, ENNReal.ofReal_mul (hβ.get i), mul_assoc]
            _ = _ := by
                rw [lintegral_add_right _ measurable_const, lintegral_const, measure_univ, mul_one]

/-! ## Without loss -/

theorem maxValue_get (v : V3 ℝ) : ∃ j, v.maxValue = v.get j := by
  simp only [V3.maxValue]
  split_ifs <;> first | exact ⟨0, rfl⟩ | exact ⟨1, rfl⟩ | exact ⟨2, rfl⟩

theorem get_le_maxValue (v : V3 ℝ) (j : Fin 3) : v.get j ≤ v.maxValue := by
  obtain ⟨h1, h2, h3⟩ := le_maxValue v
  fin_cases j
  · exact h1
  · exact h2
  · exact h3

/-- Nowhere near the threshold. -/
def Alive (β : V3 ℝ) : Prop := NonNeg β ∧ 1 / 10000 ≤ β.maxValue

theorem Alive.not_zero {β : V3 ℝ} (h : Alive β) : isZero β = false := by
  obtain ⟨j, hj⟩ := maxValue_get β
  have h1 := h.2
  rw [hj] at h1
  by_contra hc
  have hz : isZero β = true := by simpa using hc
  simp only [isZero, Bool.and_eq_true, decide_eq_true_eq] at hz
  have := (le_abs_self (β.get j))
  fin_cases j
  · exact absurd (h1.trans this) (not_le.2 hz.1.1)
  · exact absurd (h1.trans this) (not_le.2 hz.1.2)
  · exact absurd (h1.trans this) (not_le.2 hz.2)

theorem Alive.cut {β : V3 ℝ} (h : NonNeg β) (hp : 0 < min β.maxValue 1) : Alive (cut β) := by
  refine ⟨h.cut hp, ?_⟩
  obtain ⟨j, hj⟩ := maxValue_get β
  refine le_trans ?_ (get_le_maxValue _ j)
  rw [Integrators.cut, get_smul, ← hj, mul_one_div, le_div_iff₀ hp]
  have h1 : min β.maxValue 1 ≤ β.maxValue := min_le_left _ _
  nlinarith

theorem Alive.step {β : V3 ℝ} {b : Bounce R} (h : Alive β) (hp : 0 < min β.maxValue 1) (ha : NonNeg b.albedo)
    (hpdf : 0 ≤ b.pdf) (hne : b.pdf ≠ 0) (hf : ∀ i, 1 / 10000 ≤ factor false i b) : Alive (step false β b) := by
  refine ⟨nonNeg_step h.1 hp ha hpdf, ?_⟩
  obtain ⟨j, hj⟩ := maxValue_get β
  refine le_trans ?_ (get_le_maxValue _ j)
  have h1 : min β.maxValue 1 ≤ β.maxValue := min_le_left _ _
  have h2 := hf j
  have e : (Integrators.step false β b).get j * min β.maxValue 1 = β.get j * factor false j b := by
    rw [Integrators.step, get_mul, get_smul, factor, if_neg hne]
    field_simp
  rw [← hj] at e
  have h3 : (1 / 10000 : ℝ) * min β.maxValue 1 ≤ (Integrators.step false β b).get j * min β.maxValue 1 := by
    rw [e]
    have : 0 ≤ factor false j b := by linarith
    nlinarith
  exact le_of_mul_le_mul_right h3 hp

theorem passMean_eq (W : Mist R M) (h : W.Lawful) (hb : W.Bright) (i : Fin 3) {A B : V3 ℝ → Option M → R → ℝ≥0∞}
    {A' B' : Option M → R → ℝ≥0∞} (hA : ∀ β m r, Alive β → A β m r = ENNReal.ofReal (β.get i) * A' m r)
    (hB : ∀ β m r, Alive β → B β m r = ENNReal.ofReal (β.get i) * B' m r) {β : V3 ℝ} (m : Option M) (r : R)
    (f : Flight) (hβ : NonNeg (β * f.weight)) (hp : 0 < min (β * f.weight).maxValue 1)
    (hc : f.scatters = false → Alive (β * f.weight)) :
    W.passMean i A B β m r f = ENNReal.ofReal ((β * f.weight).get i) * W.passLight i A' B' m r f := by
  unfold Mist.passMean Mist.passLight
  generalize β * f.weight = β' at hβ hp hc ⊢
  by_cases hs : f.scatters = true
  · rw [if_pos hs, if_pos hs]
    cases m with
    | none => simp
    | some m =>
      simp only [Option.elim, Mist.haze]
      rw [mul_add]
      congr 1
      rw [← lintegral_const_mul' _ _ ENNReal.ofReal_ne_top, ← lintegral_const_mul' _ _ ENNReal.ofReal_ne_top]
      refine lintegral_congr fun ω => ?_
      rw [hA _ _ _ (Alive.cut hβ hp), ← mul_assoc, cut_factor i hp]
  · rw [if_neg hs, if_neg hs]
    have ha := hc (by simpa using hs)
    by_cases hn : W.null r = true
    · rw [if_pos hn, if_pos hn]
      exact hB _ _ _ ha
    · rw [if_neg hn, if_neg hn, Mist.sheen, mul_add]
      congr 1
      rw [← lintegral_const_mul' _ _ ENNReal.ofReal_ne_top, ← lintegral_const_mul' _ _ ENNReal.ofReal_ne_top]
      refine lintegral_congr fun ω => ?_
      rcases hb.bounce r ω with hpdf | hf
      · simp [hpdf, factor]
      · by_cases hpdf : (W.scatter r ω).1.pdf = 0
        · simp [hpdf, factor]
        · have := h.scatter_nonneg r ω
          rw [if_neg hpdf, hA _ _ _ (ha.step hp this.1 this.2 hpdf hf), ← mul_assoc, step_factor' i hβ hp hpdf,
            mul_assoc]

theorem mul_white' (β : V3 ℝ) : β * white = β := Vol.mul_white _

theorem mist_mean_bright [Countable M] (W : Mist R M) (h : W.Lawful) (hb : W.Bright) (i : Fin 3) (k : ℕ) : ∀ n β m r,
    Alive β → W.mean i k n β m r = ENNReal.ofReal (β.get i) * W.carried i k n m r := by
  induction k with
  | zero => intro n β m r _; simp [Mist.mean, meanOf, Mist.gather, get_zero, Mist.carried]
  | succ k ih =>
    intro n β m r hβ
    cases n with
    | zero => simp [Mist.mean, meanOf, Mist.gather, get_zero, Mist.carried]
    | succ n =>
      have hz := hβ.not_zero
      cases he : W.escapes r with
      | true => rw [mist_escape W i k n β m r hβ.1 hz he, Mist.carried, if_pos he]
      | false =>
        rw [mist_pass W h i k n β m r hβ.1 hz he, carried_pass W i k n m r he,
          ← lintegral_const_mul' _ _ ENNReal.ofReal_ne_top]
        refine lintegral_congr fun ω => ?_
        obtain ⟨hβw, hpos⟩ := weighed_pos hβ.1 hz (fly_pos W h m r ω)
        have hc : (W.fly m r ω).1.scatters = false → Alive (β * (W.fly m r ω).1.weight) := by
          intro hs
          have : (W.fly m r ω).1.weight = white := by
            cases m with
            | none => rfl
            | some m => exact hb.clear m r ω hs
          rw [this, mul_white']
          exact hβ
        rw [passMean_eq W h hb i (ih n) (ih (n + 1)) m r _ hβw hpos hc, get_mul, ENNReal.ofReal_mul (hβ.1.get i),
          mul_assoc]

/-! ## Any number of passes -/

theorem fog_mono (W : Mist R M) (h : W.Lawful) {K K' : V3 ℝ → Option M → R → Stream → V3 ℝ} (i : Fin 3)
    (hK : ∀ β m r ω, NonNeg β → (K β m r ω).get i ≤ (K' β m r ω).get i) {β : V3 ℝ} (hβ : NonNeg β)
    (hp : 0 < min β.maxValue 1) (m : Option M) (r : R) (t : ℝ) (ω : Stream) :
    (W.fog K β m r t ω).get i ≤ (W.fog K' β m r t ω).get i := by
  unfold Mist.fog
  rw [get_add, get_add]
  refine add_le_add le_rfl ?_
  split_ifs
  · exact le_rfl
  · exact hK _ _ _ _ (hβ.cut hp)

theorem surf_mono (W : Mist R M) (h : W.Lawful) {K K' : V3 ℝ → Option M → R → Stream → V3 ℝ} (i : Fin 3)
    (hK : ∀ β m r ω, NonNeg β → (K β m r ω).get i ≤ (K' β m r ω).get i) {β : V3 ℝ} (hβ : NonNeg β)
    (hp : 0 < min β.maxValue 1) (m : Option M) (r : R) (ω : Stream) :
    (W.surf K β m r ω).get i ≤ (W.surf K' β m r ω).get i := by
  unfold Mist.surf
  rw [get_add, get_add]
  refine add_le_add le_rfl ?_
  split_ifs
  · exact le_rfl
  · have := h.scatter_nonneg r (drop 1 (W.bulbs m r ω).2)
    exact hK _ _ _ _ (nonNeg_step hβ hp this.1 this.2)

theorem mist_mono (W : Mist R M) (h : W.Lawful) (i : Fin 3) (k : ℕ) : ∀ n β m r ω, NonNeg β →
    (W.gather k n β m r ω).get i ≤ (W.gather (k + 1) n β m r ω).get i := by
  induction k with
  | zero =>
    intro n β m r ω hβ
    have : W.gather 0 n β m r ω = 0 := by cases n <;> rfl
    rw [this, get_zero]
    exact (mist_nonneg W h 1 n β m r ω hβ).get i
  | succ k ih =>
    intro n β m r ω hβ
    cases n with
    | zero => exact le_rfl
    | succ n =>
      rw [Mist.gather, Mist.gather]
      by_cases hz : isZero β = true
      · rw [if_pos hz, if_pos hz]
      · rw [if_neg hz, if_neg hz]
        obtain ⟨hβw, hpos⟩ := weighed_pos hβ (by simpa using hz) (fly_pos W h m r ω)
        split_ifs
        · exact le_rfl
        · exact fog_mono W h i (ih n) hβw hpos _ _ _ _
        · exact ih _ _ _ _ _ hβw
        · exact surf_mono W h i (ih n) hβw hpos _ _ _

theorem white_nonneg : NonNeg (white : V3 ℝ) := ⟨zero_le_one, zero_le_one, zero_le_one⟩

theorem Li_gather (W : Mist R M) (h : W.Lawful) (hm : W.Matte) (quot : ℝ → ℝ → ℝ) (hq : IsQuot quot) (maxBounces : ℕ)
    (env : Option M) (ray : R) (ω : Stream) (fuel : ℕ) (v : V3 ℝ) (hv : W.Li quot maxBounces env ray ω fuel = some v) :
    v = W.gather fuel maxBounces white env ray ω := by
  have := volLoop_gather W h hm quot hq maxBounces (env, ray, ω) _ (fun k => rfl) fuel 0
    ⟨0, white, Closure.fresh, [], env, 0⟩ v white_nonneg rfl rfl hv
  rw [this]
  exact zero_add _

theorem mist_sup [Countable M] (W : Mist R M) (h : W.Lawful) (hm : W.Matte) (quot : ℝ → ℝ → ℝ) (hq : IsQuot quot)
    (maxBounces : ℕ) (env : Option M) (ray : R) (v : Stream → V3 ℝ) (hv : W.Renders quot maxBounces env ray v)
    (i : Fin 3) :
    ∫⁻ ω, ENNReal.ofReal ((v ω).get i) ∂uniform = ⨆ k, W.mean i k maxBounces white env ray := by
  unfold Mist.mean meanOf
  have hmono : ∀ ω, Monotone fun k => ENNReal.ofReal ((W.gather k maxBounces white env ray ω).get i) := fun ω =>
    monotone_nat_of_le_succ fun k => ENNReal.ofReal_le_ofReal (mist_mono W h i k _ _ _ _ ω white_nonneg)
  have mc : ∀ k, Measurable fun ω => ENNReal.ofReal ((W.gather k maxBounces white env ray ω).get i) := fun k =>
    ((measurable_get i).comp ((measurable_mist W h k maxBounces env).comp
      (measurable_const.prodMk (measurable_const.prodMk measurable_id)))).ennreal_ofReal
  rw [← lintegral_iSup mc fun a b hab ω => hmono ω hab]
  refine lintegral_congr_ae ?_
  filter_upwards [hv] with ω ⟨fuel, hf⟩
  have key : ∀ k, fuel ≤ k → v ω = W.gather k maxBounces white env ray ω := fun k hk =>
    Li_gather W h hm quot hq maxBounces env ray ω k _ (Vol.vol_fuel quot maxBounces env _ fuel k hk _ hf)
  refine le_antisymm ?_ (iSup_le fun k => ?_)
  · rw [key fuel le_rfl]
    exact le_iSup (fun k => ENNReal.ofReal ((W.gather k maxBounces white env ray ω).get i)) fuel
  · rcases le_total fuel k with hk | hk
    · rw [key k hk]
    · rw [key fuel le_rfl]
      exact hmono ω hk

/-! ## The theorems -/

/-- **C105, never too much.** The mean of what the integrator returns is at most the light carried back by paths with at
most `maxBounces` vertices. -/
theorem vol_mean_le [Countable M] (W : Mist R M) (h : W.Lawful) (hm : W.Matte) (quot : ℝ → ℝ → ℝ) (hq : IsQuot quot)
    (maxBounces : ℕ) (env : Option M) (ray : R) (v : Stream → V3 ℝ) (hv : W.Renders quot maxBounces env ray v)
    (i : Fin 3) : ∫⁻ ω, ENNReal.ofReal ((v ω).get i) ∂uniform ≤ W.light i maxBounces env ray := by
  rw [mist_sup W h hm quot hq maxBounces env ray v hv i]
  refine iSup_mono fun k => ?_
  have := mist_mean_le W h i k maxBounces white env ray white_nonneg
  rwa [white_get, ENNReal.ofReal_one, one_mul] at this

/-- **C105, hardly too little.** It is at least that light less a ten-thousandth of the largest value light has on any
ray. -/
theorem vol_mean_ge [Countable M] (W : Mist R M) (h : W.Lawful) (hm : W.Matte) (quot : ℝ → ℝ → ℝ) (hq : IsQuot quot)
    (maxBounces : ℕ) (env : Option M) (ray : R) (v : Stream → V3 ℝ) (hv : W.Renders quot maxBounces env ray v)
    (i : Fin 3) (L : ℝ≥0∞) (hL : ∀ n ≤ maxBounces, ∀ m r, W.light i n m r ≤ L) :
    W.light i maxBounces env ray ≤ ∫⁻ ω, ENNReal.ofReal ((v ω).get i) ∂uniform + ENNReal.ofReal (1 / 10000) * L := by
  rw [mist_sup W h hm quot hq maxBounces env ray v hv i]
  refine iSup_le fun k => ?_
  have := mist_mean_ge W h i L k maxBounces
    (fun k' _ n' hn' m r => (le_iSup (fun k => W.carried i k n' m r) k').trans (hL n' hn' m r)) white env ray white_nonneg
  rw [white_get, ENNReal.ofReal_one, one_mul] at this
  exact this.trans (add_le_add (le_iSup (fun k => W.mean i k maxBounces white env ray) k) le_rfl)

/-- **C105, without loss.** If no medium only absorbs and every surface sends on at least a ten-thousandth or nothing, the
mean is exactly the light carried back. -/
theorem vol_mean_bright [Countable M] (W : Mist R M) (h : W.Lawful) (hm : W.Matte) (hb : W.Bright) (quot : ℝ → ℝ → ℝ)
    (hq : IsQuot quot) (maxBounces : ℕ) (env : Option M) (ray : R) (v : Stream → V3 ℝ)
    (hv : W.Renders quot maxBounces env ray v) (i : Fin 3) :
    ∫⁻ ω, ENNReal.ofReal ((v ω).get i) ∂uniform = W.light i maxBounces env ray := by
  rw [mist_sup W h hm quot hq maxBounces env ray v hv i]
  refine iSup_congr fun k => ?_
  have ha : Alive white := ⟨white_nonneg, (by norm_num : (1 / 10000 : ℝ) ≤ 1).trans (by
    have := get_le_maxValue (white : V3 ℝ) 0
    rwa [white_get] at this)⟩
  have := mist_mean_bright W h hb i k maxBounces white env ray ha
  rwa [white_get, ENNReal.ofReal_one, one_mul] at this

theorem answer_not_null (W : Mist R M) (hn : ∀ r, W.null r = false) (p : MistState R M) (m : Option M) :
    Vol.IsNull (Vol.happens (W.answer p) m) = false := by
  unfold Mist.answer
  split_ifs
  · cases m <;> rfl
  · have ht : W.target p.1 p.2.1 (W.landed p) ≠ .null := by
      unfold Mist.target
      rw [if_neg (by simp [hn])]
      intro hc
      cases hc
    generalize W.target p.1 p.2.1 (W.landed p) = t at ht
    cases t with
    | null => exact absurd rfl ht
    | surface s =>
      cases m with
      | none => rfl
      | some m =>
        simp only [Vol.happens]
        cases ((W.through p.2.1 p.2.2 m).scatter) <;> rfl

/-- Without null surfaces the integrator always returns. -/
theorem renders_of_solid (W : Mist R M) (hn : ∀ r, W.null r = false) (quot : ℝ → ℝ → ℝ) (maxBounces : ℕ)
    (env : Option M) (ray : R) : ∃ v, W.Renders quot maxBounces env ray v := by
  have key : ∀ ω, ∃ v, W.Li quot maxBounces env ray ω (maxBounces + 0 + 1) = some v := by
    intro ω
    refine Vol.vol_returns quot maxBounces 0 env _ ?_
    unfold Vol.crossings
    rw [Finset.filter_false_of_mem, Finset.card_empty]
    intro j _
    unfold Vol.eventAt
    rw [answer_not_null W hn]
    simp
  choose v hv using key
  exact ⟨v, Filter.Eventually.of_forall fun ω => ⟨_, hv ω⟩⟩

/-- The medium after an event. -/
noncomputable def mediumAfter (m : Option M) : Vol.Event ℝ M → Option M
  | .null _ (some b) => Vol.Boundary.beyond b
  | _ => m

theorem mediumAt_after (env : Option M) (ans : ℕ → VolAnswer ℝ M) (k : ℕ) :
    Vol.mediumAt env ans (k + 1) = mediumAfter (Vol.mediumAt env ans k) (Vol.eventAt env ans k) := by
  simp only [Vol.mediumAt, mediumAfter, Vol.eventAt]
  cases Vol.happens (ans k) (Vol.mediumAt env ans k) with
  | null w b => cases b <;> rfl
  | _ => rfl

/-- What the medium of a pass is. -/
theorem walk_medium (W : Mist R M) (env : Option M) (ray : R) (ω : Stream) (k : ℕ) :
    Vol.mediumAt env (fun k => W.answer (W.walk (env, ray, ω) k)) k = (W.walk (env, ray, ω) k).1 := by
  induction k with
  | zero => rfl
  | succ k ih =>
    rw [mediumAt_after, Vol.eventAt, ih]
    simp only [Mist.walk]
    generalize W.walk (env, ray, ω) k = p
    obtain ⟨m, r, σ⟩ := p
    unfold Mist.answer Mist.advance
    cases he : W.escapes r
    · simp only [Bool.false_eq_true, if_false]
      have arr : ∀ (w : V3 ℝ) (σ' : Stream),
          mediumAfter m (Vol.arrive w (W.boundary r) (W.target m r (W.landed (m, r, σ)))) = (W.arrive m r σ').1 := by
        intro w σ'
        unfold Mist.target Mist.arrive
        cases hn : W.null r
        · simp only [Bool.false_eq_true, if_false, Vol.arrive, mediumAfter]
        · simp only [if_true, Vol.arrive, Mist.beyond]
          cases W.boundary r <;> rfl
      cases m with
      | none => exact arr white σ
      | some m =>
        simp only [Vol.happens, Mist.through]
        cases hs : (W.free m r σ).1.scatters
        · exact arr (W.free m r σ).1.weight (W.free m r σ).2
        · rfl
    · simp only [if_true, Vol.happens, mediumAfter]

/-- A null event moves the ray past the surface. -/
theorem walk_null (W : Mist R M) (env : Option M) (ray : R) (ω : Stream) (k : ℕ)
    (h : Vol.IsNull (Vol.eventAt env (fun k => W.answer (W.walk (env, ray, ω) k)) k) = true) :
    W.escapes (W.walk (env, ray, ω) k).2.1 = false ∧ W.null (W.walk (env, ray, ω) k).2.1 = true ∧
      (W.walk (env, ray, ω) (k + 1)).2.1 = W.past (W.walk (env, ray, ω) k).2.1 := by
  rw [Vol.eventAt, walk_medium] at h
  simp only [Mist.walk]
  generalize W.walk (env, ray, ω) k = p at *
  obtain ⟨m, r, σ⟩ := p
  simp only [Mist.answer, Mist.advance] at *
  cases he : W.escapes r
  · simp only [he, Bool.false_eq_true, if_false, true_and] at *
    have arr : ∀ (w : V3 ℝ) (σ' : Stream),
        Vol.IsNull (Vol.arrive w (W.boundary r) (W.target m r (W.landed (m, r, σ)))) = true →
        W.null r = true ∧ (W.arrive m r σ').2.1 = W.past r := by
      intro w σ' h
      unfold Mist.target at h
      unfold Mist.arrive
      cases hn : W.null r
      · rw [hn] at h
        cases h
      · simp
    cases m with
    | none => exact arr white σ h
    | some m =>
      simp only [Vol.happens, Mist.through] at h
      cases hs : (W.free m r σ).1.scatters
      · rw [hs] at h
        simp only [hs, Bool.false_eq_true, if_false]
        exact arr (W.free m r σ).1.weight (W.free m r σ).2 h
      · rw [hs] at h
        cases h
  · rw [he] at h
    simp only [if_true, Vol.happens] at h
    cases h

theorem walk_crossings (W : Mist R M) (env : Option M) (ray : R) (ω : Stream) (N : ℕ) (rank : R → ℕ)
    (hN : ∀ r, rank r ≤ N) (hp : ∀ r, W.escapes r = false → W.null r = true → rank (W.past r) < rank r) (k : ℕ) :
    Vol.crossings (Vol.eventAt env fun k => W.answer (W.walk (env, ray, ω) k)) k + rank (W.walk (env, ray, ω) k).2.1 ≤
      N * (k - Vol.crossings (Vol.eventAt env fun k => W.answer (W.walk (env, ray, ω) k)) k + 1) := by
  induction k with
  | zero => simpa [Vol.crossings] using hN _
  | succ k ih =>
    have hle : Vol.crossings (Vol.eventAt env fun k => W.answer (W.walk (env, ray, ω) k)) k ≤ k := by
      have := Vol.vertices_add_crossings (Vol.eventAt env fun k => W.answer (W.walk (env, ray, ω) k)) k
      omega
    have hs : Vol.crossings (Vol.eventAt env fun k => W.answer (W.walk (env, ray, ω) k)) (k + 1) =
        Vol.crossings (Vol.eventAt env fun k => W.answer (W.walk (env, ray, ω) k)) k +
          if Vol.IsNull (Vol.eventAt env (fun k => W.answer (W.walk (env, ray, ω) k)) k) = true then 1 else 0 := by
      unfold Vol.crossings
      rw [Finset.range_add_one, Finset.filter_insert]
      split_ifs
      · rw [Finset.card_insert_of_notMem (by simp)]
      · rfl
    rw [hs]
    generalize hc : Vol.crossings (Vol.eventAt env fun k => W.answer (W.walk (env, ray, ω) k)) k = c at *
    split_ifs with hn
    · obtain ⟨h1, h2, h3⟩ := walk_null W env ray ω k hn
      have := hp _ h1 h2
      rw [h3]
      have e : k + 1 - (c + 1) = k - c := by omega
      rw [e]
      omega
    · have := hN (W.walk (env, ray, ω) (k + 1)).2.1
      have e : k + 1 - (c + 0) + 1 = (k - c + 1) + 1 := by omega
      rw [e, mul_add, mul_one]
      omega

/-- If no ray crosses more than `N` null surfaces in a row, the loop ends for every stream. -/
theorem few_returns (W : Mist R M) (N : ℕ) (rank : R → ℕ) (hN : ∀ r, rank r ≤ N)
    (hp : ∀ r, W.escapes r = false → W.null r = true → rank (W.past r) < rank r) (quot : ℝ → ℝ → ℝ) (maxBounces : ℕ)
    (env : Option M) (ray : R) (ω : Stream) :
    ∃ v, W.Li quot maxBounces env ray ω (maxBounces + N * maxBounces + 1) = some v := by
  refine Vol.vol_returns quot maxBounces (N * maxBounces) env _ ?_
  have h1 := walk_crossings W env ray ω N rank hN hp (maxBounces + N * maxBounces)
  have h2 := Vol.vertices_add_crossings (Vol.eventAt env fun k => W.answer (W.walk (env, ray, ω) k))
    (maxBounces + N * maxBounces)
  generalize Vol.crossings (Vol.eventAt env fun k => W.answer (W.walk (env, ray, ω) k))
    (maxBounces + N * maxBounces) = c at *
  by_contra hlt
  have h3 : maxBounces + N * maxBounces - c + 1 ≤ maxBounces := by omega
  have := Nat.mul_le_mul_left N h3
  omega

/-- If no ray crosses more than `N` null surfaces in a row, the integrator always returns. -/
theorem renders_of_few (W : Mist R M) (N : ℕ) (rank : R → ℕ) (hN : ∀ r, rank r ≤ N)
    (hp : ∀ r, W.escapes r = false → W.null r = true → rank (W.past r) < rank r) (quot : ℝ → ℝ → ℝ) (maxBounces : ℕ)
    (env : Option M) (ray : R) : ∃ v, W.Renders quot maxBounces env ray v := by
  choose v hv using few_returns W N rank hN hp quot maxBounces env ray
  exact ⟨v, Filter.Eventually.of_forall fun ω => ⟨_, hv ω⟩⟩

end Feign.Integrators
