import Verif.Image.ShootProps
import Verif.Image.FilterProps

/-!
# C101 for the filters of the renderer

Both filters are measurable and bounded, and both reach every pixel of the film, so the limit of `render_converges`
applies to every pixel.
-/

set_option linter.unusedSectionVars false
set_option linter.unusedVariables false

namespace Feign.Image

open Sampling MeasureTheory Warp Integrators _root_.Filter Topology
open scoped ENNReal

variable {R : Type} [MeasurableSpace R] {ray : ℝ × ℝ → ℝ × ℝ → R} {Li : R → Stream → V3 ℝ × Stream}

/-- The box filter is measurable and bounded. -/
theorem box_tame (sx sy : ℝ) : (boxFilter sx sy).Tame where
  well := box_wellBehaved sx sy
  measurable := by
    have h : MeasurableSet {q : ℝ × ℝ | |q.1| < sx ∧ |q.2| < sy} :=
      (measurableSet_lt (continuous_abs.measurable.comp measurable_fst) measurable_const).inter
        (measurableSet_lt (continuous_abs.measurable.comp measurable_snd) measurable_const)
    exact Measurable.ite h measurable_const measurable_const
  bounded := ⟨1, fun a b => by simp only [boxFilter, boxEval]; split_ifs <;> norm_num⟩

/-- The Gaussian filter is measurable and bounded. -/
theorem gauss_tame (sx sy sd : ℝ) (hx : 0 ≤ sx) (hy : 0 ≤ sy) : (gaussFilter sx sy sd).Tame where
  well := gauss_wellBehaved sx sy sd hx hy
  measurable := by
    have : Continuous fun q : ℝ × ℝ => (gaussFilter sx sy sd).eval q.1 q.2 := by
      unfold gaussFilter
      fun_prop
    exact this.measurable
  bounded := by
    refine ⟨1, fun a b => ?_⟩
    have f : ∀ s a : ℝ, max 0 (Real.exp (-1 / (2 * sd * sd) * a * a) - Real.exp (-1 / (2 * sd * sd) * s * s)) ≤ 1 := by
      intro s a
      refine max_le zero_le_one ?_
      have e1 : Real.exp (-1 / (2 * sd * sd) * a * a) ≤ 1 := by
        rw [Real.exp_le_one_iff, mul_assoc]
        refine mul_nonpos_of_nonpos_of_nonneg (div_nonpos_of_nonpos_of_nonneg (by norm_num) ?_) (mul_self_nonneg a)
        have := mul_self_nonneg sd
        nlinarith
      have e2 := Real.exp_pos (-1 / (2 * sd * sd) * s * s)
      linarith
    exact mul_le_one₀ (f sx a) (le_max_left _ _) (f sy b)

/-- A filter that is positive around its centre reaches every pixel of the film. -/
theorem reaches {flt : Image.Filter ℝ} (hf : flt.Tame) (r : ℝ) (hr : 0 < r)
    (hpos : ∀ a b, |a| < r → |b| < r → 0 < flt.eval a b) (w h x y : ℕ) (hx : x < w) (hy : y < h) :
    ∫⁻ p in film w h, weightAt flt x y p ≠ 0 := by
  intro h0
  have mfilm : MeasurableSet (film w h) := measurableSet_Ioo.prod measurableSet_Ioo
  rw [lintegral_eq_zero_iff (measurable_weightAt hf x y)] at h0
  have h1 := (ae_restrict_iff' mfilm).1 h0
  let t := min r (1 / 2)
  have ht : 0 < t := lt_min hr (by norm_num)
  let S : Set (ℝ × ℝ) := Set.Ioo ((x : ℝ) + 1 / 2 - t) ((x : ℝ) + 1 / 2 + t) ×ˢ
    Set.Ioo ((y : ℝ) + 1 / 2 - t) ((y : ℝ) + 1 / 2 + t)
  have hsub : S ⊆ {p | ¬ (p ∈ film w h → weightAt flt x y p = (0 : ℝ × ℝ → ℝ≥0∞) p)} := by
    rintro ⟨a, b⟩ ⟨⟨a1, a2⟩, b1, b2⟩
    have tr : t ≤ r := min_le_left _ _
    have th : t ≤ 1 / 2 := min_le_right _ _
    have hx' : (x : ℝ) + 1 ≤ w := by exact_mod_cast hx
    have hy' : (y : ℝ) + 1 ≤ h := by exact_mod_cast hy
    have x0 : (0 : ℝ) ≤ x := Nat.cast_nonneg x
    have y0 : (0 : ℝ) ≤ y := Nat.cast_nonneg y
    dsimp only at a1 a2 b1 b2
    intro hc
    have hin : (a, b) ∈ film w h := ⟨⟨by dsimp only; linarith, by dsimp only; linarith⟩,
      ⟨by dsimp only; linarith, by dsimp only; linarith⟩⟩
    have hz := hc hin
    have hp := hpos ((x : ℝ) + 1 / 2 - a) ((y : ℝ) + 1 / 2 - b)
      (abs_lt.2 ⟨by linarith, by linarith⟩) (abs_lt.2 ⟨by linarith, by linarith⟩)
    exact absurd hz (ENNReal.ofReal_pos.2 hp).ne'
  have hS : volume S = 0 := measure_mono_null hsub h1
  rw [Measure.volume_eq_prod, Measure.prod_prod, Real.volume_Ioo, Real.volume_Ioo] at hS
  rcases mul_eq_zero.1 hS with h | h
  · exact absurd h (ENNReal.ofReal_pos.2 (by linarith)).ne'
  · exact absurd h (ENNReal.ofReal_pos.2 (by linarith)).ne'

/-- **C101 for the filter the renderer uses.** With the filter that every scene gets, for almost every stream of random
numbers, every pixel tends to the filtered light as the number of samples per pixel grows. -/
theorem default_filter_converges (hL : Lawful ray Li) (w h : ℕ) :
    ∀ᵐ ω ∂uniform, ∃ img : ℕ → Int → Int → Fin 3 → ℝ,
      (∀ spp, renderWith apiDefaultFilter w h spp ray Li ω = .ok (img spp)) ∧
      ∀ (x y : ℕ) (c : Fin 3), x < w → y < h →
        Tendsto (fun spp => img spp x y c) atTop
          (𝓝 (filtered apiDefaultFilter w h x y
            (lightAt ray fun r => ∫⁻ ω, ENNReal.ofReal ((Li r ω).1.get c) ∂uniform)).toReal) := by
  have ht : apiDefaultFilter.Tame := gauss_tame 2 2 1 (by norm_num) (by norm_num)
  filter_upwards [render_converges ht hL w h] with ω ⟨img, h1, h2⟩
  refine ⟨img, h1, fun x y c hx hy => h2 x y c hx hy (reaches ht 2 (by norm_num) (fun a b ha hb => ?_) w h x y hx hy)⟩
  exact (gauss_pos_iff 2 2 1 (by norm_num) (by norm_num) (by norm_num) a b).2 ⟨ha, hb⟩

/-- **C101 for the box filter** of any positive size. -/
theorem box_filter_converges (sx sy : ℝ) (hsx : 0 < sx) (hsy : 0 < sy) (hL : Lawful ray Li) (w h : ℕ) :
    ∀ᵐ ω ∂uniform, ∃ img : ℕ → Int → Int → Fin 3 → ℝ,
      (∀ spp, renderWith (boxFilter sx sy) w h spp ray Li ω = .ok (img spp)) ∧
      ∀ (x y : ℕ) (c : Fin 3), x < w → y < h →
        Tendsto (fun spp => img spp x y c) atTop
          (𝓝 (filtered (boxFilter sx sy) w h x y
            (lightAt ray fun r => ∫⁻ ω, ENNReal.ofReal ((Li r ω).1.get c) ∂uniform)).toReal) := by
  filter_upwards [render_converges (box_tame sx sy) hL w h] with ω ⟨img, h1, h2⟩
  refine ⟨img, h1, fun x y c hx hy =>
    h2 x y c hx hy (reaches (box_tame sx sy) (min sx sy) (lt_min hsx hsy) (fun a b ha hb => ?_) w h x y hx hy)⟩
  have : |a| < sx ∧ |b| < sy := ⟨ha.trans_le (min_le_left _ _), hb.trans_le (min_le_right _ _)⟩
  simp [boxFilter, boxEval, this]

end Feign.Image
