import Verif.Bsdf.LobeProps
import Verif.Sampling.WarpCharts

/-! # Distribution of sampled directions (helper lemmas) -/

set_option linter.unusedSectionVars false

namespace Feign.Warp

open MeasureTheory Set
open scoped ENNReal

/-- Part of an interval, stretched to the unit interval. -/
theorem stretch (a c : ℝ) (hc : 0 < c) (J : ℝ → ℝ≥0∞) :
    ∫⁻ x in Ioo a (a + c), J ((x - a) / c) = ENNReal.ofReal c * ∫⁻ y in Ioo (0 : ℝ) 1, J y := by
  have him : (fun y : ℝ => a + c * y) '' Ioo 0 1 = Ioo a (a + c) := by
    ext b
    constructor
    · rintro ⟨y, ⟨h0, h1⟩, rfl⟩
      exact ⟨by show a < a + c * y; nlinarith, by show a + c * y < a + c; nlinarith⟩
    · rintro ⟨h0, h1⟩
      refine ⟨(b - a) / c, ⟨div_pos (by linarith) hc, by rw [div_lt_one hc]; linarith⟩, ?_⟩
      show a + c * ((b - a) / c) = b
      field_simp; ring
  rw [← him, lintegral_image_eq_lintegral_abs_deriv_mul (f := fun y : ℝ => a + c * y) (f' := fun _ => c)
    measurableSet_Ioo
    (fun x _ => by simpa using (((hasDerivAt_id x).const_mul c).const_add a).hasDerivWithinAt)
    (fun x _ y _ hxy => mul_left_cancel₀ hc.ne' (add_left_cancel hxy)),
    ← lintegral_const_mul' _ _ ENNReal.ofReal_ne_top]
  apply lintegral_congr
  intro y
  rw [abs_of_pos hc]
  congr 2
  field_simp
  ring

open Classical in
/-- Choosing between two warps with the first number and using its rest again. -/
noncomputable def choice (k : ℝ) (w₁ w₂ : V2 ℝ → V3 ℝ) (q : ℝ × ℝ) : V3 ℝ :=
  if q.1 < k then w₁ ⟨q.1 / k, q.2⟩ else w₂ ⟨(q.1 - k) / (1 - k), q.2⟩

theorem choice_law (k : ℝ) (h0 : 0 ≤ k) (h1 : k ≤ 1) (w₁ w₂ : V2 ℝ → V3 ℝ)
    (hw₁ : Measurable fun q : ℝ × ℝ => w₁ ⟨q.1, q.2⟩) (hw₂ : Measurable fun q : ℝ × ℝ => w₂ ⟨q.1, q.2⟩) :
    Measurable (choice k w₁ w₂) ∧ Measure.map (choice k w₁ w₂) square =
      ENNReal.ofReal k • Measure.map (fun q : ℝ × ℝ => w₁ ⟨q.1, q.2⟩) square +
      ENNReal.ofReal (1 - k) • Measure.map (fun q : ℝ × ℝ => w₂ ⟨q.1, q.2⟩) square := by
  have hm : Measurable (choice k w₁ w₂) := by
    refine Measurable.ite (measurableSet_lt measurable_fst measurable_const) ?_ ?_
    · exact hw₁.comp (by fun_prop : Measurable fun q : ℝ × ℝ => (q.1 / k, q.2))
    · exact hw₂.comp (by fun_prop : Measurable fun q : ℝ × ℝ => ((q.1 - k) / (1 - k), q.2))
  refine ⟨hm, Measure.ext fun A hA => ?_⟩
  have hA1 : Measurable (A.indicator (1 : V3 ℝ → ℝ≥0∞)) := measurable_one.indicator hA
  have hmap : ∀ w : ℝ × ℝ → V3 ℝ, Measurable w → Measure.map w square A =
      ∫⁻ x in Ioo (0 : ℝ) 1, ∫⁻ y in Ioo (0 : ℝ) 1, A.indicator (1 : V3 ℝ → ℝ≥0∞) (w (x, y)) := by
    intro w hw
    have hcomp : Measurable fun q : ℝ × ℝ => A.indicator (1 : V3 ℝ → ℝ≥0∞) (w q) := hA1.comp hw
    rw [← lintegral_indicator_one hA, lintegral_map hA1 hw, square, lintegral_prod _ hcomp.aemeasurable]
  rw [Measure.add_apply, Measure.smul_apply, Measure.smul_apply, hmap _ hm, hmap _ hw₁, hmap _ hw₂, smul_eq_mul,
    smul_eq_mul]
  let J₁ : ℝ → ℝ≥0∞ := fun x => ∫⁻ y in Ioo (0 : ℝ) 1, A.indicator (1 : V3 ℝ → ℝ≥0∞) (w₁ ⟨x, y⟩)
  let J₂ : ℝ → ℝ≥0∞ := fun x => ∫⁻ y in Ioo (0 : ℝ) 1, A.indicator (1 : V3 ℝ → ℝ≥0∞) (w₂ ⟨x, y⟩)
  have hJ : ∀ x, ∫⁻ y in Ioo (0 : ℝ) 1, A.indicator (1 : V3 ℝ → ℝ≥0∞) (choice k w₁ w₂ (x, y)) =
      if x < k then J₁ (x / k) else J₂ ((x - k) / (1 - k)) := by
    intro x
    by_cases h : x < k
    · simp only [choice, if_pos h, J₁]
    · simp only [choice, if_neg h, J₂]
  simp only [hJ]
  have hs : Ioo (0 : ℝ) 1 =ᵐ[volume] (Ioo 0 k ∪ Ioo k 1 : Set ℝ) := by
    have hne : ∀ᵐ t : ℝ, t ≠ k := by simp [ae_iff, measure_singleton]
    filter_upwards [hne] with t ht
    refine propext ⟨fun h => ?_, fun h => ?_⟩
    · rcases lt_or_gt_of_ne ht with h' | h'
      · exact Or.inl ⟨h.1, h'⟩
      · exact Or.inr ⟨h', h.2⟩
    · rcases h with h | h
      · exact ⟨h.1, h.2.trans_le h1⟩
      · exact ⟨h0.trans_lt h.1, h.2⟩
  rw [setLIntegral_congr hs, lintegral_union measurableSet_Ioo
    (by rw [disjoint_left]; intro x hx hy; exact absurd hx.2 (not_lt.mpr hy.1.le))]
  congr 1
  · rw [setLIntegral_congr_fun measurableSet_Ioo (g := fun x => J₁ (x / k)) (fun x hx => if_pos hx.2)]
    rcases h0.eq_or_lt with h | h
    · subst h; simp
    · have := stretch 0 k h J₁
      simpa using this
  · rw [setLIntegral_congr_fun measurableSet_Ioo (g := fun x => J₂ ((x - k) / (1 - k)))
      (fun x hx => if_neg (not_lt.mpr hx.1.le))]
    rcases h1.eq_or_lt with h | h
    · subst h; simp
    · have := stretch k (1 - k) (by linarith) J₂
      simpa using this

/-- A density seen from another frame. -/
theorem law_toWorld (f : Frame) (h : f.Orthonormal) (p : V3 ℝ → ℝ≥0∞) (hp : Measurable p) :
    Measure.map f.toWorld (solidAngle.withDensity p) = solidAngle.withDensity fun v => p (f.toLocal v) := by
  have hf := measurable_toWorld f
  have hl : Measurable f.toLocal := by
    apply measurable_of <;> simp only [Frame.toLocal, V3.dot] <;> fun_prop
  refine Measure.ext fun A hA => ?_
  rw [Measure.map_apply hf hA, withDensity_apply _ (hf hA), withDensity_apply _ hA, ← lintegral_indicator hA,
    ← lintegral_indicator (hf hA)]
  have hpl : Measurable fun v => p (f.toLocal v) := hp.comp hl
  conv_rhs => rw [← solidAngle_toWorld f h]
  rw [lintegral_map (hpl.indicator hA) hf]
  apply lintegral_congr
  intro v
  by_cases hv : f.toWorld v ∈ A
  · rw [indicator_of_mem hv, indicator_of_mem (show v ∈ f.toWorld ⁻¹' A from hv)]
    show p v = p (f.toLocal (f.toWorld v))
    rw [Frame.toLocal_toWorld f h]
  · rw [indicator_of_notMem hv, indicator_of_notMem (show v ∉ f.toWorld ⁻¹' A from hv)]

/-- Averages over directions drawn with a density. -/
theorem mean_of_law {w : ℝ × ℝ → V3 ℝ} {p : V3 ℝ → ℝ} (hw : Measurable w) (hpm : Measurable p) (hp : ∀ v, 0 ≤ p v)
    (hlaw : Measure.map w square = solidAngle.withDensity fun v => ENNReal.ofReal (p v))
    (F : V3 ℝ → ℝ) (hF : Measurable F) :
    ∫ q, F (w q) ∂square = ∫ v, p v * F v ∂solidAngle := by
  rw [← integral_map hw.aemeasurable hF.aestronglyMeasurable, hlaw,
    integral_withDensity_eq_integral_toReal_smul hpm.ennreal_ofReal
      (Filter.Eventually.of_forall fun _ => ENNReal.ofReal_lt_top)]
  simp only [ENNReal.toReal_ofReal (hp _), smul_eq_mul]

end Feign.Warp
