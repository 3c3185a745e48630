import Verif.Image.FilmLemmas

/-!
# C101: the rendered image tends to the filtered light

As the number of samples per pixel grows, for almost every stream of random numbers, every pixel tends to the average
over the film of the light that arrives, weighted with the reconstruction filter.
-/

set_option linter.unusedSectionVars false
set_option linter.unusedVariables false

namespace Feign.Image

open Sampling MeasureTheory Warp Integrators _root_.Filter Topology
open scoped ENNReal

variable {R : Type} [MeasurableSpace R] {ray : ℝ × ℝ → ℝ × ℝ → R} {Li : R → Stream → V3 ℝ × Stream}

/-- A filter that is measurable and bounded. -/
structure Filter.Tame (flt : Image.Filter ℝ) : Prop where
  well : flt.WellBehaved
  measurable : Measurable fun q : ℝ × ℝ => flt.eval q.1 q.2
  bounded : ∃ C : ℝ, ∀ a b, flt.eval a b ≤ C

theorem measurable_offset {flt : Image.Filter ℝ} (hf : flt.Tame) (x y i j : ℕ) :
    Measurable fun s : ℝ × ℝ => flt.eval ((x : ℝ) + 1 / 2 - ((j : ℝ) + s.1)) ((y : ℝ) + 1 / 2 - ((i : ℝ) + s.2)) :=
  hf.measurable.comp ((measurable_const.sub (measurable_const.add measurable_fst)).prodMk
    (measurable_const.sub (measurable_const.add measurable_snd)))

theorem measurable_weightAt {flt : Image.Filter ℝ} (hf : flt.Tame) (x y : ℕ) : Measurable (weightAt flt x y) :=
  (hf.measurable.comp ((measurable_const.sub measurable_fst).prodMk (measurable_const.sub measurable_snd))).ennreal_ofReal

/-- Averages for one pixel of the film. -/
theorem pixel_average {flt : Image.Filter ℝ} (hf : flt.Tame) (hL : Lawful ray Li) (w h x y : ℕ) (p : ℕ × ℕ) (hp : p ∈ scan w h)
    (c : Fin 3) :
    ∀ᵐ ω ∂uniform,
      Tendsto (fun n : ℕ => (∑ k ∈ Finset.range n, sampleWeight flt (obsAt ray Li w h ω) x y k p.1 p.2 *
          (obsAt ray Li w h ω k p.1 p.2).rad c) / n) atTop
        (𝓝 (∫⁻ s, weightAt flt x y ((p.2 : ℝ) + s.1, (p.1 : ℝ) + s.2) *
          lightAt ray (meanLi Li c) ((p.2 : ℝ) + s.1, (p.1 : ℝ) + s.2) ∂square).toReal) ∧
      Tendsto (fun n : ℕ => (∑ k ∈ Finset.range n, sampleWeight flt (obsAt ray Li w h ω) x y k p.1 p.2) / n) atTop
        (𝓝 (∫⁻ s, weightAt flt x y ((p.2 : ℝ) + s.1, (p.1 : ℝ) + s.2) ∂square).toReal) := by
  obtain ⟨C, hC⟩ := hf.bounded
  obtain ⟨B, hB, hBl⟩ := lightAt_le hL
  have hfr := frame_fresh hL w h p hp
  let g : ℝ × ℝ → ℝ := fun s =>
    flt.eval ((x : ℝ) + 1 / 2 - ((p.2 : ℝ) + s.1)) ((y : ℝ) + 1 / 2 - ((p.1 : ℝ) + s.2))
  have mg : Measurable g := measurable_offset hf x y p.1 p.2
  have hg0 : ∀ s, 0 ≤ g s := fun s => hf.well.nonneg _ _
  have hgw : ∀ s : ℝ × ℝ, ENNReal.ofReal (g s) = weightAt flt x y ((p.2 : ℝ) + s.1, (p.1 : ℝ) + s.2) := fun s => rfl
  -- radiance
  let X : (ℝ × ℝ) × V3 ℝ → ℝ := fun a => g a.1 * a.2.get c
  have mX : Measurable X := (mg.comp measurable_fst).mul ((measurable_get c).comp measurable_snd)
  have mfr1 : Measurable fun ω => (frame ray Li w h p ω).1 := measurable_fst.comp hfr.1
  have hX0 : ∀ ω, 0 ≤ X (frame ray Li w h p ω).1 := fun ω => mul_nonneg (hg0 _) ((hL.nonneg _ _).get c)
  have back : ∀ F : (ℝ × ℝ) × V3 ℝ → ℝ≥0∞, Measurable F →
      ∫⁻ ω, F (frame ray Li w h p ω).1 ∂uniform = ∫⁻ ω, F (shoot ray Li p.1 p.2 ω).1 ∂uniform := by
    intro F mF
    exact (after_preserving hL (before w h p)).lintegral_comp
      (mF.comp (measurable_fst.comp (measurable_shoot hL p.1 p.2)))
  have lX : ∫⁻ ω, ENNReal.ofReal (X (frame ray Li w h p ω).1) ∂uniform =
      ∫⁻ s, weightAt flt x y ((p.2 : ℝ) + s.1, (p.1 : ℝ) + s.2) *
        lightAt ray (meanLi Li c) ((p.2 : ℝ) + s.1, (p.1 : ℝ) + s.2) ∂square := by
    rw [back (fun a => ENNReal.ofReal (X a)) mX.ennreal_ofReal]
    have e : ∀ ω, ENNReal.ofReal (X (shoot ray Li p.1 p.2 ω).1) =
        ENNReal.ofReal (g (shoot ray Li p.1 p.2 ω).1.1) * ENNReal.ofReal ((shoot ray Li p.1 p.2 ω).1.2.get c) :=
      fun ω => ENNReal.ofReal_mul (hg0 _)
    simp only [e]
    exact shoot_mean hL p.1 p.2 c (fun s => ENNReal.ofReal (g s)) mg.ennreal_ofReal
  have fin : ∫⁻ s, weightAt flt x y ((p.2 : ℝ) + s.1, (p.1 : ℝ) + s.2) *
        lightAt ray (meanLi Li c) ((p.2 : ℝ) + s.1, (p.1 : ℝ) + s.2) ∂square ≠ ∞ := by
    refine ne_top_of_le_ne_top (b := ENNReal.ofReal C * B) (ENNReal.mul_ne_top ENNReal.ofReal_ne_top hB) ?_
    calc _ ≤ ∫⁻ _, ENNReal.ofReal C * B ∂square := lintegral_mono fun s =>
          mul_le_mul' (ENNReal.ofReal_le_ofReal (hC _ _)) (hBl c _)
      _ = _ := by simp
  have iX : Integrable (fun ω => X (frame ray Li w h p ω).1) uniform := by
    refine ⟨(mX.comp mfr1).aestronglyMeasurable, ?_⟩
    rw [hasFiniteIntegral_iff_ofReal (_root_.Filter.Eventually.of_forall hX0), lX]
    exact fin.lt_top
  have eX : ∫ ω, X (frame ray Li w h p ω).1 ∂uniform =
      (∫⁻ s, weightAt flt x y ((p.2 : ℝ) + s.1, (p.1 : ℝ) + s.2) *
        lightAt ray (meanLi Li c) ((p.2 : ℝ) + s.1, (p.1 : ℝ) + s.2) ∂square).toReal := by
    rw [integral_eq_lintegral_of_nonneg_ae (_root_.Filter.Eventually.of_forall hX0) (mX.comp mfr1).aestronglyMeasurable, lX]
  -- weight
  let Y : (ℝ × ℝ) × V3 ℝ → ℝ := fun a => g a.1
  have mY : Measurable Y := mg.comp measurable_fst
  have lY : ∫⁻ ω, ENNReal.ofReal (Y (frame ray Li w h p ω).1) ∂uniform =
      ∫⁻ s, weightAt flt x y ((p.2 : ℝ) + s.1, (p.1 : ℝ) + s.2) ∂square := by
    rw [back (fun a => ENNReal.ofReal (Y a)) mY.ennreal_ofReal]
    exact shoot_position hL p.1 p.2 (fun s => ENNReal.ofReal (g s)) mg.ennreal_ofReal
  have finY : ∫⁻ s, weightAt flt x y ((p.2 : ℝ) + s.1, (p.1 : ℝ) + s.2) ∂square ≠ ∞ := by
    refine ne_top_of_le_ne_top (b := ENNReal.ofReal C) ENNReal.ofReal_ne_top ?_
    calc _ ≤ ∫⁻ _, ENNReal.ofReal C ∂square := lintegral_mono fun s => ENNReal.ofReal_le_ofReal (hC _ _)
      _ = _ := by simp
  have hY0 : ∀ ω, 0 ≤ Y (frame ray Li w h p ω).1 := fun ω => hg0 _
  have iY : Integrable (fun ω => Y (frame ray Li w h p ω).1) uniform := by
    refine ⟨(mY.comp mfr1).aestronglyMeasurable, ?_⟩
    rw [hasFiniteIntegral_iff_ofReal (_root_.Filter.Eventually.of_forall hY0), lY]
    exact finY.lt_top
  have eY : ∫ ω, Y (frame ray Li w h p ω).1 ∂uniform =
      (∫⁻ s, weightAt flt x y ((p.2 : ℝ) + s.1, (p.1 : ℝ) + s.2) ∂square).toReal := by
    rw [integral_eq_lintegral_of_nonneg_ae (_root_.Filter.Eventually.of_forall hY0) (mY.comp mfr1).aestronglyMeasurable, lY]
  have h1 := average_tendsto hfr X mX iX
  have h2 := average_tendsto hfr Y mY iY
  rw [eX] at h1
  rw [eY] at h2
  filter_upwards [h1, h2] with ω a b
  exact ⟨a, b⟩

/-- **C101.** For almost every stream of random numbers: rendering is defined for every number of samples per pixel, and
each pixel that the filter reaches tends to the filtered light as that number grows. The light at a film position is the
mean over the aperture and over the integrator's own random numbers. -/
theorem render_converges {flt : Image.Filter ℝ} (hf : flt.Tame) (hL : Lawful ray Li) (w h : ℕ) :
    ∀ᵐ ω ∂uniform, ∃ img : ℕ → Int → Int → Fin 3 → ℝ,
      (∀ spp, renderWith flt w h spp ray Li ω = .ok (img spp)) ∧
      ∀ (x y : ℕ) (c : Fin 3), x < w → y < h → ∫⁻ p in film w h, weightAt flt x y p ≠ 0 →
        Tendsto (fun spp => img spp x y c) atTop
          (𝓝 (filtered flt w h x y (lightAt ray fun r => ∫⁻ ω, ENNReal.ofReal ((Li r ω).1.get c) ∂uniform)).toReal) := by
  have hall : ∀ᵐ ω ∂uniform, ∀ (p : ℕ × ℕ) (q : ℕ × ℕ) (c : Fin 3), p ∈ scan w h → _ :=
    ae_all_iff.2 fun p => ae_all_iff.2 fun q => ae_all_iff.2 fun c =>
      (Classical.em (p ∈ scan w h)).elim
        (fun hp => (pixel_average hf hL w h q.1 q.2 p hp c).mono fun ω hω _ => hω)
        (fun hp => _root_.Filter.Eventually.of_forall fun ω h => absurd h hp)
  filter_upwards [hall] with ω hω
  have hr := fun spp => render_pixel_eq flt hf.well.support w h spp (obsAt ray Li w h ω)
  choose img himg hval using hr
  refine ⟨img, fun spp => by rw [renderWith_eq]; exact himg spp, fun x y c hx hy hden => ?_⟩
  have mW := measurable_weightAt hf x y
  have mL := measurable_lightAt hL c
  obtain ⟨C, hC⟩ := hf.bounded
  obtain ⟨B, hB, hBl⟩ := lightAt_le hL
  have hWC : ∀ p, weightAt flt x y p ≤ ENNReal.ofReal C := fun p => ENNReal.ofReal_le_ofReal (hC _ _)
  have fin1 : ∀ i j : ℕ, ∫⁻ s, weightAt flt x y ((j : ℝ) + s.1, (i : ℝ) + s.2) *
      lightAt ray (meanLi Li c) ((j : ℝ) + s.1, (i : ℝ) + s.2) ∂square ≠ ∞ := by
    intro i j
    refine ne_top_of_le_ne_top (b := ENNReal.ofReal C * B) (ENNReal.mul_ne_top ENNReal.ofReal_ne_top hB) ?_
    calc _ ≤ ∫⁻ _, ENNReal.ofReal C * B ∂square := lintegral_mono fun s => mul_le_mul' (hWC _) (hBl c _)
      _ = _ := by simp
  have fin2 : ∀ i j : ℕ, ∫⁻ s, weightAt flt x y ((j : ℝ) + s.1, (i : ℝ) + s.2) ∂square ≠ ∞ := by
    intro i j
    refine ne_top_of_le_ne_top (b := ENNReal.ofReal C) ENNReal.ofReal_ne_top ?_
    calc _ ≤ ∫⁻ _, ENNReal.ofReal C ∂square := lintegral_mono fun s => hWC _
      _ = _ := by simp
  -- sums over the film
  have num : Tendsto (fun n : ℕ => totalRadiance flt w h n (obsAt ray Li w h ω) x y c / n) atTop
      (𝓝 (∫⁻ p in film w h, weightAt flt x y p * lightAt ray (meanLi Li c) p).toReal) := by
    rw [← film_integral (fun p => weightAt flt x y p * lightAt ray (meanLi Li c) p) (mW.mul mL) w h,
      ENNReal.toReal_sum fun i _ => ENNReal.sum_ne_top.2 fun j _ => fin1 i j]
    have e : ∀ n : ℕ, totalRadiance flt w h n (obsAt ray Li w h ω) x y c / n =
        ∑ i ∈ Finset.range h, ∑ j ∈ Finset.range w, (∑ k ∈ Finset.range n,
          sampleWeight flt (obsAt ray Li w h ω) x y k i j * (obsAt ray Li w h ω k i j).rad c) / n := by
      intro n
      unfold totalRadiance
      simp only [← Finset.sum_div]
      rw [Finset.sum_comm]
      congr 1
      refine Finset.sum_congr rfl fun i _ => Finset.sum_comm
    simp only [e]
    refine tendsto_finsetSum _ fun i hi => ?_
    rw [ENNReal.toReal_sum fun j _ => fin1 i j]
    refine tendsto_finsetSum _ fun j hj => ?_
    exact (hω (i, j) (x, y) c (mem_scan.2 ⟨Finset.mem_range.1 hi, Finset.mem_range.1 hj⟩)).1
  have den : Tendsto (fun n : ℕ => totalWeight flt w h n (obsAt ray Li w h ω) x y / n) atTop
      (𝓝 (∫⁻ p in film w h, weightAt flt x y p).toReal) := by
    rw [← film_integral (weightAt flt x y) mW w h,
      ENNReal.toReal_sum fun i _ => ENNReal.sum_ne_top.2 fun j _ => fin2 i j]
    have e : ∀ n : ℕ, totalWeight flt w h n (obsAt ray Li w h ω) x y / n =
        ∑ i ∈ Finset.range h, ∑ j ∈ Finset.range w, (∑ k ∈ Finset.range n,
          sampleWeight flt (obsAt ray Li w h ω) x y k i j) / n := by
      intro n
      unfold totalWeight
      simp only [← Finset.sum_div]
      rw [Finset.sum_comm]
      congr 1
      refine Finset.sum_congr rfl fun i _ => Finset.sum_comm
    simp only [e]
    refine tendsto_finsetSum _ fun i hi => ?_
    rw [ENNReal.toReal_sum fun j _ => fin2 i j]
    refine tendsto_finsetSum _ fun j hj => ?_
    exact (hω (i, j) (x, y) c (mem_scan.2 ⟨Finset.mem_range.1 hi, Finset.mem_range.1 hj⟩)).2
  have dfin : ∫⁻ p in film w h, weightAt flt x y p ≠ ∞ := by
    rw [← film_integral (weightAt flt x y) mW w h]
    exact ENNReal.sum_ne_top.2 fun i _ => ENNReal.sum_ne_top.2 fun j _ => fin2 i j
  have dne : (∫⁻ p in film w h, weightAt flt x y p).toReal ≠ 0 := ENNReal.toReal_ne_zero.2 ⟨hden, dfin⟩
  have lim := num.div den dne
  have goal : (filtered flt w h x y (lightAt ray fun r => ∫⁻ ω, ENNReal.ofReal ((Li r ω).1.get c) ∂uniform)).toReal =
      (∫⁻ p in film w h, weightAt flt x y p * lightAt ray (meanLi Li c) p).toReal /
        (∫⁻ p in film w h, weightAt flt x y p).toReal := ENNReal.toReal_div _ _
  rw [goal]
  refine lim.congr' ?_
  filter_upwards [_root_.Filter.eventually_gt_atTop 0] with n hn
  have hn' : (n : ℝ) ≠ 0 := by exact_mod_cast hn.ne'
  rw [hval n x y c hx hy]
  simp only [Pi.div_apply]
  rw [div_div_div_cancel_right₀ hn']
  split_ifs with h0
  · rw [h0, div_zero]
  · rfl

end Feign.Image
