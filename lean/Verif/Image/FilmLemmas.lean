import Verif.Image.ShootLemmas

/-! # The film as a grid of pixels, and mean samples: lemmas -/

set_option linter.unusedSectionVars false
set_option linter.unusedSimpArgs false
set_option linter.unusedVariables false

namespace Feign.Image

open Sampling MeasureTheory Warp Integrators
open scoped ENNReal

/-- A row of unit intervals. -/
theorem row_integral (f : ℝ → ℝ≥0∞) (n : ℕ) :
    ∑ j ∈ Finset.range n, ∫⁻ u in Set.Ioo 0 1, f ((j : ℝ) + u) = ∫⁻ x in Set.Ioo 0 (n : ℝ), f x := by
  have shift : ∀ j : ℕ, ∫⁻ u in Set.Ioo 0 1, f ((j : ℝ) + u) = ∫⁻ x in Set.Ioc (j : ℝ) ((j : ℝ) + 1), f x := by
    intro j
    have := (measurePreserving_add_left (volume : Measure ℝ) (j : ℝ)).setLIntegral_comp_preimage_emb
      (measurableEmbedding_addLeft (j : ℝ)) f (Set.Ioc (j : ℝ) ((j : ℝ) + 1))
    rw [Set.preimage_const_add_Ioc, sub_self, add_sub_cancel_left] at this
    rw [← this, restrict_Ioo_eq_restrict_Ioc]
  simp only [shift]
  rw [restrict_Ioo_eq_restrict_Ioc]
  induction n with
  | zero => simp
  | succ n ih =>
    have hn : (0 : ℝ) ≤ n := Nat.cast_nonneg n
    rw [Finset.sum_range_succ, ih, ← lintegral_union measurableSet_Ioc, Set.Ioc_union_Ioc_eq_Ioc hn (by linarith)]
    · push_cast
      rfl
    · rw [Set.disjoint_left]
      intro x h1 h2
      exact absurd h1.2 (not_le.2 h2.1)

/-- The film is made of unit squares. -/
theorem film_integral (F : ℝ × ℝ → ℝ≥0∞) (hF : Measurable F) (w h : ℕ) :
    ∑ i ∈ Finset.range h, ∑ j ∈ Finset.range w, ∫⁻ s, F ((j : ℝ) + s.1, (i : ℝ) + s.2) ∂square =
      ∫⁻ p in film w h, F p := by
  have mF : ∀ i j : ℕ, Measurable fun s : ℝ × ℝ => F ((j : ℝ) + s.1, (i : ℝ) + s.2) := fun i j =>
    hF.comp ((measurable_const.add measurable_fst).prodMk (measurable_const.add measurable_snd))
  have e : ∀ i j : ℕ, ∫⁻ s, F ((j : ℝ) + s.1, (i : ℝ) + s.2) ∂square =
      ∫⁻ u in Set.Ioo 0 1, ∫⁻ v in Set.Ioo 0 1, F ((j : ℝ) + u, (i : ℝ) + v) := by
    intro i j
    rw [square, lintegral_prod _ (mF i j).aemeasurable]
  simp only [e]
  rw [Finset.sum_comm]
  have inner : ∀ (j : ℕ) (u : ℝ), ∑ i ∈ Finset.range h, ∫⁻ v in Set.Ioo 0 1, F ((j : ℝ) + u, (i : ℝ) + v) =
      ∫⁻ y in Set.Ioo 0 (h : ℝ), F ((j : ℝ) + u, y) := fun j u => row_integral (fun y => F ((j : ℝ) + u, y)) h
  have swap : ∀ j : ℕ, ∑ i ∈ Finset.range h, ∫⁻ u in Set.Ioo 0 1, ∫⁻ v in Set.Ioo 0 1, F ((j : ℝ) + u, (i : ℝ) + v) =
      ∫⁻ u in Set.Ioo 0 1, ∫⁻ y in Set.Ioo 0 (h : ℝ), F ((j : ℝ) + u, y) := by
    intro j
    rw [← lintegral_finsetSum]
    · simp only [inner]
    · intro i _
      exact (mF i j).lintegral_prod_right'
  simp only [swap]
  rw [row_integral (fun x => ∫⁻ y in Set.Ioo 0 (h : ℝ), F (x, y)) w, film, Measure.volume_eq_prod,
    ← Measure.prod_restrict, lintegral_prod _ hF.aemeasurable]

variable {R : Type} [MeasurableSpace R] {ray : ℝ × ℝ → ℝ × ℝ → R} {Li : R → Stream → V3 ℝ × Stream}

variable (Li) in
/-- Mean radiance for a ray. -/
noncomputable def meanLi (c : Fin 3) (r : R) : ℝ≥0∞ := ∫⁻ ω, ENNReal.ofReal ((Li r ω).1.get c) ∂uniform

theorem measurable_meanLi (hL : Lawful ray Li) (c : Fin 3) : Measurable (meanLi Li c) := by
  have : Measurable fun q : R × Stream => ENNReal.ofReal ((Li q.1 q.2).1.get c) :=
    ((measurable_get c).comp (measurable_fst.comp hL.meas)).ennreal_ofReal
  exact this.lintegral_prod_right'

theorem measurable_lightAt (hL : Lawful ray Li) (c : Fin 3) : Measurable (lightAt ray (meanLi Li c)) := by
  have : Measurable fun q : (ℝ × ℝ) × (ℝ × ℝ) => meanLi Li c (ray q.1 q.2) := (measurable_meanLi hL c).comp hL.cam
  exact this.lintegral_prod_right'

/-- The mean of a weighted sample. -/
theorem shoot_mean (hL : Lawful ray Li) (i j : ℕ) (c : Fin 3) (g : ℝ × ℝ → ℝ≥0∞) (hg : Measurable g) :
    ∫⁻ ω, g (shoot ray Li i j ω).1.1 * ENNReal.ofReal ((shoot ray Li i j ω).1.2.get c) ∂uniform =
      ∫⁻ s, g s * lightAt ray (meanLi Li c) ((j : ℝ) + s.1, (i : ℝ) + s.2) ∂square := by
  let H : (ℝ × ℝ) × ((ℝ × ℝ) × Stream) → ℝ≥0∞ := fun q =>
    ENNReal.ofReal ((Li (ray ((j : ℝ) + q.1.1, (i : ℝ) + q.1.2) q.2.1) q.2.2).1.get c)
  have mH : Measurable H := by
    refine ((measurable_get c).comp (measurable_fst.comp (hL.meas.comp (Measurable.prodMk (hL.cam.comp
      (Measurable.prodMk ?_ ?_)) ?_)))).ennreal_ofReal
    · exact (measurable_const.add (measurable_fst.comp measurable_fst)).prodMk
        (measurable_const.add (measurable_snd.comp measurable_fst))
    · exact measurable_fst.comp measurable_snd
    · exact measurable_snd.comp measurable_snd
  let G : (ℝ × ℝ) × Stream → ℝ≥0∞ := fun q => g q.1 * H (q.1, next2 q.2)
  have mG : Measurable G :=
    (hg.comp measurable_fst).mul (mH.comp (measurable_fst.prodMk (measurable_next2.comp measurable_snd)))
  refine (lintegral_next2 G mG).trans ?_
  refine lintegral_congr fun s => ?_
  have mHs : Measurable fun q : (ℝ × ℝ) × Stream => H (s, q) := mH.comp (measurable_const.prodMk measurable_id)
  have mHn : Measurable fun ω => H (s, next2 ω) := mHs.comp measurable_next2
  show ∫⁻ ω, g s * H (s, next2 ω) ∂uniform = _
  rw [lintegral_const_mul _ mHn, lintegral_next2 (fun q => H (s, q)) mHs]
  rfl

theorem shoot_position (hL : Lawful ray Li) (i j : ℕ) (g : ℝ × ℝ → ℝ≥0∞) (hg : Measurable g) :
    ∫⁻ ω, g (shoot ray Li i j ω).1.1 ∂uniform = ∫⁻ s, g s ∂square := by
  refine (lintegral_next2 (fun q => g q.1) (hg.comp measurable_fst)).trans ?_
  simp

theorem lightAt_le (hL : Lawful ray Li) : ∃ B : ℝ≥0∞, B ≠ ∞ ∧ ∀ c p, lightAt ray (meanLi Li c) p ≤ B := by
  obtain ⟨B, hB, h⟩ := hL.bounded
  refine ⟨B, hB, fun c p => ?_⟩
  calc lightAt ray (meanLi Li c) p ≤ ∫⁻ _, B ∂square := lintegral_mono fun a => h _ c
    _ = B := by simp

end Feign.Image
