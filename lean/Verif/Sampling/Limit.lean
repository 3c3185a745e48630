import Verif.Sampling.Stream
import Mathlib.MeasureTheory.Integral.Lebesgue.DominatedConvergence

/-!
# Programs that draw a number of random numbers that is not bounded: lemmas

A program that agrees, for every stream, with all but finitely many of a sequence of fresh programs is fresh.
-/

set_option linter.unusedSectionVars false

namespace Feign.Sampling

open MeasureTheory Filter Topology
open scoped ENNReal

theorem measurable_limit {X Y : Type} [MeasurableSpace X] [MeasurableSpace Y] {f : X → Y} {g : ℕ → X → Y}
    (hg : ∀ k, Measurable (g k)) (h : ∀ x, ∃ K, ∀ k ≥ K, g k x = f x) : Measurable f := by
  intro s hs
  have : f ⁻¹' s = ⋃ K, ⋂ k ≥ K, g k ⁻¹' s := by
    ext x
    simp only [Set.mem_preimage, Set.mem_iUnion, Set.mem_iInter]
    obtain ⟨K, hK⟩ := h x
    constructor
    · intro hx
      exact ⟨K, fun k hk => by rw [hK k hk]; exact hx⟩
    · rintro ⟨K', hK'⟩
      have := hK' (max K K') (le_max_right _ _)
      rwa [hK _ (le_max_left _ _)] at this
  rw [this]
  exact MeasurableSet.iUnion fun K => MeasurableSet.iInter fun k => MeasurableSet.iInter fun _ => hg k hs

theorem measure_limit {X Y : Type} [MeasurableSpace X] [MeasurableSpace Y] (μ : Measure X) [IsFiniteMeasure μ] {f : X → Y}
    {g : ℕ → X → Y} (hg : ∀ k, Measurable (g k)) (hf : Measurable f) (h : ∀ᵐ x ∂μ, ∃ K, ∀ k ≥ K, g k x = f x) {s : Set Y}
    (hs : MeasurableSet s) : Tendsto (fun k => μ (g k ⁻¹' s)) atTop (𝓝 (μ (f ⁻¹' s))) := by
  have e : ∀ u : X → Y, Measurable u → μ (u ⁻¹' s) = ∫⁻ x, s.indicator (fun _ => 1) (u x) ∂μ := by
    intro u hu
    have : (fun x => s.indicator (fun _ => (1 : ℝ≥0∞)) (u x)) = (u ⁻¹' s).indicator fun _ => 1 := by
      funext x
      rfl
    rw [this, lintegral_indicator (hu hs)]
    simp
  rw [e f hf]
  simp only [fun k => e (g k) (hg k)]
  refine tendsto_lintegral_of_dominated_convergence (fun _ => 1) ?_ ?_ ?_ ?_
  · intro k
    exact (measurable_const.indicator hs).comp (hg k)
  · intro k
    refine Eventually.of_forall fun x => ?_
    simp only [Set.indicator]
    split_ifs <;> simp
  · simp
  · filter_upwards [h] with x ⟨K, hK⟩
    refine tendsto_const_nhds.congr' ?_
    filter_upwards [eventually_ge_atTop K] with k hk
    rw [hK k hk]

theorem fresh_limit_ae {A : Type} [MeasurableSpace A] {f : Stream → A × Stream} {g : ℕ → Stream → A × Stream}
    (hg : ∀ k, Fresh (g k)) (hf : Measurable f) (h : ∀ᵐ ω ∂uniform, ∃ K, ∀ k ≥ K, g k ω = f ω) : Fresh f := by
  have h1 : ∀ᵐ ω ∂uniform, ∃ K, ∀ k ≥ K, (g k ω).1 = (f ω).1 := by
    filter_upwards [h] with ω ⟨K, hK⟩
    exact ⟨K, fun k hk => by rw [hK k hk]⟩
  have hf1 : Measurable fun ω => (f ω).1 := measurable_fst.comp hf
  have hg1 : ∀ k, Measurable fun ω => (g k ω).1 := fun k => measurable_fst.comp (hg k).1
  have : IsProbabilityMeasure (Measure.map (fun ω => (f ω).1) uniform) := Measure.isProbabilityMeasure_map hf1.aemeasurable
  refine ⟨hf, (Measure.prod_eq fun s t hs ht => ?_).symm⟩
  rw [Measure.map_apply hf (hs.prod ht), Measure.map_apply hf1 hs]
  have t1 := measure_limit uniform (fun k => (hg k).1) hf h (hs.prod ht)
  have t2 := measure_limit uniform hg1 hf1 h1 hs
  have e : ∀ k, uniform (g k ⁻¹' s ×ˢ t) = uniform ((fun ω => (g k ω).1) ⁻¹' s) * uniform t := by
    intro k
    rw [← Measure.map_apply (hg k).1 (hs.prod ht), (hg k).2, Measure.prod_prod, Measure.map_apply (hg1 k) hs]
  simp only [e] at t1
  have t3 : Tendsto (fun k => uniform ((fun ω => (g k ω).1) ⁻¹' s) * uniform t) atTop
      (𝓝 (uniform ((fun ω => (f ω).1) ⁻¹' s) * uniform t)) :=
    ENNReal.Tendsto.mul_const t2 (Or.inr (measure_ne_top _ _))
  exact tendsto_nhds_unique t1 t3

theorem fresh_limit {A : Type} [MeasurableSpace A] {f : Stream → A × Stream} {g : ℕ → Stream → A × Stream}
    (hg : ∀ k, Fresh (g k)) (h : ∀ ω, ∃ K, ∀ k ≥ K, g k ω = f ω) : Fresh f :=
  fresh_limit_ae hg (measurable_limit (fun k => (hg k).1) h) (Eventually.of_forall h)

/-- Drawing, then one more number. -/
theorem fresh_draw {A B : Type} [MeasurableSpace A] [MeasurableSpace B] {P : Stream → A × Stream} (hP : Fresh P)
    {k : A × ℝ × Stream → B × Stream} (hk : Measurable k) (hf : ∀ a u, Fresh fun ω => k (a, u, ω)) :
    Fresh fun ω => k ((P ω).1, (P ω).2 0, drop 1 (P ω).2) := by
  have h1 : ∀ a, Fresh fun ω => k (a, (next ω).1, (next ω).2) := fun a =>
    fresh_bind (f := next) (k := fun q : ℝ × Stream => k (a, q.1, q.2)) fresh_next
      (hk.comp (measurable_const.prodMk measurable_id)) fun u => hf a u
  exact fresh_bind (f := P) (k := fun q : A × Stream => k (q.1, (next q.2).1, (next q.2).2)) hP
    (hk.comp (measurable_fst.prodMk ((measurable_fst.comp (measurable_next.comp measurable_snd)).prodMk
      (measurable_snd.comp (measurable_next.comp measurable_snd))))) h1

end Feign.Sampling
