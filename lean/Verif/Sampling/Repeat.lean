import Verif.Sampling.Stream
import Mathlib.Probability.StrongLaw

/-!
# Running a program that draws again and again

If a program leaves a stream of independent uniform numbers, its results over and over are independent and identically
distributed, and their averages tend to the mean.
-/

set_option linter.unusedSectionVars false

namespace Feign.Sampling

open MeasureTheory ProbabilityTheory Filter Topology
open scoped ENNReal

variable {A : Type} [MeasurableSpace A]

/-- The stream after `k` runs. -/
def later (f : Stream → A × Stream) (k : ℕ) : Stream → Stream := (fun ω => (f ω).2)^[k]

/-- The result of run `k` (from 0). -/
def result (f : Stream → A × Stream) (k : ℕ) (ω : Stream) : A := (f (later f k ω)).1

theorem Fresh.measurePreserving {f : Stream → A × Stream} (h : Fresh f) :
    MeasurePreserving (fun ω => (f ω).2) uniform uniform := by
  have hm : Measurable fun ω => (f ω).1 := measurable_fst.comp h.1
  refine ⟨measurable_snd.comp h.1, ?_⟩
  have e : (fun ω => (f ω).2) = Prod.snd ∘ f := rfl
  rw [e, ← Measure.map_map measurable_snd h.1, h.2, Measure.map_snd_prod, Measure.map_apply hm MeasurableSet.univ]
  simp

theorem later_preserving {f : Stream → A × Stream} (h : Fresh f) (k : ℕ) :
    MeasurePreserving (later f k) uniform uniform := h.measurePreserving.iterate k

theorem measurable_result {f : Stream → A × Stream} (h : Fresh f) (k : ℕ) : Measurable (result f k) :=
  measurable_fst.comp (h.1.comp (later_preserving h k).measurable)

theorem result_later (f : Stream → A × Stream) (j k : ℕ) (ω : Stream) : result f (k + j) ω = result f k (later f j ω) := by
  unfold result later
  rw [Function.iterate_add_apply]

theorem Fresh.indep {f : Stream → A × Stream} (h : Fresh f) :
    IndepFun (fun ω => (f ω).1) (fun ω => (f ω).2) uniform := by
  have h1 : Measurable fun ω => (f ω).1 := measurable_fst.comp h.1
  have h2 : Measurable fun ω => (f ω).2 := measurable_snd.comp h.1
  rw [indepFun_iff_map_prod_eq_prod_map_map h1.aemeasurable h2.aemeasurable,
    h.measurePreserving.map_eq]
  exact h.2

theorem result_indep {f : Stream → A × Stream} (h : Fresh f) {j k : ℕ} (hjk : j < k) :
    IndepFun (result f j) (result f k) uniform := by
  obtain ⟨m, rfl⟩ : ∃ m, k = m + 1 + j := ⟨k - j - 1, by omega⟩
  -- at the stream after `j` runs
  have base : IndepFun (fun ω => (f ω).1) (fun ω => result f m (f ω).2) uniform :=
    h.indep.comp measurable_id (measurable_result h m)
  have e1 : result f j = (fun ω => (f ω).1) ∘ later f j := rfl
  have e2 : result f (m + 1 + j) = (fun ω => result f m (f ω).2) ∘ later f j := by
    funext ω
    rw [result_later, result_later f 1 m]
    rfl
  have hl := later_preserving h j
  rw [e1, e2]
  have hm1 : Measurable fun ω => (f ω).1 := measurable_fst.comp h.1
  have hm2 : Measurable fun ω => result f m (f ω).2 := (measurable_result h m).comp (measurable_snd.comp h.1)
  rw [indepFun_iff_measure_inter_preimage_eq_mul] at base ⊢
  intro s t hs ht
  have := base s t hs ht
  rw [Set.preimage_comp, Set.preimage_comp, ← Set.preimage_inter,
    hl.measure_preimage ((hm1 hs).inter (hm2 ht)).nullMeasurableSet, hl.measure_preimage (hm1 hs).nullMeasurableSet,
    hl.measure_preimage (hm2 ht).nullMeasurableSet]
  exact this

theorem result_ident {f : Stream → A × Stream} (h : Fresh f) (k : ℕ) :
    IdentDistrib (result f k) (fun ω => (f ω).1) uniform uniform := by
  have hm1 : Measurable fun ω => (f ω).1 := measurable_fst.comp h.1
  refine ⟨(measurable_result h k).aemeasurable, hm1.aemeasurable, ?_⟩
  have e : result f k = (fun ω => (f ω).1) ∘ later f k := rfl
  rw [e, ← Measure.map_map hm1 (later_preserving h k).measurable, (later_preserving h k).map_eq]

/-- **Averages tend to the mean**, for almost every stream. -/
theorem average_tendsto {f : Stream → A × Stream} (h : Fresh f) (X : A → ℝ) (hX : Measurable X)
    (hint : Integrable (fun ω => X (f ω).1) uniform) :
    ∀ᵐ ω ∂uniform, Tendsto (fun n : ℕ => (∑ k ∈ Finset.range n, X (result f k ω)) / n) atTop
      (𝓝 (∫ ω, X (f ω).1 ∂uniform)) := by
  refine strong_law_ae_real (fun k ω => X (result f k ω)) hint ?_ fun k => (result_ident h k).comp hX
  intro j k hjk
  rcases lt_or_gt_of_ne hjk with hl | hl
  · exact (result_indep h hl).comp hX hX
  · exact ((result_indep h hl).comp hX hX).symm

end Feign.Sampling
