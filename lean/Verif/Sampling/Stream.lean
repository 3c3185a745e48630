import Verif.Sampling.SolidAngle
import Mathlib.Probability.ProductMeasure

/-!
# Programs that draw from the sampler

The sampler as an infinite stream of independent uniform numbers: `Independent::next1D`
(`src/samplers/independent.cpp:42-45`) takes the next entry. The generator itself (pcg32) is external; that its numbers
are independent and uniform is an idealisation. A program that draws is a function from the stream to a result and the
rest of the stream, and it is `Fresh` if what it leaves is again a stream of independent uniform numbers, whatever the
result. Drawing one number is fresh, and so is every program put together from fresh ones, however the number of draws
depends on earlier results.
-/

set_option linter.unusedSectionVars false

namespace Feign.Sampling

open MeasureTheory Set Warp
open scoped ENNReal

abbrev Stream := ℕ → ℝ

/-- The distribution of one number. -/
noncomputable def unit : Measure ℝ := volume.restrict (Ioo 0 1)

instance : IsProbabilityMeasure unit := ⟨by simp [unit]⟩

/-- Independent uniform numbers. -/
noncomputable def uniform : Measure Stream := Measure.infinitePi fun _ => unit

instance : IsProbabilityMeasure uniform := by unfold uniform; infer_instance

/-- The stream after `k` draws. -/
def drop (k : ℕ) (ω : Stream) : Stream := fun n => ω (n + k)

theorem measurable_drop (k : ℕ) : Measurable (drop k) := measurable_pi_lambda _ fun _ => measurable_pi_apply _

def cons (p : ℝ × Stream) : Stream
  | 0 => p.1
  | n + 1 => p.2 n

theorem measurable_cons : Measurable cons := by
  refine measurable_pi_lambda _ fun n => ?_
  cases n with
  | zero => exact measurable_fst
  | succ n => exact (measurable_pi_apply n).comp measurable_snd

theorem map_cons : Measure.map cons (unit.prod uniform) = uniform := by
  refine Measure.eq_infinitePi _ fun s t ht => ?_
  classical
  rw [Measure.map_apply measurable_cons (MeasurableSet.pi s.countable_toSet fun i _ => ht i)]
  let s' : Finset ℕ := s.preimage Nat.succ (fun _ _ _ _ h => Nat.succ.inj h)
  have hs' : ∀ n, n ∈ s' ↔ n + 1 ∈ s := fun n => Finset.mem_preimage
  have e : cons ⁻¹' (Set.pi s t) = (if 0 ∈ s then t 0 else univ) ×ˢ Set.pi s' (fun n => t (n + 1)) := by
    ext p
    simp only [mem_preimage, Set.mem_pi, mem_prod, Finset.mem_coe, hs']
    constructor
    · intro h
      refine ⟨?_, fun n hn => h (n + 1) hn⟩
      split_ifs with h0
      · exact h 0 h0
      · trivial
    · rintro ⟨h0, h⟩ n hn
      cases n with
      | zero => rw [if_pos hn] at h0; exact h0
      | succ n => exact h n hn
  rw [e, Measure.prod_prod, uniform, Measure.infinitePi_pi _ (fun i _ => ht (i + 1))]
  have hprod : ∏ i ∈ s', unit (t (i + 1)) = ∏ i ∈ s.erase 0, unit (t i) := by
    refine Finset.prod_bij (fun i _ => i + 1) ?_ ?_ ?_ ?_
    · intro a ha
      exact Finset.mem_erase.2 ⟨Nat.succ_ne_zero a, (hs' a).1 ha⟩
    · intro a _ b _ h
      exact Nat.succ.inj h
    · intro b hb
      obtain ⟨h0, hb⟩ := Finset.mem_erase.1 hb
      obtain ⟨a, rfl⟩ := Nat.exists_eq_succ_of_ne_zero h0
      exact ⟨a, (hs' a).2 hb, rfl⟩
    · intro a _
      rfl
  rw [hprod]
  by_cases h0 : 0 ∈ s
  · rw [if_pos h0, Finset.mul_prod_erase s (fun i => unit (t i)) h0]
  · rw [if_neg h0, measure_univ, one_mul, Finset.erase_eq_of_notMem h0]

/-- Integrating over the stream is integrating over its first number and over the rest. -/
theorem lintegral_cons (f : Stream → ℝ≥0∞) (hf : Measurable f) :
    ∫⁻ ω, f ω ∂uniform = ∫⁻ u, ∫⁻ ω, f (cons (u, ω)) ∂uniform ∂unit := by
  conv_lhs => rw [← map_cons]
  have hm : Measurable fun p : ℝ × Stream => f (cons p) := hf.comp measurable_cons
  rw [lintegral_map hf measurable_cons, lintegral_prod _ hm.aemeasurable]

/-- What is left after the program is again a stream of independent uniform numbers, independent of the result. -/
def Fresh {A : Type} [MeasurableSpace A] (f : Stream → A × Stream) : Prop :=
  Measurable f ∧ Measure.map f uniform = (Measure.map (fun ω => (f ω).1) uniform).prod uniform

theorem Fresh.lintegral {A : Type} [MeasurableSpace A] {f : Stream → A × Stream} (h : Fresh f)
    (g : A × Stream → ℝ≥0∞) (hg : Measurable g) :
    ∫⁻ ω, g (f ω) ∂uniform = ∫⁻ ω, ∫⁻ ω', g ((f ω).1, ω') ∂uniform ∂uniform := by
  have h1 : Measurable fun ω => (f ω).1 := measurable_fst.comp h.1
  rw [← lintegral_map hg h.1, h.2, lintegral_prod _ hg.aemeasurable, lintegral_map (hg.lintegral_prod_right') h1]

theorem fresh_iff {A : Type} [MeasurableSpace A] {f : Stream → A × Stream} (hm : Measurable f)
    (h : ∀ g : A × Stream → ℝ≥0∞, Measurable g →
      ∫⁻ ω, g (f ω) ∂uniform = ∫⁻ ω, ∫⁻ ω', g ((f ω).1, ω') ∂uniform ∂uniform) : Fresh f := by
  have h1 : Measurable fun ω => (f ω).1 := measurable_fst.comp hm
  refine ⟨hm, Measure.ext_of_lintegral _ fun g hg => ?_⟩
  rw [lintegral_map hg hm, h g hg, lintegral_prod _ hg.aemeasurable, lintegral_map (hg.lintegral_prod_right') h1]

/-- Not drawing at all. -/
theorem fresh_pure {A : Type} [MeasurableSpace A] (a : A) : Fresh fun ω => (a, ω) := by
  refine fresh_iff (measurable_const.prodMk measurable_id) fun g hg => ?_
  simp

/-- `next1D`. -/
def next (ω : Stream) : ℝ × Stream := (ω 0, drop 1 ω)

theorem next_cons (p : ℝ × Stream) : next (cons p) = p := rfl

theorem measurable_next : Measurable next := (measurable_pi_apply 0).prodMk (measurable_drop 1)

theorem fresh_next : Fresh next := by
  refine fresh_iff measurable_next fun g hg => ?_
  have h1 : Measurable fun ω : Stream => g (next ω) := hg.comp measurable_next
  rw [lintegral_cons _ h1]
  have h2 : Measurable fun ω : Stream => ∫⁻ ω', g ((next ω).1, ω') ∂uniform :=
    (hg.lintegral_prod_right').comp (measurable_fst.comp measurable_next)
  rw [lintegral_cons _ h2]
  simp [next_cons]

/-- One program after another: the second one may depend on the result of the first. -/
theorem fresh_bind {A B : Type} [MeasurableSpace A] [MeasurableSpace B] {f : Stream → A × Stream}
    {k : A × Stream → B × Stream} (hf : Fresh f) (hk : Measurable k) (hfk : ∀ a, Fresh fun ω => k (a, ω)) :
    Fresh fun ω => k (f ω) := by
  refine fresh_iff (hk.comp hf.1) fun g hg => ?_
  rw [hf.lintegral (fun p => g (k p)) (hg.comp hk)]
  have h2 : Measurable fun p : A × Stream => ∫⁻ ω', g ((k p).1, ω') ∂uniform :=
    (hg.lintegral_prod_right').comp (measurable_fst.comp hk)
  rw [hf.lintegral (fun p => ∫⁻ ω', g ((k p).1, ω') ∂uniform) h2]
  apply lintegral_congr
  intro ω
  exact (hfk (f ω).1).lintegral g hg

/-- Only the result is changed. -/
theorem fresh_map {A B : Type} [MeasurableSpace A] [MeasurableSpace B] {f : Stream → A × Stream} {m : A → B}
    (hf : Fresh f) (hm : Measurable m) : Fresh fun ω => (m (f ω).1, (f ω).2) :=
  fresh_bind (k := fun p => (m p.1, p.2)) hf ((hm.comp measurable_fst).prodMk measurable_snd)
    fun a => fresh_pure (m a)

/-- `next2D`, `independent.cpp:47-50`, the components in the order of the arguments. -/
def next2 (ω : Stream) : (ℝ × ℝ) × Stream := ((ω 0, ω 1), drop 2 ω)

theorem measurable_next2 : Measurable next2 :=
  ((measurable_pi_apply 0).prodMk (measurable_pi_apply 1)).prodMk (measurable_drop 2)

theorem lintegral_next2 (g : (ℝ × ℝ) × Stream → ℝ≥0∞) (hg : Measurable g) :
    ∫⁻ ω, g (next2 ω) ∂uniform = ∫⁻ s, ∫⁻ ω, g (s, ω) ∂uniform ∂square := by
  have h1 : Measurable fun ω : Stream => g (next2 ω) := hg.comp measurable_next2
  rw [lintegral_cons _ h1, square]
  rw [lintegral_prod _ (hg.lintegral_prod_right').aemeasurable]
  apply lintegral_congr
  intro u
  have hm : Measurable fun ω : Stream => g (next2 (cons (u, ω))) :=
    hg.comp (measurable_next2.comp (measurable_cons.comp (measurable_const.prodMk measurable_id)))
  rw [lintegral_cons _ hm]
  rfl

instance : IsProbabilityMeasure square := by
  refine ⟨?_⟩
  rw [square, ← univ_prod_univ, Measure.prod_prod]
  simp

theorem fresh_next2 : Fresh next2 := by
  refine fresh_iff measurable_next2 fun g hg => ?_
  have h2 : Measurable fun p : (ℝ × ℝ) × Stream => ∫⁻ ω', g (p.1, ω') ∂uniform :=
    (hg.lintegral_prod_right').comp measurable_fst
  rw [lintegral_next2 g hg, lintegral_next2 (fun p => ∫⁻ ω', g (p.1, ω') ∂uniform) h2]
  simp

end Feign.Sampling
