import Verif.Lights.Nee
import Verif.Lights.EmitterProps
import Verif.Sampling.LightSelectProps
import Mathlib.MeasureTheory.Integral.IntervalIntegral.Basic

/-! # Helper lemmas for direct light -/

set_option linter.unusedSectionVars false
set_option linter.unusedSimpArgs false
set_option linter.unusedVariables false

namespace Feign.Lights

open Feign.Sampling MeasureTheory Set

/-- The average of a function of the cell number. -/
theorem integral_cells (n : ℕ) (hn : 0 < n) (f : ℝ → ℝ) (g : ℕ → ℝ)
    (h : ∀ i, i < n → ∀ c : ℝ, (i : ℝ) / n ≤ c → c < ((i : ℝ) + 1) / n → f c = g i) :
    ∫ c in (0 : ℝ)..1, f c = (1 / n) * ∑ i ∈ Finset.range n, g i := by
  have hn' : (0 : ℝ) < n := by exact_mod_cast hn
  have hle : ∀ i : ℕ, (i : ℝ) / n ≤ ((i + 1 : ℕ) : ℝ) / n := fun i => by
    apply div_le_div_of_nonneg_right _ hn'.le
    push_cast; linarith
  have hint : ∀ i < n, IntervalIntegrable f volume ((i : ℝ) / n) (((i + 1 : ℕ) : ℝ) / n) := by
    intro i hi
    rw [intervalIntegrable_iff_integrableOn_Ico_of_le (hle i)]
    refine (integrableOn_const (C := g i) (by simp [Real.volume_Ico]) (by simp)).congr_fun ?_ measurableSet_Ico
    intro c hc
    exact (h i hi c hc.1 (by have := hc.2; push_cast at this; exact this)).symm
  have hsum := intervalIntegral.sum_integral_adjacent_intervals (f := f) (μ := volume) (n := n)
    (a := fun i : ℕ => (i : ℝ) / n) hint
  have e0 : ((0 : ℕ) : ℝ) / n = 0 := by simp
  have e1 : (n : ℝ) / n = 1 := div_self hn'.ne'
  simp only [e0, e1] at hsum
  rw [← hsum, Finset.mul_sum]
  apply Finset.sum_congr rfl
  intro i hi
  have hi := Finset.mem_range.mp hi
  rw [intervalIntegral.integral_of_le (hle i), ← integral_Ico_eq_integral_Ioc]
  rw [setIntegral_congr_fun (g := fun _ => g i) measurableSet_Ico
    (fun c hc => h i hi c hc.1 (by have := hc.2; push_cast at this; exact this))]
  rw [setIntegral_const, Real.volume_real_Ico_of_le (hle i)]
  simp only [smul_eq_mul]
  push_cast
  field_simp
  ring

/-- An outcome with its throughput multiplied by `k`. -/
def LightEval.scale (k : ℝ) : LightEval → LightEval
  | .seen d t => .seen d (t.smul k)
  | e => e

/-- The choice probability only scales the throughput. -/
theorem lightEval_choice (w : World) (sp : Spot) (normal : V3 ℝ) (inMedia : Bool) (c : ℝ) (l : Light) (u : V2 ℝ)
    (e : LightEval) (h : lightEval w sp normal inMedia 1 l u = .ok e) :
    lightEval w sp normal inMedia c l u = .ok (e.scale (1 / c)) := by
  unfold lightEval at h ⊢
  obtain ⟨s, hs, h⟩ := Res.bind_eq_ok.mp h
  rw [hs]
  simp only [Res.bind_ok]
  match s, h with
  | none, h =>
    simp only [Res.pure_eq, Res.ok.injEq] at h ⊢
    subst h; rfl
  | some s, h =>
    simp only at h ⊢
    match hi : initialCheck w sp.p l s, h with
    | none, h =>
      simp only [hi, Res.pure_eq, Res.ok.injEq] at h ⊢
      subst h; rfl
    | some s', h =>
      simp only [hi] at h ⊢
      match hd : s'.sqrDist, h with
      | none, h => simp only [hd] at h; cases h
      | some d2, h =>
        simp only [hd] at h ⊢
        by_cases hb : ((w.shadow s'.wi (Real.sqrt d2 - eps)).1 && !w.ignoreShadows) = true
        · rw [if_pos hb] at h ⊢
          simp only [Res.pure_eq, Res.ok.injEq] at h ⊢
          subst h; rfl
        · rw [if_neg hb] at h ⊢
          simp only [Res.pure_eq, Res.ok.injEq] at h ⊢
          subst h
          simp only [LightEval.scale, LightEval.seen.injEq, true_and]
          split_ifs with hp
          · ext <;> show (0 : ℝ) = 0 * _ <;> ring
          all_goals
            ext <;> simp only [V3.mul_x, V3.mul_y, V3.mul_z, V3.smul_x, V3.smul_y, V3.smul_z] <;> field_simp

end Feign.Lights
