import Verif.Image.Filters
import Mathlib.Tactic.Linarith
import Mathlib.Tactic.Positivity
import Mathlib.Tactic.NormNum

/-!
# C49: reconstruction filters are non-negative, symmetric and vanish outside their support
-/

namespace Feign.Image

/-- Specification: the properties the listed claim asks of a filter. -/
structure Filter.WellBehaved {K : Type} [Field K] [LinearOrder K] (f : Filter K) : Prop where
  nonneg : ∀ x y, 0 ≤ f.eval x y
  symm_x : ∀ x y, f.eval (-x) y = f.eval x y
  symm_y : ∀ x y, f.eval x (-y) = f.eval x y
  support : ∀ x y, f.sizeX ≤ |x| ∨ f.sizeY ≤ |y| → f.eval x y = 0

/-- **C49 (box).** -/
theorem box_wellBehaved {K : Type} [Field K] [LinearOrder K] [IsStrictOrderedRing K] (sx sy : K) :
    (boxFilter sx sy).WellBehaved := by
  constructor
  · intro x y; simp only [boxFilter, boxEval]; split <;> norm_num
  · intro x y; simp [boxFilter, boxEval]
  · intro x y; simp [boxFilter, boxEval]
  · intro x y h
    simp only [boxFilter, boxEval] at h ⊢
    rw [if_neg]
    rintro ⟨h1, h2⟩
    rcases h with h | h
    · exact absurd h1 (not_lt.mpr h)
    · exact absurd h2 (not_lt.mpr h)

/-- After `preProcess`, evaluating the Gaussian filter gives the value of `gaussFilter`; before it, the
coefficients are uninitialised. -/
theorem gauss_evaluate (sx sy sd : ℝ) (h : sd ≠ 0) (x y : ℝ) :
    ((Gauss.new sx sy sd).preProcess >>= fun g => g.evaluate x y) =
      .ok ((gaussFilter sx sy sd).eval x y) ∧
    ((Gauss.new sx sy sd).evaluate x y).isUb = true := by
  constructor
  · simp [Gauss.preProcess, Gauss.new, h, Gauss.evaluate, gaussFilter]
  · rfl

private theorem gauss_factor_zero (sd s x : ℝ) (hs : 0 ≤ s) (h : s ≤ |x|) :
    max 0 (Real.exp (-1 / (2 * sd * sd) * x * x) - Real.exp (-1 / (2 * sd * sd) * s * s)) = 0 := by
  apply max_eq_left
  rw [sub_nonpos, Real.exp_le_exp, mul_assoc _ x x, mul_assoc _ s s]
  apply mul_le_mul_of_nonpos_left
  · have : s * s ≤ |x| * |x| := mul_self_le_mul_self hs h
    rwa [abs_mul_abs_self] at this
  · apply div_nonpos_of_nonpos_of_nonneg (by norm_num)
    nlinarith [mul_self_nonneg sd]

/-- **C49 (Gaussian).** For every non-negative half width and non-zero deviation. -/
theorem gauss_wellBehaved (sx sy sd : ℝ) (hx : 0 ≤ sx) (hy : 0 ≤ sy) :
    (gaussFilter sx sy sd).WellBehaved := by
  constructor
  · intro x y
    exact mul_nonneg (le_max_left _ _) (le_max_left _ _)
  · intro x y; simp [gaussFilter, mul_assoc]
  · intro x y; simp [gaussFilter, mul_assoc]
  · intro x y h
    simp only [gaussFilter] at h ⊢
    rcases h with h | h
    · rw [gauss_factor_zero sd sx x hx h, zero_mul]
    · rw [gauss_factor_zero sd sy y hy h, mul_zero]

private theorem gauss_factor_pos (sd s x : ℝ) (hsd : sd ≠ 0) (h : |x| < s) :
    0 < max 0 (Real.exp (-1 / (2 * sd * sd) * x * x) - Real.exp (-1 / (2 * sd * sd) * s * s)) := by
  apply lt_max_of_lt_right
  rw [sub_pos, Real.exp_lt_exp, mul_assoc _ s s, mul_assoc _ x x]
  apply mul_lt_mul_of_neg_left
  · have : |x| * |x| < s * s := mul_self_lt_mul_self (abs_nonneg x) h
    rwa [abs_mul_abs_self] at this
  · apply div_neg_of_neg_of_pos (by norm_num)
    have := mul_self_pos.mpr hsd
    nlinarith

/-- The Gaussian filter is positive exactly inside its support. -/
theorem gauss_pos_iff (sx sy sd : ℝ) (hsd : sd ≠ 0) (hx : 0 ≤ sx) (hy : 0 ≤ sy) (x y : ℝ) :
    0 < (gaussFilter sx sy sd).eval x y ↔ |x| < sx ∧ |y| < sy := by
  constructor
  · intro h
    by_contra hc
    have : (gaussFilter sx sy sd).sizeX ≤ |x| ∨ (gaussFilter sx sy sd).sizeY ≤ |y| := by
      rw [not_and_or, not_lt, not_lt] at hc
      exact hc
    rw [(gauss_wellBehaved sx sy sd hx hy).support x y this] at h
    exact lt_irrefl _ h
  · rintro ⟨h1, h2⟩
    exact mul_pos (gauss_factor_pos sd sx x hsd h1) (gauss_factor_pos sd sy y hsd h2)

/-- Non-vacuity: the filter used by the renderer is positive at its centre and zero at distance 2. -/
example : 0 < apiDefaultFilter.eval 0 0 ∧ apiDefaultFilter.eval 2 0 = 0 := by
  constructor
  · rw [apiDefaultFilter, gauss_pos_iff] <;> norm_num
  · exact (gauss_wellBehaved 2 2 1 (by norm_num) (by norm_num)).support 2 0
      (Or.inl (by norm_num [gaussFilter]))

end Feign.Image
