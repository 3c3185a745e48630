import Verif.Media.Phase
import Verif.Math.FrameProps
import Verif.Sampling.WarpProps
import Mathlib.Analysis.SpecialFunctions.Sqrt
import Mathlib.Analysis.SpecialFunctions.Integrals.Basic

/-!
# C47: phase functions are normalised and sampling returns the evaluated value; C75: the density of drawn directions
-/

set_option linter.unusedSectionVars false
set_option linter.unusedSimpArgs false

namespace Feign.Media

open MeasureTheory Set

/-! ## Specification -/

/-- A value that was returned, 0 otherwise. -/
def valueR : Res ℝ → ℝ
  | .ok v => v
  | _ => 0

/-- The integral of `f` over all directions, in spherical coordinates about the axis of a frame. -/
noncomputable def overSphere (fr : Frame) (f : V3 ℝ → ℝ) : ℝ :=
  ∫ phi in (0 : ℝ)..(2 * Real.pi), ∫ c in (-1 : ℝ)..1,
    f (Frame.sphericalDirection c (Real.sqrt (1 - c * c)) phi fr.s fr.t fr.n)

/-- Parameters for which the phase function is meant to be used. -/
def Phase.Admissible : Phase → Prop
  | .isotropic => True
  | .henyeyGreenstein g => |g| < 1
  | .eddington b => |b| ≤ 1
  | .rayleigh => True
  | .ellipsoidal b => |b| < 1 ∧ b ≠ 0
  | .binomial n => 0 ≤ n
  | .unimplemented => False

/-! ## Antiderivatives -/

theorem hg_denom_pos {g c : ℝ} (hg1 : |g| < 1) (hc : -1 ≤ c ∧ c ≤ 1) : 0 < 1 + g * g - 2 * g * c := by
  obtain ⟨h1, h2⟩ := abs_lt.1 hg1
  have hl : |g * c| ≤ |g| := by
    rw [abs_mul]
    exact mul_le_of_le_one_right (abs_nonneg g) (abs_le.2 hc)
  have : g * c ≤ |g| := (le_abs_self _).trans hl
  have hsq : |g| * |g| = g * g := abs_mul_abs_self g
  nlinarith

/-- The Henyey–Greenstein integral from -1 to `c`, for `g ≠ 0`. -/
noncomputable def hgCdf (g c : ℝ) : ℝ :=
  ((1 - g * g) / Real.sqrt (1 + g * g - 2 * g * c) - (1 - g)) / (2 * g)

theorem hg_integral (g : ℝ) (hg1 : |g| < 1) (h0 : g ≠ 0) (c : ℝ) (hc : -1 ≤ c ∧ c ≤ 1) :
    ∫ x in (-1 : ℝ)..c, 2 * Real.pi * valueR (hg x g) = hgCdf g c := by
  have hderiv : ∀ x ∈ uIcc (-1) c, HasDerivAt (hgCdf g) (2 * Real.pi * valueR (hg x g)) x := by
    intro x hx
    rw [uIcc_of_le hc.1] at hx
    have hd := hg_denom_pos hg1 ⟨hx.1, hx.2.trans hc.2⟩
    have h1 : HasDerivAt (fun x : ℝ => 1 + g * g - 2 * g * x) (-(2 * g)) x := by
      simpa using ((hasDerivAt_id x).const_mul (2 * g)).const_sub (1 + g * g)
    have hs : Real.sqrt (1 + g * g - 2 * g * x) ≠ 0 := (Real.sqrt_pos.2 hd).ne'
    have h2 := ((((h1.sqrt hd.ne').inv hs).const_mul (1 - g * g)).sub_const (1 - g)).div_const (2 * g)
    have h3 : HasDerivAt (hgCdf g) _ x := h2.congr_of_eventuallyEq
      (Filter.Eventually.of_forall fun y => by simp only [hgCdf, div_eq_mul_inv, Pi.inv_apply])
    refine h3.congr_deriv ?_
    simp only [hg, if_neg (not_le.2 hd), valueR]
    have hsq : Real.sqrt (1 + g * g - 2 * g * x) ^ 2 = 1 + g * g - 2 * g * x := Real.sq_sqrt hd.le
    have hpi := Real.pi_pos.ne'
    have hs3 : (1 + g * g - 2 * g * x) * Real.sqrt (1 + g * g - 2 * g * x) =
        Real.sqrt (1 + g * g - 2 * g * x) ^ 3 := by rw [pow_succ, hsq]
    rw [hs3]
    field_simp
    ring
  have hcont : ContinuousOn (fun x => 2 * Real.pi * valueR (hg x g)) (uIcc (-1) c) := by
    have heq : EqOn (fun x => 2 * Real.pi * valueR (hg x g)) (fun x => 2 * Real.pi * (1 / (4 * Real.pi) *
        (1 - g * g) / ((1 + g * g - 2 * g * x) * Real.sqrt (1 + g * g - 2 * g * x)))) (uIcc (-1) c) := by
      intro x hx
      rw [uIcc_of_le hc.1] at hx
      have hd := hg_denom_pos hg1 ⟨hx.1, hx.2.trans hc.2⟩
      simp only [hg, if_neg (not_le.2 hd), valueR]
    refine ContinuousOn.congr ?_ heq
    refine ContinuousOn.mul continuousOn_const (ContinuousOn.div continuousOn_const (by fun_prop) ?_)
    intro x hx
    rw [uIcc_of_le hc.1] at hx
    have hd := hg_denom_pos hg1 ⟨hx.1, hx.2.trans hc.2⟩
    exact (mul_pos hd (Real.sqrt_pos.2 hd)).ne'
  rw [intervalIntegral.integral_eq_sub_of_hasDerivAt hderiv hcont.intervalIntegrable]
  have hm1 : hgCdf g (-1) = 0 := by
    obtain ⟨h1, h2⟩ := abs_lt.1 hg1
    have : Real.sqrt (1 + g * g - 2 * g * (-1)) = 1 + g := by
      rw [show 1 + g * g - 2 * g * (-1) = (1 + g) ^ 2 by ring, Real.sqrt_sq (by linarith)]
    rw [hgCdf, this]
    have : (1 : ℝ) + g ≠ 0 := by linarith
    field_simp
    ring
  rw [hm1, sub_zero]

theorem hgCdf_one (g : ℝ) (hg1 : |g| < 1) (h0 : g ≠ 0) : hgCdf g 1 = 1 := by
  obtain ⟨h1, h2⟩ := abs_lt.1 hg1
  have : Real.sqrt (1 + g * g - 2 * g * 1) = 1 - g := by
    rw [show 1 + g * g - 2 * g * 1 = (1 - g) ^ 2 by ring, Real.sqrt_sq (by linarith)]
  rw [hgCdf, this]
  have : (1 : ℝ) - g ≠ 0 := by linarith
  field_simp
  ring

theorem ratio_pos {b : ℝ} (hb : |b| < 1) : 0 < (b + 1) / (1 - b) := by
  obtain ⟨h1, h2⟩ := abs_lt.1 hb
  exact div_pos (by linarith) (by linarith)

theorem log_ratio_ne {b : ℝ} (hb : |b| < 1) (h0 : b ≠ 0) : Real.log ((b + 1) / (1 - b)) ≠ 0 := by
  obtain ⟨h1, h2⟩ := abs_lt.1 hb
  refine Real.log_ne_zero_of_pos_of_ne_one (ratio_pos hb) fun h => h0 ?_
  rw [div_eq_one_iff_eq (by linarith)] at h
  linarith

theorem one_sub_pos {b c : ℝ} (hb : |b| < 1) (hc : -1 ≤ c ∧ c ≤ 1) : 0 < 1 - b * c := by
  have hl : |b * c| ≤ |b| := by
    rw [abs_mul]
    exact mul_le_of_le_one_right (abs_nonneg b) (abs_le.2 hc)
  have := (le_abs_self _).trans hl
  linarith

theorem ellipsoidal_value {b c : ℝ} (hb : |b| < 1) (h0 : b ≠ 0) (hc : -1 ≤ c ∧ c ≤ 1) :
    (Phase.ellipsoidal b).evalCos c =
      .ok (b * (1 / (2 * Real.pi)) / ((1 - b * c) * Real.log ((b + 1) / (1 - b)))) := by
  obtain ⟨h1, h2⟩ := abs_lt.1 hb
  simp only [Phase.evalCos]
  rw [if_neg h2.ne, if_neg (not_le.2 (ratio_pos hb)), if_neg (mul_ne_zero (one_sub_pos hb hc).ne' (log_ratio_ne hb h0))]

/-- The ellipsoidal integral from -1 to `c`. -/
noncomputable def ellCdf (b c : ℝ) : ℝ := Real.log ((b + 1) / (1 - b * c)) / Real.log ((b + 1) / (1 - b))

theorem ell_integral (b : ℝ) (hb : |b| < 1) (h0 : b ≠ 0) (c : ℝ) (hc : -1 ≤ c ∧ c ≤ 1) :
    ∫ x in (-1 : ℝ)..c, 2 * Real.pi * valueR ((Phase.ellipsoidal b).evalCos x) = ellCdf b c := by
  obtain ⟨hb1, hb2⟩ := abs_lt.1 hb
  have heq : EqOn (fun x => 2 * Real.pi * valueR ((Phase.ellipsoidal b).evalCos x))
      (fun x => b / ((1 - b * x) * Real.log ((b + 1) / (1 - b)))) (uIcc (-1) c) := by
    intro x hx
    rw [uIcc_of_le hc.1] at hx
    simp only [ellipsoidal_value hb h0 ⟨hx.1, hx.2.trans hc.2⟩, valueR]
    have := Real.pi_pos.ne'
    field_simp
  rw [intervalIntegral.integral_congr heq]
  have hderiv : ∀ x ∈ uIcc (-1) c, HasDerivAt (ellCdf b) (b / ((1 - b * x) * Real.log ((b + 1) / (1 - b)))) x := by
    intro x hx
    rw [uIcc_of_le hc.1] at hx
    have hd := one_sub_pos hb ⟨hx.1, hx.2.trans hc.2⟩
    have h1 : HasDerivAt (fun x : ℝ => 1 - b * x) (-b) x := by
      simpa using ((hasDerivAt_id x).const_mul b).const_sub 1
    have hbp : (0 : ℝ) < b + 1 := by linarith
    have h2 := (((h1.inv hd.ne').const_mul (b + 1)).log (by
      simp only [Pi.inv_apply]; exact (mul_pos hbp (inv_pos.2 hd)).ne')).div_const (Real.log ((b + 1) / (1 - b)))
    have h3 : HasDerivAt (ellCdf b) _ x := h2.congr_of_eventuallyEq
      (Filter.Eventually.of_forall fun y => by simp only [ellCdf, div_eq_mul_inv, Pi.inv_apply])
    refine h3.congr_deriv ?_
    have := log_ratio_ne hb h0
    simp only [Pi.inv_apply]
    field_simp
  have hcont : ContinuousOn (fun x => b / ((1 - b * x) * Real.log ((b + 1) / (1 - b)))) (uIcc (-1) c) := by
    refine ContinuousOn.div continuousOn_const (by fun_prop) ?_
    intro x hx
    rw [uIcc_of_le hc.1] at hx
    exact mul_ne_zero (one_sub_pos hb ⟨hx.1, hx.2.trans hc.2⟩).ne' (log_ratio_ne hb h0)
  rw [intervalIntegral.integral_eq_sub_of_hasDerivAt hderiv hcont.intervalIntegrable]
  have : ellCdf b (-1) = 0 := by
    rw [ellCdf, show (1 : ℝ) - b * -1 = b + 1 by ring, div_self (by linarith), Real.log_one, zero_div]
  rw [this, sub_zero]

theorem ellCdf_one (b : ℝ) (hb : |b| < 1) (h0 : b ≠ 0) : ellCdf b 1 = 1 := by
  rw [ellCdf, mul_one, div_self (log_ratio_ne hb h0)]

theorem poly_integral (a b c x : ℝ) :
    ∫ y in (-1 : ℝ)..x, (a * y ^ 2 + b * y + c) = a * (x ^ 3 + 1) / 3 + b * (x ^ 2 - 1) / 2 + c * (x + 1) := by
  have hderiv : ∀ y ∈ uIcc (-1) x, HasDerivAt (fun y : ℝ => a / 3 * y ^ 3 + b / 2 * y ^ 2 + c * y)
      (a * y ^ 2 + b * y + c) y := by
    intro y _
    have h := (((hasDerivAt_pow 3 y).const_mul (a / 3)).add ((hasDerivAt_pow 2 y).const_mul (b / 2))).add
      ((hasDerivAt_id y).const_mul c)
    refine h.congr_deriv ?_
    norm_num
    ring
  have hcont : Continuous fun y : ℝ => a * y ^ 2 + b * y + c := by fun_prop
  rw [intervalIntegral.integral_eq_sub_of_hasDerivAt hderiv (hcont.intervalIntegrable _ _)]
  ring

/-- The integral of an admissible phase function over the cosine, times `2π`. -/
theorem evalCos_integral (p : Phase) (h : p.Admissible) :
    ∫ c in (-1 : ℝ)..1, 2 * Real.pi * valueR (p.evalCos c) = 1 := by
  have hpi := Real.pi_pos.ne'
  cases p with
  | isotropic =>
    have : ∀ c : ℝ, 2 * Real.pi * valueR (Phase.isotropic.evalCos c) = 0 * c ^ 2 + 0 * c + 1 / 2 := by
      intro c
      simp only [Phase.evalCos, valueR]
      field_simp
      ring
    simp only [this]
    rw [poly_integral]
    norm_num
  | henyeyGreenstein g =>
    by_cases h0 : g = 0
    · subst h0
      have : ∀ c : ℝ, 2 * Real.pi * valueR ((Phase.henyeyGreenstein 0).evalCos c) = 0 * c ^ 2 + 0 * c + 1 / 2 := by
        intro c
        simp only [Phase.evalCos, hg]
        norm_num [valueR]
        field_simp
        norm_num
      simp only [this]
      rw [poly_integral]
      norm_num
    · simp only [Phase.evalCos]
      rw [hg_integral g h h0 1 (by norm_num), hgCdf_one g h h0]
  | eddington b =>
    have : ∀ c : ℝ, 2 * Real.pi * valueR ((Phase.eddington b).evalCos c) = 0 * c ^ 2 + 2 * c + 1 / 2 := by
      intro c
      simp only [Phase.evalCos, valueR]
      field_simp
      ring
    simp only [this]
    rw [poly_integral]
    norm_num
  | rayleigh =>
    have : ∀ c : ℝ, 2 * Real.pi * valueR (Phase.rayleigh.evalCos c) = 3 / 8 * c ^ 2 + 0 * c + 3 / 8 := by
      intro c
      simp only [Phase.evalCos, valueR]
      field_simp
      ring
    simp only [this]
    rw [poly_integral]
    norm_num
  | ellipsoidal b => rw [ell_integral b h.1 h.2 1 (by norm_num), ellCdf_one b h.1 h.2]
  | binomial n =>
    have hn : (0 : ℝ) ≤ n := h
    have heq : EqOn (fun c => 2 * Real.pi * valueR ((Phase.binomial n).evalCos c))
        (fun c => 2 * (2 : ℝ) ^ (-n - 2) * (n + 1) * (c + 1) ^ n) (uIcc (-1) 1) := by
      intro c hc
      rw [uIcc_of_le (by norm_num)] at hc
      simp only [Phase.evalCos]
      rw [if_neg (by linarith [hc.1]), if_neg (by rintro ⟨-, h⟩; linarith)]
      simp only [valueR]
      field_simp
    rw [intervalIntegral.integral_congr heq, intervalIntegral.integral_const_mul,
      intervalIntegral.integral_comp_add_right (fun c => c ^ n) 1, integral_rpow (Or.inl (by linarith))]
    norm_num
    rw [Real.zero_rpow (by linarith), sub_zero]
    have h1 : (n + 1) ≠ 0 := by linarith
    have h2 : (2 : ℝ) ^ (-n - 2) * (2 : ℝ) ^ (n + 1) = 1 / 2 := by
      rw [← Real.rpow_add two_pos]
      ring_nf
      rw [Real.rpow_neg_one]
      norm_num
    field_simp
    linear_combination 2 * h2
  | unimplemented => exact absurd h id

/-- C47: every implemented phase function integrates to one over the sphere, for every direction `wo` and every
admissible parameter. -/
theorem phase_normalised (p : Phase) (h : p.Admissible) (fr : Frame) (ho : fr.Orthonormal) :
    overSphere fr (fun wi => valueR (p.eval fr.n wi)) = 1 := by
  unfold overSphere
  have hin : ∀ phi : ℝ, (∫ c in (-1 : ℝ)..1, valueR (p.eval fr.n
      (Frame.sphericalDirection c (Real.sqrt (1 - c * c)) phi fr.s fr.t fr.n))) = 1 / (2 * Real.pi) := by
    intro phi
    have heq : EqOn (fun c => valueR (p.eval fr.n
        (Frame.sphericalDirection c (Real.sqrt (1 - c * c)) phi fr.s fr.t fr.n)))
        (fun c => valueR (p.evalCos c)) (uIcc (-1) 1) := by
      intro c hc
      rw [uIcc_of_le (by norm_num)] at hc
      have h2 := (Frame.sphericalDirection_unit fr ho c (Real.sqrt (1 - c * c)) phi (by
        rw [Real.mul_self_sqrt (by nlinarith [hc.1, hc.2])]; ring)).2
      have h3 : fr.n.dot (Frame.sphericalDirection c (Real.sqrt (1 - c * c)) phi fr.s fr.t fr.n) = c := by
        refine Eq.trans ?_ h2
        simp only [V3.dot]
        ring
      simp only [Phase.eval, h3]
    rw [intervalIntegral.integral_congr heq]
    have := evalCos_integral p h
    rw [intervalIntegral.integral_const_mul] at this
    have hpi := Real.pi_pos
    field_simp
    linarith
  simp only [hin]
  rw [intervalIntegral.integral_const]
  have hpi := Real.pi_pos.ne'
  simp only [smul_eq_mul, sub_zero]
  field_simp

/-- Every unit direction has such a frame. -/
example (wo : V3 ℝ) (h : wo.sqrNorm = 1) : ∃ fr : Frame, fr.n = wo ∧ fr.Orthonormal := by
  obtain ⟨fr, -, h1, h2, -⟩ := Frame.frame_orthonormal wo h
  exact ⟨fr, h1, h2⟩

example : (Phase.henyeyGreenstein (-1 / 2)).Admissible := by norm_num [Phase.Admissible, abs_lt]

/-- C47, non-negativity: all phase functions but the Eddington one. -/
theorem phase_nonneg_partial (p : Phase) (h : p.Admissible) (hne : ∀ b, p ≠ .eddington b) (c : ℝ)
    (hc : -1 ≤ c ∧ c ≤ 1) : ∃ v, p.evalCos c = .ok v ∧ 0 ≤ v := by
  have hpi := Real.pi_pos
  cases p with
  | isotropic => exact ⟨_, rfl, by positivity⟩
  | henyeyGreenstein g =>
    have hd := hg_denom_pos h hc
    refine ⟨1 / (4 * Real.pi) * (1 - g * g) / ((1 + g * g - 2 * g * c) * Real.sqrt (1 + g * g - 2 * g * c)), ?_, ?_⟩
    · simp only [Phase.evalCos, hg, if_neg (not_le.2 hd)]
    · obtain ⟨h1, h2⟩ := abs_lt.1 h
      have : 0 ≤ 1 - g * g := by nlinarith
      exact div_nonneg (mul_nonneg (by positivity) this) (mul_nonneg hd.le (Real.sqrt_nonneg _))
  | eddington b => exact absurd rfl (hne b)
  | rayleigh => exact ⟨_, rfl, by have := mul_self_nonneg c; positivity⟩
  | ellipsoidal b =>
    refine ⟨_, ellipsoidal_value h.1 h.2 hc, ?_⟩
    have h1 := one_sub_pos h.1 hc
    obtain ⟨hb1, hb2⟩ := abs_lt.1 h.1
    have h3 : 0 ≤ b / Real.log ((b + 1) / (1 - b)) := by
      rcases le_total 0 b with hb | hb
      · refine div_nonneg hb (Real.log_nonneg ?_)
        rw [le_div_iff₀ (by linarith)]
        linarith
      · refine div_nonneg_of_nonpos hb (Real.log_nonpos (ratio_pos h.1).le ?_)
        rw [div_le_iff₀ (by linarith)]
        linarith
    have : b * (1 / (2 * Real.pi)) / ((1 - b * c) * Real.log ((b + 1) / (1 - b))) =
        b / Real.log ((b + 1) / (1 - b)) * (1 / (2 * Real.pi) / (1 - b * c)) := by
      have := log_ratio_ne h.1 h.2
      field_simp
    rw [this]
    exact mul_nonneg h3 (div_nonneg (by positivity) h1.le)
  | binomial n =>
    have hn : (0 : ℝ) ≤ n := h
    refine ⟨1 / Real.pi * (2 : ℝ) ^ (-n - 2) * (n + 1) * (c + 1) ^ n, ?_, ?_⟩
    · simp only [Phase.evalCos]
      rw [if_neg (by linarith [hc.1]), if_neg (by rintro ⟨-, h⟩; linarith)]
    · have h1 : (0 : ℝ) ≤ (c + 1) ^ n := Real.rpow_nonneg (by linarith [hc.1]) n
      have h2 : (0 : ℝ) ≤ (2 : ℝ) ^ (-n - 2) := Real.rpow_nonneg (by norm_num) _
      have : (0 : ℝ) ≤ n + 1 := by linarith
      exact mul_nonneg (mul_nonneg (mul_nonneg (by positivity) h2) this) h1
  | unimplemented => exact absurd h id

/-- C47: the Eddington phase function is negative away from the poles, whatever its parameter, which it ignores. -/
theorem eddington_negative_refuted (b b' : ℝ) :
    (Phase.eddington b).evalCos (-1) = .ok (-3 / (4 * Real.pi)) ∧ (-3 / (4 * Real.pi) : ℝ) < 0 ∧
    ∀ c, (Phase.eddington b).evalCos c = (Phase.eddington b').evalCos c := by
  have hpi := Real.pi_pos
  refine ⟨?_, div_neg_of_neg_of_pos (by norm_num) (by positivity), fun c => rfl⟩
  simp only [Phase.evalCos, Res.ok.injEq]
  ring

/-- C47: the ellipsoidal phase function, which tends to the isotropic one as its parameter tends to zero, is not
defined at zero. -/
theorem ellipsoidal_zero_refuted (c : ℝ) : ((Phase.ellipsoidal 0).evalCos c).isUb = true := by
  norm_num [Phase.evalCos, Res.isUb]

/-! ## Sampling -/

theorem rayleigh_pos (u : ℝ) : 0 < -4 * u + Real.sqrt (16 * (u - 1) * u + 5) + 2 := by
  have h : 16 * (u - 1) * u + 5 = (2 - 4 * u) ^ 2 + 1 := by ring
  rw [h]
  have h1 : |2 - 4 * u| < Real.sqrt ((2 - 4 * u) ^ 2 + 1) := by
    rw [← Real.sqrt_sq_eq_abs]
    exact Real.sqrt_lt_sqrt (sq_nonneg _) (by linarith)
  have := neg_abs_le (2 - 4 * u)
  linarith

/-- The cubic that the Rayleigh sampler solves. -/
theorem rayleigh_cubic (u : ℝ) : rayleighCos u ^ 3 + 3 * rayleighCos u = 8 * u - 4 := by
  have hpos := rayleigh_pos u
  unfold rayleighCos
  dsimp only
  set tmp := -4 * u + Real.sqrt (16 * (u - 1) * u + 5) + 2 with ht
  set w := tmp ^ ((1 : ℝ) / 3) with hw
  have hw0 : 0 < w := Real.rpow_pos_of_pos hpos _
  have h2 : tmp ^ ((2 : ℝ) / 3) = w ^ 2 := by
    rw [hw, ← Real.rpow_natCast, ← Real.rpow_mul hpos.le]
    norm_num
  have h3 : w ^ 3 = tmp := by
    rw [hw, ← Real.rpow_natCast, ← Real.rpow_mul hpos.le]
    norm_num
  rw [h2]
  have hsq : Real.sqrt (16 * (u - 1) * u + 5) ^ 2 = 16 * (u - 1) * u + 5 :=
    Real.sq_sqrt (by nlinarith [sq_nonneg (2 - 4 * u)])
  have hs : Real.sqrt (16 * (u - 1) * u + 5) = w ^ 3 + 4 * u - 2 := by rw [h3, ht]; ring
  rw [hs] at hsq
  have hw3 : w ^ 3 ≠ 0 := by positivity
  have key : ((1 - w ^ 2) / w) ^ 3 + 3 * ((1 - w ^ 2) / w) = (1 - w ^ 6) / w ^ 3 := by
    field_simp
    ring
  rw [key, div_eq_iff hw3]
  linear_combination -hsq

/-- `hgCos` in the usual form. -/
theorem hgCos_eq (eps g u : ℝ) (hg1 : |g| < 1) (he : eps ≤ |g|) (hu : 0 ≤ u ∧ u ≤ 1) (h0 : g ≠ 0) :
    0 < (2 * u - 1) * g + 1 ∧ hgCos eps g u =
      .ok ((1 + g * g - ((1 - g * g) / ((2 * u - 1) * g + 1)) ^ 2) / (2 * g)) := by
  obtain ⟨h1, h2⟩ := abs_lt.1 hg1
  have hd : 0 < (2 * u - 1) * g + 1 := by
    have : |(2 * u - 1) * g| < 1 := by
      rw [abs_mul]
      have : |2 * u - 1| ≤ 1 := abs_le.2 ⟨by linarith [hu.1], by linarith [hu.2]⟩
      have := mul_le_of_le_one_left (abs_nonneg g) this
      linarith
    linarith [(abs_lt.1 this).1]
  refine ⟨hd, ?_⟩
  rw [hgCos, if_neg (not_lt.2 he)]
  dsimp only
  rw [if_neg (mul_pos hd hd).ne']
  congr 1
  have hd' := hd.ne'
  generalize hD : (2 * u - 1) * g + 1 = d at *
  rw [div_eq_div_iff (mul_pos hd hd).ne' (mul_ne_zero two_ne_zero h0), div_pow]
  have e : (1 + g * g - (1 - g * g) ^ 2 / d ^ 2) * (d * d) = (1 + g * g) * (d * d) - (1 - g * g) ^ 2 := by
    field_simp
  rw [e, ← hD]
  ring

theorem around_spec (c v : ℝ) (hc : -1 ≤ c ∧ c ≤ 1) (wo : V3 ℝ) (hw : wo.sqrNorm = 1) :
    ∃ wi, around c v wo = .ok wi ∧ wi.sqrNorm = 1 ∧ wo.dot wi = -c := by
  obtain ⟨fr, h1, h2, h3, -⟩ := Frame.frame_orthonormal wo hw
  unfold Frame.ofNormal at h1
  rw [Option.map_eq_some_iff] at h1
  obtain ⟨⟨v1, v2⟩, hv, rfl⟩ := h1
  refine ⟨_, by simp only [around, hv]; rfl, ?_⟩
  obtain ⟨ss, tt, nn, st, sn, tn⟩ := h3
  have hneg : Frame.Orthonormal ⟨v1, v2, -wo⟩ := by
    refine ⟨ss, tt, ?_, st, ?_, ?_⟩
    · simp only [V3.dot, V3.neg_x, V3.neg_y, V3.neg_z] at nn ⊢
      linarith
    · simp only [V3.dot, V3.neg_x, V3.neg_y, V3.neg_z] at sn ⊢
      linarith
    · simp only [V3.dot, V3.neg_x, V3.neg_y, V3.neg_z] at tn ⊢
      linarith
  have hcs : c * c + Real.sqrt (max 0 (1 - c * c)) * Real.sqrt (max 0 (1 - c * c)) = 1 := by
    rw [Real.mul_self_sqrt (le_max_left _ _), max_eq_right (by nlinarith [hc.1, hc.2])]
    ring
  have hu := Frame.sphericalDirection_unit _ hneg c (Real.sqrt (max 0 (1 - c * c))) (2 * Real.pi * v) hcs
  refine ⟨hu.1, ?_⟩
  have := hu.2
  simp only [V3.dot, V3.neg_x, V3.neg_y, V3.neg_z] at this ⊢
  linarith

theorem hgCos_range (eps g u : ℝ) (hg1 : |g| < 1) (he : 0 < eps) (hu : 0 ≤ u ∧ u ≤ 1) :
    ∃ c, hgCos eps g u = .ok c ∧ -1 ≤ c ∧ c ≤ 1 := by
  by_cases h : |g| < eps
  · exact ⟨1 - 2 * u, by rw [hgCos, if_pos h], by linarith [hu.2], by linarith [hu.1]⟩
  · have h0 : g ≠ 0 := by
      rintro rfl
      rw [abs_zero] at h
      exact h he
    obtain ⟨hd, heq⟩ := hgCos_eq eps g u hg1 (not_lt.1 h) hu h0
    refine ⟨_, heq, ?_⟩
    obtain ⟨h1, h2⟩ := abs_lt.1 hg1
    have hq : |g| * |g| = g * g := abs_mul_abs_self g
    -- the quotient lies between `1 - |g|` and `1 + |g|`
    have hdl : 1 - |g| ≤ (2 * u - 1) * g + 1 ∧ (2 * u - 1) * g + 1 ≤ 1 + |g| := by
      have : |(2 * u - 1) * g| ≤ |g| := by
        rw [abs_mul]
        exact mul_le_of_le_one_left (abs_nonneg g) (abs_le.2 ⟨by linarith [hu.1], by linarith [hu.2]⟩)
      obtain ⟨a, b⟩ := abs_le.1 this
      exact ⟨by linarith, by linarith⟩
    have hr1 : 1 - |g| ≤ (1 - g * g) / ((2 * u - 1) * g + 1) := by
      rw [le_div_iff₀ hd]
      nlinarith [hdl.2]
    have hr2 : (1 - g * g) / ((2 * u - 1) * g + 1) ≤ 1 + |g| := by
      rw [div_le_iff₀ hd]
      nlinarith [hdl.1, abs_nonneg g]
    set r := (1 - g * g) / ((2 * u - 1) * g + 1)
    have hs1 : (1 - |g|) ^ 2 ≤ r ^ 2 := pow_le_pow_left₀ (by linarith) hr1 2
    have hs2 : r ^ 2 ≤ (1 + |g|) ^ 2 := pow_le_pow_left₀ (by linarith [hr1]) hr2 2
    have habs : |1 + g * g - r ^ 2| ≤ |2 * g| := by
      rw [abs_mul, abs_two, abs_le]
      constructor <;> nlinarith
    rw [← abs_le, abs_div]
    exact (div_le_one (abs_pos.2 (mul_ne_zero two_ne_zero h0))).2 habs

theorem eddingtonCos_range (eps b u : ℝ) (he : 0 < eps) (hu : 0 ≤ u ∧ u ≤ 1) :
    ∃ c, eddingtonCos eps b u = .ok c ∧ -1 ≤ c ∧ c ≤ 1 := by
  by_cases h : |b| < eps
  · exact ⟨1 - 2 * u, by rw [eddingtonCos, if_pos h], by linarith [hu.2], by linarith [hu.1]⟩
  · have h0 : b ≠ 0 := by
      rintro rfl
      rw [abs_zero] at h
      exact h he
    have hq : |b| * |b| = b * b := abs_mul_abs_self b
    have hlo : (1 - |b|) ^ 2 ≤ b * b + 4 * b * u - 2 * b + 1 := by
      have : |b * (2 * u - 1)| ≤ |b| := by
        rw [abs_mul]
        exact mul_le_of_le_one_right (abs_nonneg b) (abs_le.2 ⟨by linarith [hu.1], by linarith [hu.2]⟩)
      have := (abs_le.1 this).1
      nlinarith
    have hhi : b * b + 4 * b * u - 2 * b + 1 ≤ (1 + |b|) ^ 2 := by
      have : |b * (2 * u - 1)| ≤ |b| := by
        rw [abs_mul]
        exact mul_le_of_le_one_right (abs_nonneg b) (abs_le.2 ⟨by linarith [hu.1], by linarith [hu.2]⟩)
      have := (abs_le.1 this).2
      nlinarith
    refine ⟨(Real.sqrt (b * b + 4 * b * u - 2 * b + 1) - 1) / b, ?_, ?_⟩
    · rw [eddingtonCos, if_neg h, if_neg (by nlinarith [sq_nonneg (1 - |b|)]), if_neg h0]
    · rw [← abs_le, abs_div, div_le_one (abs_pos.2 h0), abs_le]
      constructor
      · have := Real.sqrt_le_sqrt hlo
        rw [Real.sqrt_sq_eq_abs] at this
        have := le_abs_self (1 - |b|)
        linarith
      · have := Real.sqrt_le_sqrt hhi
        rw [Real.sqrt_sq (by positivity)] at this
        linarith

theorem rayleighCos_range (u : ℝ) (hu : 0 ≤ u ∧ u ≤ 1) : -1 ≤ rayleighCos u ∧ rayleighCos u ≤ 1 := by
  have h := rayleigh_cubic u
  set c := rayleighCos u
  constructor
  · by_contra hn
    have : c < -1 := not_le.1 hn
    nlinarith [sq_nonneg (c - 1), sq_nonneg c, sq_nonneg (c + 1), hu.1]
  · by_contra hn
    have : 1 < c := not_le.1 hn
    nlinarith [sq_nonneg (c - 1), sq_nonneg c, sq_nonneg (c + 1), hu.2]

/-- The ellipsoidal sampler solves `1 - b c = (b + 1) r^(-u)`. -/
theorem ellipsoidalCos_eq (b u : ℝ) (hb : |b| < 1) (h0 : b ≠ 0) :
    ellipsoidalCos b u = .ok ((1 - (b + 1) * ((b + 1) / (1 - b)) ^ (-u)) / b) := by
  obtain ⟨h1, h2⟩ := abs_lt.1 hb
  rw [ellipsoidalCos, if_neg (by rintro (h | h) <;> [exact h2.ne h; exact h0 h]), if_neg (not_le.2 (ratio_pos hb))]

theorem ellipsoidalCos_range (b u : ℝ) (hb : |b| < 1) (h0 : b ≠ 0) (hu : 0 ≤ u ∧ u ≤ 1) :
    -1 ≤ (1 - (b + 1) * ((b + 1) / (1 - b)) ^ (-u)) / b ∧ (1 - (b + 1) * ((b + 1) / (1 - b)) ^ (-u)) / b ≤ 1 := by
  obtain ⟨h1, h2⟩ := abs_lt.1 hb
  have hr := ratio_pos hb
  set r := (b + 1) / (1 - b) with hrdef
  have hbp : (0 : ℝ) < b + 1 := by linarith
  have hbm : (0 : ℝ) < 1 - b := by linarith
  have hend : (b + 1) * r ^ (-1 : ℝ) = 1 - b := by
    rw [Real.rpow_neg_one, hrdef]
    field_simp
  have hstart : (b + 1) * r ^ (0 : ℝ) = b + 1 := by rw [Real.rpow_zero, mul_one]
  rw [← abs_le, abs_div, div_le_one (abs_pos.2 h0)]
  rcases lt_or_gt_of_ne h0 with hneg | hpos
  · have hr1 : r ≤ 1 := by rw [hrdef, div_le_iff₀ hbm]; linarith
    have a1 : r ^ (0 : ℝ) ≤ r ^ (-u) := Real.rpow_le_rpow_of_exponent_ge hr hr1 (by linarith [hu.1])
    have a2 : r ^ (-u) ≤ r ^ (-1 : ℝ) := Real.rpow_le_rpow_of_exponent_ge hr hr1 (by linarith [hu.2])
    have b1 := mul_le_mul_of_nonneg_left a1 hbp.le
    have b2 := mul_le_mul_of_nonneg_left a2 hbp.le
    rw [hstart] at b1
    rw [hend] at b2
    rw [abs_of_neg hneg, abs_le]
    constructor <;> linarith
  · have hr1 : 1 ≤ r := by rw [hrdef, le_div_iff₀ hbm]; linarith
    have a1 : r ^ (-u) ≤ r ^ (0 : ℝ) := Real.rpow_le_rpow_of_exponent_le hr1 (by linarith [hu.1])
    have a2 : r ^ (-1 : ℝ) ≤ r ^ (-u) := Real.rpow_le_rpow_of_exponent_le hr1 (by linarith [hu.2])
    have b1 := mul_le_mul_of_nonneg_left a1 hbp.le
    have b2 := mul_le_mul_of_nonneg_left a2 hbp.le
    rw [hstart] at b1
    rw [hend] at b2
    rw [abs_of_pos hpos, abs_le]
    constructor <;> linarith

/-- Phase functions that can be sampled. -/
def Phase.Sampled : Phase → Prop
  | .binomial _ => False
  | .unimplemented => False
  | _ => True

/-- C47: sampling an admissible phase function with two random numbers and a unit direction gives a unit direction,
and the value returned is the phase function evaluated for that direction. -/
theorem phase_sample (p : Phase) (h : p.Admissible) (hp : p.Sampled) (eps : ℝ) (he : 0 < eps) (s : V2 ℝ)
    (hs : Warp.InSquare s) (wo : V3 ℝ) (hw : wo.sqrNorm = 1) :
    ∃ wi v, p.sample eps s wo = .ok (wi, v) ∧ wi.sqrNorm = 1 ∧ p.eval wo wi = .ok v := by
  have hu : 0 ≤ s.x ∧ s.x ≤ 1 := ⟨hs.1, hs.2.1.le⟩
  cases p with
  | isotropic => exact ⟨_, _, rfl, (Warp.uniSph_domain s hs).1, rfl⟩
  | henyeyGreenstein g =>
    obtain ⟨c, hc, hr⟩ := hgCos_range eps g s.x h he hu
    obtain ⟨wi, h1, h2, h3⟩ := around_spec c s.y hr wo hw
    have hd := hg_denom_pos h (c := -c) ⟨by linarith [hr.2], by linarith [hr.1]⟩
    have hv : hg (-c) g = .ok (1 / (4 * Real.pi) * (1 - g * g) / ((1 + g * g - 2 * g * -c) *
        Real.sqrt (1 + g * g - 2 * g * -c))) := by simp only [hg, if_neg (not_le.2 hd)]
    refine ⟨wi, 1 / (4 * Real.pi) * (1 - g * g) / ((1 + g * g - 2 * g * -c) * Real.sqrt (1 + g * g - 2 * g * -c)),
      ?_, h2, ?_⟩
    · show (hgCos eps g s.x).bind _ = _
      rw [hc]
      show (around c s.y wo).bind _ = _
      rw [h1]
      show (hg (-c) g).bind _ = _
      rw [hv]
      rfl
    · rw [Phase.eval, h3]
      exact hv
  | eddington b =>
    obtain ⟨c, hc, hr⟩ := eddingtonCos_range eps b s.x he hu
    obtain ⟨wi, h1, h2, h3⟩ := around_spec c s.y hr wo hw
    refine ⟨wi, _, ?_, h2, rfl⟩
    show (eddingtonCos eps b s.x).bind _ = _
    rw [hc]
    show (around c s.y wo).bind _ = _
    rw [h1]
    rfl
  | rayleigh =>
    obtain ⟨wi, h1, h2, h3⟩ := around_spec (rayleighCos s.x) s.y (rayleighCos_range s.x hu) wo hw
    refine ⟨wi, _, ?_, h2, rfl⟩
    show (around (rayleighCos s.x) s.y wo).bind _ = _
    rw [h1]
    rfl
  | ellipsoidal b =>
    have hr := ellipsoidalCos_range b s.x h.1 h.2 hu
    obtain ⟨wi, h1, h2, h3⟩ := around_spec _ s.y hr wo hw
    have hv := ellipsoidal_value h.1 h.2 (c := wo.dot wi) (by rw [h3]; exact ⟨by linarith [hr.2], by linarith [hr.1]⟩)
    refine ⟨wi, _, ?_, h2, hv⟩
    show (ellipsoidalCos b s.x).bind _ = _
    rw [ellipsoidalCos_eq b s.x h.1 h.2]
    show (around _ s.y wo).bind _ = _
    rw [h1]
    show ((Phase.ellipsoidal b).evalCos (wo.dot wi)).bind _ = _
    rw [hv]
    rfl
  | binomial n => exact absurd hp id
  | unimplemented => exact absurd hp id

/-! ## C75: the density of the drawn directions -/

/-- The cosine of the angle between the drawn direction and the direction of travel `-wo` is at most `c`. -/
def Within (p : Phase) (eps : ℝ) (s : V2 ℝ) (wo : V3 ℝ) (c : ℝ) : Prop :=
  ∃ wi v, p.sample eps s wo = .ok (wi, v) ∧ (-wo).dot wi ≤ c

theorem volume_cdf (P : ℝ → Prop) (F : ℝ) (h1 : F ≤ 1) (h : ∀ u, 0 ≤ u → u < 1 → (P u ↔ u ≤ F)) :
    volume {u : ℝ | 0 ≤ u ∧ u < 1 ∧ P u} = ENNReal.ofReal F := by
  have hs : {u : ℝ | 0 ≤ u ∧ u < 1 ∧ P u} = Icc 0 F ∩ Iio 1 := by
    ext u
    simp only [mem_ofPred_eq, mem_inter_iff, mem_Icc, mem_Iio]
    constructor
    · rintro ⟨a, b, c⟩; exact ⟨⟨a, (h u a b).1 c⟩, b⟩
    · rintro ⟨⟨a, c⟩, b⟩; exact ⟨a, b, (h u a b).2 c⟩
  rw [hs]
  rcases h1.lt_or_eq with hlt | rfl
  · have : Icc 0 F ∩ Iio 1 = Icc 0 F := inter_eq_left.2 fun u hu => lt_of_le_of_lt hu.2 hlt
    rw [this, Real.volume_Icc, sub_zero]
  · have : Icc (0 : ℝ) 1 ∩ Iio 1 = Ico 0 1 := by
      ext u
      simp only [mem_inter_iff, mem_Icc, mem_Iio, mem_Ico]
      exact ⟨fun h => ⟨h.1.1, h.2⟩, fun h => ⟨⟨h.1, h.2.le⟩, h.2⟩⟩
    rw [this, Real.volume_Ico, sub_zero]

theorem neg_dot (a b : V3 ℝ) : (-a).dot b = -(a.dot b) := by
  simp only [V3.dot, V3.neg_x, V3.neg_y, V3.neg_z]
  ring

/-- `Within` only depends on the drawn cosine. -/
theorem within_iff {p : Phase} {eps : ℝ} {s : V2 ℝ} {wo : V3 ℝ} {x : ℝ} (c : ℝ) (hw : wo.sqrNorm = 1)
    (hr : -1 ≤ c ∧ c ≤ 1)
    (hp : ∀ wi, around c s.y wo = .ok wi → ∃ v, p.sample eps s wo = .ok (wi, v)) :
    Within p eps s wo x ↔ c ≤ x := by
  obtain ⟨wi, h1, h2, h3⟩ := around_spec c s.y hr wo hw
  obtain ⟨v, hv⟩ := hp wi h1
  have hd : (-wo).dot wi = c := by rw [neg_dot, h3, neg_neg]
  constructor
  · rintro ⟨wi', v', h, hle⟩
    rw [hv] at h
    cases h
    rwa [hd] at hle
  · intro hle
    exact ⟨wi, v, hv, by rwa [hd]⟩

theorem hg_sample_around {eps g : ℝ} {s : V2 ℝ} {wo : V3 ℝ} (hg1 : |g| < 1) {c : ℝ} (hc : hgCos eps g s.x = .ok c)
    (hr : -1 ≤ c ∧ c ≤ 1) :
    ∀ wi, around c s.y wo = .ok wi → ∃ v, (Phase.henyeyGreenstein g).sample eps s wo = .ok (wi, v) := by
  intro wi h1
  have hd := hg_denom_pos hg1 (c := -c) ⟨by linarith [hr.2], by linarith [hr.1]⟩
  have hv : hg (-c) g = .ok (1 / (4 * Real.pi) * (1 - g * g) / ((1 + g * g - 2 * g * -c) *
      Real.sqrt (1 + g * g - 2 * g * -c))) := by simp only [hg, if_neg (not_le.2 hd)]
  refine ⟨1 / (4 * Real.pi) * (1 - g * g) / ((1 + g * g - 2 * g * -c) * Real.sqrt (1 + g * g - 2 * g * -c)), ?_⟩
  show (hgCos eps g s.x).bind _ = _
  rw [hc]
  show (around c s.y wo).bind _ = _
  rw [h1]
  show (hg (-c) g).bind _ = _
  rw [hv]
  rfl

theorem hgCdf_le_one {g c : ℝ} (hg1 : |g| < 1) (h0 : g ≠ 0) (hc : -1 ≤ c ∧ c ≤ 1) : hgCdf g c ≤ 1 := by
  have hd := hg_denom_pos hg1 hc
  have hs := Real.sqrt_pos.2 hd
  obtain ⟨h1, h2⟩ := abs_lt.1 hg1
  have hlow : 1 - |g| ≤ Real.sqrt (1 + g * g - 2 * g * c) := by
    apply Real.le_sqrt_of_sq_le
    have hl : |g * c| ≤ |g| := by
      rw [abs_mul]
      exact mul_le_of_le_one_right (abs_nonneg g) (abs_le.2 hc)
    have := (le_abs_self _).trans hl
    have hq : |g| * |g| = g * g := abs_mul_abs_self g
    nlinarith
  have hhigh : Real.sqrt (1 + g * g - 2 * g * c) ≤ 1 + |g| := by
    rw [Real.sqrt_le_left (by positivity)]
    have hl : |g * c| ≤ |g| := by
      rw [abs_mul]
      exact mul_le_of_le_one_right (abs_nonneg g) (abs_le.2 hc)
    have := (neg_le_abs _).trans hl
    have hq : |g| * |g| = g * g := abs_mul_abs_self g
    nlinarith
  rw [hgCdf]
  rcases lt_or_gt_of_ne h0 with hneg | hpos
  · rw [abs_of_neg hneg] at hlow hhigh
    rw [div_le_iff_of_neg (by linarith)]
    have : 1 + g ≤ (1 - g * g) / Real.sqrt (1 + g * g - 2 * g * c) := by
      rw [le_div_iff₀ hs]
      nlinarith
    linarith
  · rw [abs_of_pos hpos] at hlow hhigh
    rw [div_le_one (by linarith)]
    have : (1 - g * g) / Real.sqrt (1 + g * g - 2 * g * c) ≤ 1 + g := by
      rw [div_le_iff₀ hs]
      nlinarith
    linarith

/-- C75, Henyey–Greenstein: the cosine between the drawn direction and the direction of travel has the density
`hg(cos, g)`: a positive `g` scatters forward. -/
theorem hg_drawn (eps g : ℝ) (hg1 : |g| < 1) (h0 : 0 < eps) (he : eps ≤ |g|) (v : ℝ) (wo : V3 ℝ)
    (hw : wo.sqrNorm = 1) (c : ℝ) (hc : -1 ≤ c ∧ c ≤ 1) :
    volume {u : ℝ | 0 ≤ u ∧ u < 1 ∧ Within (.henyeyGreenstein g) eps ⟨u, v⟩ wo c} =
      ENNReal.ofReal (∫ x in (-1 : ℝ)..c, 2 * Real.pi * valueR (hg x g)) := by
  have hg0 : g ≠ 0 := by
    rintro rfl
    rw [abs_zero] at he
    linarith
  rw [hg_integral g hg1 hg0 c hc]
  apply volume_cdf _ _ (hgCdf_le_one hg1 hg0 hc)
  intro u hu0 hu1
  obtain ⟨hd, heq⟩ := hgCos_eq eps g u hg1 he ⟨hu0, hu1.le⟩ hg0
  obtain ⟨c', hc', hr⟩ := hgCos_range eps g u hg1 h0 ⟨hu0, hu1.le⟩
  rw [within_iff c' hw hr (hg_sample_around hg1 hc' hr)]
  have : c' = (1 + g * g - ((1 - g * g) / ((2 * u - 1) * g + 1)) ^ 2) / (2 * g) := by
    rw [hc'] at heq
    exact Res.ok.inj heq
  rw [this, hgCdf]
  obtain ⟨h1, h2⟩ := abs_lt.1 hg1
  have hk : 0 < 1 - g * g := by nlinarith
  have hs := hg_denom_pos hg1 hc
  have hsp := Real.sqrt_pos.2 hs
  have hq : 0 < (1 - g * g) / ((2 * u - 1) * g + 1) := div_pos hk hd
  rcases lt_or_gt_of_ne hg0 with hneg | hpos
  · rw [div_le_iff_of_neg (by linarith), le_div_iff_of_neg (by linarith)]
    have e1 : (c * (2 * g) ≤ 1 + g * g - ((1 - g * g) / ((2 * u - 1) * g + 1)) ^ 2) ↔
        (1 - g * g) / ((2 * u - 1) * g + 1) ≤ Real.sqrt (1 + g * g - 2 * g * c) := by
      rw [Real.le_sqrt' hq]
      constructor <;> intro h <;> linarith
    rw [e1, div_le_iff₀ hd]
    constructor
    · intro h
      have : (1 - g * g) / Real.sqrt (1 + g * g - 2 * g * c) ≤ (2 * u - 1) * g + 1 := by
        rw [div_le_iff₀ hsp]; linarith
      linarith
    · intro h
      have : (1 - g * g) / Real.sqrt (1 + g * g - 2 * g * c) ≤ (2 * u - 1) * g + 1 := by linarith
      rw [div_le_iff₀ hsp] at this
      linarith
  · rw [div_le_iff₀ (by linarith), le_div_iff₀ (by linarith)]
    have e1 : (1 + g * g - ((1 - g * g) / ((2 * u - 1) * g + 1)) ^ 2 ≤ c * (2 * g)) ↔
        Real.sqrt (1 + g * g - 2 * g * c) ≤ (1 - g * g) / ((2 * u - 1) * g + 1) := by
      rw [Real.sqrt_le_left hq.le]
      constructor <;> intro h <;> linarith
    rw [e1, le_div_iff₀ hd]
    constructor
    · intro h
      have : (2 * u - 1) * g + 1 ≤ (1 - g * g) / Real.sqrt (1 + g * g - 2 * g * c) := by
        rw [le_div_iff₀ hsp]; linarith
      linarith
    · intro h
      have : (2 * u - 1) * g + 1 ≤ (1 - g * g) / Real.sqrt (1 + g * g - 2 * g * c) := by linarith
      rw [le_div_iff₀ hsp] at this
      linarith

/-- C75 fails for Henyey–Greenstein: the value returned (and evaluated) belongs to the opposite asymmetry. For every
`g` (not zero) the share of directions drawn into the back half differs from the integral of the returned value over
the back half. -/
theorem hg_density_refuted (eps g : ℝ) (hg1 : |g| < 1) (h0 : 0 < eps) (he : eps ≤ |g|) (v : ℝ) (wo : V3 ℝ)
    (hw : wo.sqrNorm = 1) :
    volume {u : ℝ | 0 ≤ u ∧ u < 1 ∧ Within (.henyeyGreenstein g) eps ⟨u, v⟩ wo 0} ≠
      ENNReal.ofReal (∫ x in (-1 : ℝ)..0, 2 * Real.pi * valueR ((Phase.henyeyGreenstein g).evalCos (-x))) := by
  have hg0 : g ≠ 0 := by
    rintro rfl
    rw [abs_zero] at he
    linarith
  have hneg : ∀ x, (Phase.henyeyGreenstein g).evalCos (-x) = hg x (-g) := by
    intro x
    simp only [Phase.evalCos, hg]
    have e1 : 1 + g * g - 2 * g * -x = 1 + -g * -g - 2 * -g * x := by ring
    have e2 : (1 : ℝ) - g * g = 1 - -g * -g := by ring
    rw [e1, e2]
  have hgn : |-g| < 1 := by rwa [abs_neg]
  rw [hg_drawn eps g hg1 h0 he v wo hw 0 (by norm_num)]
  simp only [hneg]
  rw [hg_integral g hg1 hg0 0 (by norm_num), hg_integral (-g) hgn (neg_ne_zero.2 hg0) 0 (by norm_num)]
  obtain ⟨h1, h2⟩ := abs_lt.1 hg1
  have hk : 0 < 1 - g * g := by nlinarith
  -- both values are positive, so they would have to be equal
  have hsq : Real.sqrt (1 + g * g) ^ 2 = 1 + g * g := Real.sq_sqrt (by nlinarith [mul_self_nonneg g])
  have hsp : 0 < Real.sqrt (1 + g * g) := Real.sqrt_pos.2 (by nlinarith [mul_self_nonneg g])
  have hg2 : 0 < g * g := mul_self_pos.2 hg0
  have hs1 : 1 < Real.sqrt (1 + g * g) := by nlinarith
  have hK : (1 - g * g) / Real.sqrt (1 + g * g) < 1 := by rw [div_lt_one hsp]; linarith
  have e1 : hgCdf g 0 = ((1 - g * g) / Real.sqrt (1 + g * g) - (1 - g)) / (2 * g) := by simp [hgCdf]
  have e2 : hgCdf (-g) 0 = ((1 + g) - (1 - g * g) / Real.sqrt (1 + g * g)) / (2 * g) := by
    simp only [hgCdf]
    rw [show 1 + -g * -g - 2 * -g * 0 = 1 + g * g by ring, show (1 : ℝ) - -g * -g = 1 - g * g by ring]
    field_simp
    ring
  -- `K` lies strictly between `1 - |g|` and 1
  have hcb : Real.sqrt (1 + g * g) < 1 + |g| := by
    have hq : |g| * |g| = g * g := abs_mul_abs_self g
    have := abs_pos.2 hg0
    rw [Real.sqrt_lt' (by positivity)]
    nlinarith
  have hKl : 1 - |g| < (1 - g * g) / Real.sqrt (1 + g * g) := by
    have hq : |g| * |g| = g * g := abs_mul_abs_self g
    rw [lt_div_iff₀ hsp]
    nlinarith
  set K := (1 - g * g) / Real.sqrt (1 + g * g)
  have hne : hgCdf g 0 ≠ hgCdf (-g) 0 := by
    rw [e1, e2]
    intro h
    rw [div_left_inj' (mul_ne_zero two_ne_zero hg0)] at h
    linarith
  have hp : 0 < hgCdf g 0 ∧ 0 < hgCdf (-g) 0 := by
    rw [e1, e2]
    rcases lt_or_gt_of_ne hg0 with hn | hp
    · rw [abs_of_neg hn] at hKl
      exact ⟨div_pos_of_neg_of_neg (by linarith) (by linarith), div_pos_of_neg_of_neg (by linarith) (by linarith)⟩
    · rw [abs_of_pos hp] at hKl
      exact ⟨div_pos (by linarith) (by linarith), div_pos (by linarith) (by linarith)⟩
  intro h
  exact hne ((ENNReal.ofReal_eq_ofReal_iff hp.1.le hp.2.le).1 h)

/-- C75, Rayleigh: drawn directions have the density that is returned. -/
theorem rayleigh_drawn (eps v : ℝ) (wo : V3 ℝ) (hw : wo.sqrNorm = 1) (c : ℝ) (hc : -1 ≤ c ∧ c ≤ 1) :
    volume {u : ℝ | 0 ≤ u ∧ u < 1 ∧ Within .rayleigh eps ⟨u, v⟩ wo c} =
      ENNReal.ofReal (∫ x in (-1 : ℝ)..c, 2 * Real.pi * valueR (Phase.rayleigh.evalCos x)) ∧
    ∀ x, Phase.rayleigh.evalCos (-x) = Phase.rayleigh.evalCos x := by
  refine ⟨?_, fun x => by simp [Phase.evalCos]⟩
  have hpi := Real.pi_pos.ne'
  have : ∀ c : ℝ, 2 * Real.pi * valueR (Phase.rayleigh.evalCos c) = 3 / 8 * c ^ 2 + 0 * c + 3 / 8 := by
    intro c
    simp only [Phase.evalCos, valueR]
    field_simp
    ring
  simp only [this]
  rw [poly_integral]
  apply volume_cdf
  · nlinarith [sq_nonneg c, sq_nonneg (c - 1), sq_nonneg (c + 1), hc.1, hc.2]
  · intro u hu0 hu1
    have hr := rayleighCos_range u ⟨hu0, hu1.le⟩
    rw [within_iff (rayleighCos u) hw hr (fun wi h => ⟨_, by
      show (around (rayleighCos u) v wo).bind _ = _
      rw [h]
      rfl⟩)]
    have hcub := rayleigh_cubic u
    set y := rayleighCos u
    have hf : (c ^ 3 + 3 * c) - (y ^ 3 + 3 * y) = (c - y) * (c ^ 2 + c * y + y ^ 2 + 3) := by ring
    have hpos : 0 < c ^ 2 + c * y + y ^ 2 + 3 := by nlinarith [sq_nonneg (c + y), sq_nonneg c, sq_nonneg y]
    constructor
    · intro h
      have := mul_nonneg (sub_nonneg.2 h) hpos.le
      nlinarith
    · intro h
      by_contra hn
      have := mul_neg_of_neg_of_pos (sub_neg.2 (not_le.1 hn)) hpos
      nlinarith

/-- C75, ellipsoidal: the cosine between the drawn direction and the direction of travel has the density of the phase
function at that cosine, while the value returned is the one at the opposite cosine. -/
theorem ellipsoidal_drawn (eps b : ℝ) (hb : |b| < 1) (h0 : b ≠ 0) (v : ℝ) (wo : V3 ℝ) (hw : wo.sqrNorm = 1) (c : ℝ)
    (hc : -1 ≤ c ∧ c ≤ 1) :
    volume {u : ℝ | 0 ≤ u ∧ u < 1 ∧ Within (.ellipsoidal b) eps ⟨u, v⟩ wo c} =
      ENNReal.ofReal (∫ x in (-1 : ℝ)..c, 2 * Real.pi * valueR ((Phase.ellipsoidal b).evalCos x)) := by
  rw [ell_integral b hb h0 c hc]
  obtain ⟨h1, h2⟩ := abs_lt.1 hb
  have hr := ratio_pos hb
  have hbp : (0 : ℝ) < b + 1 := by linarith
  have hbm : (0 : ℝ) < 1 - b := by linarith
  have hd := one_sub_pos hb hc
  have key : ∀ u, ((1 - (b + 1) * ((b + 1) / (1 - b)) ^ (-u)) / b ≤ c ↔ u ≤ ellCdf b c) := by
    intro u
    have hpow : ((b + 1) / (1 - b)) ^ (-u) = Real.exp (-(Real.log ((b + 1) / (1 - b)) * u)) := by
      rw [Real.rpow_def_of_pos hr]
      congr 1
      ring
    have hexp : 0 < Real.exp (-(Real.log ((b + 1) / (1 - b)) * u)) := Real.exp_pos _
    rw [hpow, ellCdf]
    have hlog : Real.log ((b + 1) / (1 - b * c)) = -Real.log ((1 - b * c) / (b + 1)) := by
      rw [← Real.log_inv, inv_div]
    rcases lt_or_gt_of_ne h0 with hneg | hpos
    · have hL : Real.log ((b + 1) / (1 - b)) < 0 := by
        apply Real.log_neg hr
        rw [div_lt_one hbm]
        linarith
      rw [div_le_iff_of_neg hneg, le_div_iff_of_neg hL, hlog]
      have : (c * b ≤ 1 - (b + 1) * Real.exp (-(Real.log ((b + 1) / (1 - b)) * u))) ↔
          Real.exp (-(Real.log ((b + 1) / (1 - b)) * u)) ≤ (1 - b * c) / (b + 1) := by
        rw [le_div_iff₀ hbp]
        constructor <;> intro h <;> linarith
      rw [this, ← Real.le_log_iff_exp_le (div_pos hd hbp)]
      constructor <;> intro h <;> linarith
    · have hL : 0 < Real.log ((b + 1) / (1 - b)) := by
        apply Real.log_pos
        rw [lt_div_iff₀ hbm]
        linarith
      rw [div_le_iff₀ hpos, le_div_iff₀ hL, hlog]
      have : (1 - (b + 1) * Real.exp (-(Real.log ((b + 1) / (1 - b)) * u)) ≤ c * b) ↔
          (1 - b * c) / (b + 1) ≤ Real.exp (-(Real.log ((b + 1) / (1 - b)) * u)) := by
        rw [div_le_iff₀ hbp]
        constructor <;> intro h <;> linarith
      rw [this, ← Real.log_le_iff_le_exp (div_pos hd hbp)]
      constructor <;> intro h <;> linarith
  apply volume_cdf
  · -- the cosine drawn for `u = 1` is 1
    have h1' := (key 1).not.2
    by_contra hn
    have hlt := not_le.1 hn
    -- `ellCdf` is monotone: compare with the cosine of `u = ellCdf b c`
    have hcos : (1 - (b + 1) * ((b + 1) / (1 - b)) ^ (-(1 : ℝ))) / b = 1 := by
      rw [Real.rpow_neg_one]
      field_simp
      ring
    have hc1 : c = 1 := le_antisymm hc.2 (by rw [← hcos]; exact (key 1).2 hlt.le)
    rw [hc1, ellCdf_one b hb h0] at hlt
    exact lt_irrefl _ hlt
  · intro u hu0 hu1
    have hrange := ellipsoidalCos_range b u hb h0 ⟨hu0, hu1.le⟩
    rw [within_iff _ hw hrange ?_]
    · exact key u
    · intro wi hwi
      obtain ⟨wi', h1', h2', h3'⟩ := around_spec _ v hrange wo hw
      have heq : wi' = wi := by
        rw [hwi] at h1'
        exact (Res.ok.inj h1').symm
      subst heq
      have hv := ellipsoidal_value hb h0 (c := wo.dot wi')
        (by rw [h3']; exact ⟨by linarith [hrange.2], by linarith [hrange.1]⟩)
      refine ⟨b * (1 / (2 * Real.pi)) / ((1 - b * wo.dot wi') * Real.log ((b + 1) / (1 - b))), ?_⟩
      show (ellipsoidalCos b u).bind _ = _
      rw [ellipsoidalCos_eq b u hb h0]
      show (around _ v wo).bind _ = _
      rw [hwi]
      show ((Phase.ellipsoidal b).evalCos (wo.dot wi')).bind _ = _
      rw [hv]
      rfl

theorem ellipsoidal_density_refuted :
    ∃ x, (Phase.ellipsoidal (1 / 2)).evalCos x ≠ (Phase.ellipsoidal (1 / 2)).evalCos (-x) := by
  refine ⟨1, ?_⟩
  have hb : |(1 / 2 : ℝ)| < 1 := by norm_num [abs_of_pos]
  have hl := log_ratio_ne hb (by norm_num)
  rw [ellipsoidal_value hb (by norm_num) (by norm_num), ellipsoidal_value hb (by norm_num) (by norm_num)]
  intro h
  have h := Res.ok.inj h
  have hpi := Real.pi_pos.ne'
  field_simp at h
  norm_num at h

/-- C75, Eddington: directions are drawn with density `(1 + b cos) / 4π`, which depends on the parameter; the value
returned does not. -/
theorem eddington_drawn (eps b : ℝ) (h0 : 0 < eps) (he : eps ≤ |b|) (hb : |b| ≤ 1) (v : ℝ) (wo : V3 ℝ)
    (hw : wo.sqrNorm = 1) (c : ℝ) (hc : -1 ≤ c ∧ c ≤ 1) :
    volume {u : ℝ | 0 ≤ u ∧ u < 1 ∧ Within (.eddington b) eps ⟨u, v⟩ wo c} =
      ENNReal.ofReal (∫ x in (-1 : ℝ)..c, 2 * Real.pi * ((1 + b * x) / (4 * Real.pi))) := by
  have hb0 : b ≠ 0 := by
    rintro rfl
    rw [abs_zero] at he
    linarith
  have hpi := Real.pi_pos.ne'
  have : ∀ x : ℝ, 2 * Real.pi * ((1 + b * x) / (4 * Real.pi)) = 0 * x ^ 2 + b / 2 * x + 1 / 2 := by
    intro x
    field_simp
    ring
  simp only [this]
  rw [poly_integral]
  obtain ⟨hb1, hb2⟩ := abs_le.1 hb
  apply volume_cdf
  · nlinarith [hc.1, hc.2, mul_nonneg (sub_nonneg.2 hc.2) (by nlinarith : (0 : ℝ) ≤ 2 + b * (1 + c))]
  · intro u hu0 hu1
    obtain ⟨c', hc', hr⟩ := eddingtonCos_range eps b u h0 ⟨hu0, hu1.le⟩
    rw [within_iff c' hw hr (fun wi h => ⟨_, by
      show (eddingtonCos eps b u).bind _ = _
      rw [hc']
      show (around c' v wo).bind _ = _
      rw [h]
      rfl⟩)]
    have hnn : 0 ≤ b * b + 4 * b * u - 2 * b + 1 := by
      by_contra hn
      rw [eddingtonCos, if_neg (not_lt.2 he), if_pos (not_le.1 hn)] at hc'
      cases hc'
    have hval : (Real.sqrt (b * b + 4 * b * u - 2 * b + 1) - 1) / b = c' := by
      rw [eddingtonCos, if_neg (not_lt.2 he), if_neg (not_lt.2 hnn), if_neg hb0] at hc'
      exact Res.ok.inj hc'
    have hsq := Real.sq_sqrt hnn
    have hs0 := Real.sqrt_nonneg (b * b + 4 * b * u - 2 * b + 1)
    have hroot : Real.sqrt (b * b + 4 * b * u - 2 * b + 1) = 1 + b * c' := by
      rw [← hval]
      field_simp
      ring
    rw [hroot] at hsq hs0
    -- `u` as a quadratic in the drawn cosine
    have hu : u = (b * (c' ^ 2 - 1) / 4 + (c' + 1) / 2) := by
      have : 4 * b * u = b * (b * (c' ^ 2 - 1) + 2 * (c' + 1)) := by linear_combination -hsq
      have : 4 * u = b * (c' ^ 2 - 1) + 2 * (c' + 1) := by
        apply mul_left_cancel₀ hb0
        linarith
      linarith
    have hbc : 0 ≤ 1 + b * c := by
      have : |b * c| ≤ 1 := by
        rw [abs_mul]
        exact mul_le_one₀ hb (abs_nonneg c) (abs_le.2 hc)
      linarith [(abs_le.1 this).1]
    rw [hu]
    have hdiff : (0 * (c ^ 3 + 1) / 3 + b / 2 * (c ^ 2 - 1) / 2 + 1 / 2 * (c + 1)) -
        (b * (c' ^ 2 - 1) / 4 + (c' + 1) / 2) = (c - c') * ((1 + b * c) + (1 + b * c')) / 4 := by ring
    constructor
    · intro h
      have := mul_nonneg (sub_nonneg.2 h) (add_nonneg hbc hs0)
      linarith
    · intro h
      by_contra hn
      have hcc := not_le.1 hn
      have hsum : 0 < (1 + b * c) + (1 + b * c') := by
        rcases (add_nonneg hbc hs0).lt_or_eq with h' | h'
        · exact h'
        · have e1 : 1 + b * c = 0 := by linarith
          have e2 : 1 + b * c' = 0 := by linarith
          have : b * (c' - c) = 0 := by linarith
          rcases mul_eq_zero.1 this with h | h
          · exact absurd h hb0
          · linarith
      have := mul_neg_of_neg_of_pos (sub_neg.2 hcc) hsum
      linarith

theorem eddington_density_refuted (b : ℝ) (hb : |b| ≤ 1) :
    ∃ x, -1 ≤ x ∧ x ≤ 1 ∧ valueR ((Phase.eddington b).evalCos (-x)) ≠ (1 + b * x) / (4 * Real.pi) := by
  have hpi := Real.pi_pos.ne'
  refine ⟨1, by norm_num, by norm_num, fun h => ?_⟩
  simp only [Phase.evalCos, valueR] at h
  field_simp at h
  linarith [(abs_le.1 hb).1]

end Feign.Media
