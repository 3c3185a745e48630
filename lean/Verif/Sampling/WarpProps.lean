import Verif.Sampling.Warp
import Verif.Math.VecRealLemmas
import Mathlib.MeasureTheory.Measure.Lebesgue.Basic
import Mathlib.MeasureTheory.Integral.IntervalIntegral.FundThmCalculus
import Mathlib.Analysis.SpecialFunctions.Integrals.Basic

/-!
# C48: warps land in their domain; C60: warp densities match their sampling

The unit square is `0 ≤ x < 1`, `0 ≤ y < 1`.
-/

namespace Feign.Warp

open MeasureTheory

/-- A point of the unit square, where random numbers live (specification). -/
def InSquare (s : V2 ℝ) : Prop := 0 ≤ s.x ∧ s.x < 1 ∧ 0 ≤ s.y ∧ s.y < 1

private theorem trig (a : ℝ) : Real.cos a * Real.cos a + Real.sin a * Real.sin a = 1 := by
  have := Real.cos_sq_add_sin_sq a; nlinarith

theorem uniDisk_sqr (s : V2 ℝ) (h : 0 ≤ s.y) :
    (uniDisk s).x * (uniDisk s).x + (uniDisk s).y * (uniDisk s).y = s.y := by
  have h1 := trig (2 * Real.pi * s.x)
  have h2 := Real.mul_self_sqrt h
  simp only [uniDisk]
  generalize Real.cos (2 * Real.pi * s.x) = c at *
  generalize Real.sin (2 * Real.pi * s.x) = d at *
  linear_combination (Real.sqrt s.y * Real.sqrt s.y) * h1 + h2

/-- **C48, disk.** -/
theorem uniDisk_domain (s : V2 ℝ) (h : InSquare s) :
    (uniDisk s).x ^ 2 + (uniDisk s).y ^ 2 ≤ 1 ∧
    ∀ p : V2 ℝ, 0 < uniDiskPdf p ↔ p.x ^ 2 + p.y ^ 2 ≤ 1 := by
  refine ⟨?_, fun p => ?_⟩
  · have := uniDisk_sqr s h.2.2.1
    nlinarith [h.2.2.2]
  · have e : p.x ^ 2 + p.y ^ 2 = p.x * p.x + p.y * p.y := by ring
    rw [e]
    unfold uniDiskPdf
    split_ifs with hp
    · simp only [hp, iff_true]; exact div_pos one_pos Real.pi_pos
    · simp [hp]

private theorem polar_unit (r z a : ℝ) (h : r * r = 1 - z * z) :
    (⟨r * Real.cos a, r * Real.sin a, z⟩ : V3 ℝ).sqrNorm = 1 := by
  simp only [V3.sqrNorm]
  linear_combination (r * r) * trig a + h

/-- **C48, sphere.** -/
theorem uniSph_domain (s : V2 ℝ) (h : InSquare s) :
    (uniSph s).sqrNorm = 1 ∧ ∀ v, 0 < uniSphPdf v := by
  constructor
  · apply polar_unit
    rw [Real.mul_self_sqrt (le_max_left _ _), max_eq_right]
    nlinarith [h.2.2.1, h.2.2.2]
  · intro v; exact div_pos one_pos (by nlinarith [Real.pi_pos])

/-- **C48, cap** of directions within `cosMax` of the pole. -/
theorem uniSphCap_domain (s : V2 ℝ) (h : InSquare s) (c : ℝ) (hc : -1 ≤ c) (hc1 : c < 1) :
    (∃ v, uniSphCap s c = some v ∧ v.sqrNorm = 1 ∧ c ≤ v.z) ∧
    ∀ v : V3 ℝ, ∃ d, uniSphCapPdf v c = some d ∧ (0 < d ↔ c ≤ v.z) := by
  obtain ⟨-, -, h0, h1⟩ := h
  have hz1 : c ≤ s.y + (1 - s.y) * c := by nlinarith
  have hz2 : s.y + (1 - s.y) * c < 1 := by nlinarith
  have hz : 0 ≤ 1 - (s.y + (1 - s.y) * c) * (s.y + (1 - s.y) * c) := by nlinarith
  refine ⟨⟨_, by unfold uniSphCap; dsimp only; rw [if_neg (not_lt.mpr hz)], ?_, hz1⟩, fun v => ?_⟩
  · apply polar_unit
    rw [Real.mul_self_sqrt hz]
  · unfold uniSphCapPdf
    split_ifs with hv hd
    · exact ⟨0, rfl, by simp [hv]⟩
    · exact absurd hd (by linarith)
    · refine ⟨_, rfl, ?_⟩
      simp only [not_lt.mp hv, iff_true]
      exact div_pos (div_pos one_pos (by nlinarith [Real.pi_pos])) (by linarith)

private theorem polar_unit' (r z a : ℝ) (h : r * r = 1 - z * z) :
    (⟨Real.cos a * r, Real.sin a * r, z⟩ : V3 ℝ).sqrNorm = 1 := by
  rw [mul_comm, mul_comm (Real.sin a)]; exact polar_unit r z a h

/-- **C48, hemisphere.** -/
theorem uniHemi_domain (s : V2 ℝ) (h : InSquare s) :
    (uniHemi s).sqrNorm = 1 ∧ 0 < (uniHemi s).z ∧ ∀ v : V3 ℝ, 0 < uniHemiPdf v ↔ 0 < v.z := by
  obtain ⟨-, -, h0, h1⟩ := h
  refine ⟨?_, by simp only [uniHemi]; linarith, fun v => ?_⟩
  · apply polar_unit'
    rw [Real.mul_self_sqrt (le_max_left _ _), max_eq_right]
    nlinarith
  · unfold uniHemiPdf
    split_ifs with hv
    · simp only [gt_iff_lt.mp hv, iff_true]; exact div_pos one_pos (by nlinarith [Real.pi_pos])
    · simpa using hv

/-- **C48, cosine-weighted hemisphere.** -/
theorem cosHemi_domain (s : V2 ℝ) (h : InSquare s) :
    (cosHemi s).sqrNorm = 1 ∧ 0 < (cosHemi s).z ∧ ∀ v : V3 ℝ, 0 < cosHemiPdf v ↔ 0 < v.z := by
  have hd := uniDisk_sqr s h.2.2.1
  have hr : 1 - (uniDisk s).x * (uniDisk s).x - (uniDisk s).y * (uniDisk s).y = 1 - s.y := by
    linear_combination -hd
  obtain ⟨-, -, h0, h1⟩ := h
  have hm : max 0 (1 - s.y) = 1 - s.y := max_eq_right (by linarith)
  refine ⟨?_, ?_, fun v => ?_⟩
  · simp only [cosHemi, V3.sqrNorm, hr, hm]
    rw [Real.mul_self_sqrt (by linarith)]
    linear_combination hd
  · simp only [cosHemi, hr, hm]
    exact Real.sqrt_pos.mpr (by linarith)
  · unfold cosHemiPdf
    split_ifs with hv
    · simp only [gt_iff_lt.mp hv, iff_true]
      exact mul_pos (div_pos one_pos Real.pi_pos) hv
    · simpa using hv

/-- **C48, power-cosine hemisphere (partial).** The sample is a unit vector of the closed hemisphere;
its density is positive when the second random number is not zero. Missing: the random number 0, see
`cosPow_zero_density_refuted`. -/
theorem cosPowHemi_domain_partial (s : V2 ℝ) (h : InSquare s) (n : ℝ) (hn : -1 < n) :
    (cosPowHemi s n).sqrNorm = 1 ∧ 0 ≤ (cosPowHemi s n).z ∧
    (0 < s.y → 0 < cosPowHemiPdf (cosPowHemi s n) n) ∧
    ∀ v : V3 ℝ, 0 < cosPowHemiPdf v n ↔ 0 < v.z := by
  obtain ⟨-, -, h0, h1⟩ := h
  have he : 0 ≤ 1 / (n + 1) := div_nonneg zero_le_one (by linarith)
  have hc0 : 0 ≤ s.y ^ (1 / (n + 1)) := Real.rpow_nonneg h0 _
  have hc1 : s.y ^ (1 / (n + 1)) ≤ 1 := Real.rpow_le_one h0 h1.le he
  have hp : ∀ v : V3 ℝ, 0 < cosPowHemiPdf v n ↔ 0 < v.z := by
    intro v
    unfold cosPowHemiPdf
    split_ifs with hv
    · simp only [gt_iff_lt.mp hv, iff_true]
      have : 0 < v.z ^ n := Real.rpow_pos_of_pos hv n
      have h2 : 0 < 1 / Real.pi := div_pos one_pos Real.pi_pos
      have h3 : 0 < 1 / 2 * (n + 1) := by linarith
      exact mul_pos (mul_pos h3 this) h2
    · simpa using hv
  refine ⟨?_, hc0, fun hs => (hp _).mpr ?_, hp⟩
  · apply polar_unit'
    rw [Real.mul_self_sqrt (le_max_left _ _), max_eq_right]
    nlinarith
  · exact Real.rpow_pos_of_pos hs _

/-- The random number 0 gives a sample of zero density (for instance exponent 1). -/
theorem cosPow_zero_density_refuted :
    InSquare ⟨0, 0⟩ ∧ cosPowHemiPdf (cosPowHemi ⟨0, 0⟩ 1) 1 = 0 := by
  refine ⟨by norm_num [InSquare], ?_⟩
  have : (cosPowHemi ⟨0, 0⟩ 1).z = 0 := by
    simp only [cosPowHemi]; rw [Real.zero_rpow (by norm_num)]
  simp [cosPowHemiPdf, this]

/-- The triangle of barycentric coordinates (specification). -/
def InTri (p : V2 ℝ) : Prop := 0 ≤ p.x ∧ 0 ≤ p.y ∧ p.x + p.y ≤ 1

/-- **C48, triangle (partial).** Samples lie in the triangle, and its points have positive density.
Missing: the density is also positive at some points outside, see `uniTriPdf_outside_refuted`. -/
theorem uniTri_domain_partial (s : V2 ℝ) (h : InSquare s) :
    InTri (uniTri s) ∧ ∀ p, InTri p → 0 < uniTriPdf p := by
  obtain ⟨h0, h1, h2, h3⟩ := h
  have hr0 := Real.sqrt_nonneg s.x
  have hr1 : Real.sqrt s.x ≤ 1 := Real.sqrt_le_one.mpr h1.le
  refine ⟨⟨?_, ?_, ?_⟩, fun p hp => ?_⟩
  · simp only [uniTri]; linarith
  · simp only [uniTri]; exact mul_nonneg h2 hr0
  · simp only [uniTri]; nlinarith
  · obtain ⟨p0, p1, p2⟩ := hp
    unfold uniTriPdf
    rw [if_neg (not_lt.mpr p2), if_neg (by linarith)]
    norm_num

theorem uniTriPdf_outside_refuted : ¬ InTri ⟨2, -3 / 2⟩ ∧ 0 < uniTriPdf ⟨2, -3 / 2⟩ := by
  refine ⟨by norm_num [InTri], ?_⟩
  norm_num [uniTriPdf]

/-! ## Densities

Each warp of directions turns the first random number into the angle `2π x` around the pole and the second
one into the height; the theorems say that the share of random numbers giving a height at most `h` is the
integral of the density over that zone (width `2π` per unit of height, Archimedes). -/

/-- Uniform sphere. -/
theorem uniSph_density (h : ℝ) (_h0 : -1 ≤ h) (h1 : h ≤ 1) (x : ℝ) :
    volume {y : ℝ | 0 ≤ y ∧ y < 1 ∧ (uniSph ⟨x, y⟩).z ≤ h} =
      ENNReal.ofReal (∫ z in (-1)..h, 2 * Real.pi * uniSphPdf ⟨0, 0, z⟩) := by
  have hs : {y : ℝ | 0 ≤ y ∧ y < 1 ∧ (uniSph ⟨x, y⟩).z ≤ h} = Set.Ico ((1 - h) / 2) 1 := by
    ext y
    simp only [uniSph, Set.mem_ofPred_eq, Set.mem_Ico]
    constructor
    · rintro ⟨a, b, c⟩; exact ⟨by linarith, b⟩
    · rintro ⟨a, b⟩; exact ⟨by linarith, b, by linarith⟩
  rw [hs, Real.volume_Ico]
  congr 1
  simp only [uniSphPdf, intervalIntegral.integral_const, smul_eq_mul]
  have := Real.pi_pos
  field_simp
  ring

/-- Uniform cap: the share of random numbers giving a height below `h`. -/
theorem uniSphCap_density (c : ℝ) (hc0 : -1 ≤ c) (hc1 : c < 1) (p : V3 ℝ → ℝ)
    (hpdf : ∀ v, uniSphCapPdf v c = some (p v)) (h : ℝ) (h0 : c ≤ h) (h1 : h ≤ 1) (x : ℝ) :
    volume {y : ℝ | 0 ≤ y ∧ y < 1 ∧ ∃ v, uniSphCap ⟨x, y⟩ c = some v ∧ v.z < h} =
      ENNReal.ofReal (∫ z in c..h, 2 * Real.pi * p ⟨0, 0, z⟩) := by
  have hd : 0 < 1 - c := by linarith
  have hs : {y : ℝ | 0 ≤ y ∧ y < 1 ∧ ∃ v, uniSphCap ⟨x, y⟩ c = some v ∧ v.z < h} =
      Set.Ico 0 ((h - c) / (1 - c)) := by
    ext y
    simp only [Set.mem_ofPred_eq, Set.mem_Ico]
    rw [lt_div_iff₀ hd]
    constructor
    · rintro ⟨a, b, v, hv, hz⟩
      refine ⟨a, ?_⟩
      unfold uniSphCap at hv
      dsimp only at hv
      split_ifs at hv with hneg
      obtain rfl := Option.some.inj hv
      dsimp only at hz
      linarith
    · rintro ⟨a, b⟩
      have hy1 : y < 1 := by nlinarith
      have hz1 : c ≤ y + (1 - y) * c := by nlinarith
      have hz2 : y + (1 - y) * c < 1 := by nlinarith
      refine ⟨a, hy1, _, by
        unfold uniSphCap; dsimp only; rw [if_neg (not_lt.mpr (by nlinarith))], ?_⟩
      dsimp only
      linarith
  rw [hs, Real.volume_Ico]
  congr 1
  have e : ∫ z in c..h, 2 * Real.pi * p ⟨0, 0, z⟩ = ∫ z in c..h, 1 / (1 - c) := by
    rw [intervalIntegral.integral_of_le h0, intervalIntegral.integral_of_le h0]
    apply setIntegral_congr_fun measurableSet_Ioc
    intro z hz
    have := Real.pi_pos
    have hp := hpdf ⟨0, 0, z⟩
    simp only [uniSphCapPdf] at hp
    rw [if_neg (not_lt.mpr hz.1.le), if_neg hd.ne'] at hp
    dsimp only
    rw [← Option.some.inj hp]
    field_simp
  rw [e]
  simp only [intervalIntegral.integral_const, smul_eq_mul]
  field_simp
  ring

/-- Uniform hemisphere. -/
theorem uniHemi_density (h : ℝ) (h0 : 0 ≤ h) (h1 : h ≤ 1) (x : ℝ) :
    volume {y : ℝ | 0 ≤ y ∧ y < 1 ∧ (uniHemi ⟨x, y⟩).z ≤ h} =
      ENNReal.ofReal (∫ z in (0 : ℝ)..h, 2 * Real.pi * uniHemiPdf ⟨0, 0, z⟩) := by
  have hs : {y : ℝ | 0 ≤ y ∧ y < 1 ∧ (uniHemi ⟨x, y⟩).z ≤ h} = Set.Ico (1 - h) 1 := by
    ext y
    simp only [uniHemi, Set.mem_ofPred_eq, Set.mem_Ico]
    constructor
    · rintro ⟨a, b, c⟩; exact ⟨by linarith, b⟩
    · rintro ⟨a, b⟩; exact ⟨by linarith, b, by linarith⟩
  rw [hs, Real.volume_Ico]
  congr 1
  have e : ∫ z in (0 : ℝ)..h, 2 * Real.pi * uniHemiPdf ⟨0, 0, z⟩ = ∫ z in (0 : ℝ)..h, (1 : ℝ) := by
    rw [intervalIntegral.integral_of_le h0, intervalIntegral.integral_of_le h0]
    apply setIntegral_congr_fun measurableSet_Ioc
    intro z hz
    have := Real.pi_pos
    simp only [uniHemiPdf, gt_iff_lt, hz.1, if_true]
    field_simp
  rw [e]
  simp

/-- Cosine-weighted hemisphere. -/
theorem cosHemi_density (h : ℝ) (h0 : 0 ≤ h) (h1 : h ≤ 1) (x : ℝ) :
    volume {y : ℝ | 0 ≤ y ∧ y < 1 ∧ (cosHemi ⟨x, y⟩).z ≤ h} =
      ENNReal.ofReal (∫ z in (0 : ℝ)..h, 2 * Real.pi * cosHemiPdf ⟨0, 0, z⟩) := by
  have hs : {y : ℝ | 0 ≤ y ∧ y < 1 ∧ (cosHemi ⟨x, y⟩).z ≤ h} = Set.Ico (1 - h ^ 2) 1 := by
    ext y
    have key : 0 ≤ y → y < 1 → ((cosHemi ⟨x, y⟩).z ≤ h ↔ 1 - h ^ 2 ≤ y) := by
      intro hy0 hy1
      have hd := uniDisk_sqr ⟨x, y⟩ hy0
      have hr : 1 - (uniDisk ⟨x, y⟩).x * (uniDisk ⟨x, y⟩).x -
          (uniDisk ⟨x, y⟩).y * (uniDisk ⟨x, y⟩).y = 1 - y := by linear_combination -hd
      simp only [cosHemi, hr]
      rw [max_eq_right (by linarith), Real.sqrt_le_left h0]
      constructor <;> intro h <;> linarith
    simp only [Set.mem_ofPred_eq, Set.mem_Ico]
    constructor
    · rintro ⟨a, b, c⟩; exact ⟨(key a b).mp c, b⟩
    · rintro ⟨a, b⟩
      have : 0 ≤ y := by nlinarith
      exact ⟨this, b, (key this b).mpr a⟩
  rw [hs, Real.volume_Ico]
  congr 1
  have e : ∫ z in (0 : ℝ)..h, 2 * Real.pi * cosHemiPdf ⟨0, 0, z⟩ = ∫ z in (0 : ℝ)..h, 2 * z := by
    rw [intervalIntegral.integral_of_le h0, intervalIntegral.integral_of_le h0]
    apply setIntegral_congr_fun measurableSet_Ioc
    intro z hz
    have := Real.pi_pos
    simp only [cosHemiPdf, gt_iff_lt, hz.1, if_true]
    field_simp
  rw [e, intervalIntegral.integral_const_mul, integral_id]
  ring

/-- Power-cosine hemisphere. -/
theorem cosPowHemi_density (n : ℝ) (hn : 0 ≤ n) (h : ℝ) (h0 : 0 ≤ h) (h1 : h ≤ 1) (x : ℝ) :
    volume {y : ℝ | 0 ≤ y ∧ y < 1 ∧ (cosPowHemi ⟨x, y⟩ n).z ≤ h} =
      ENNReal.ofReal (∫ z in (0 : ℝ)..h, 2 * Real.pi * cosPowHemiPdf ⟨0, 0, z⟩ n) := by
  have hn1 : 0 < n + 1 := by linarith
  have hpow1 : h ^ (n + 1) ≤ 1 := Real.rpow_le_one h0 h1 hn1.le
  have key : ∀ y : ℝ, 0 ≤ y → ((cosPowHemi ⟨x, y⟩ n).z ≤ h ↔ y ≤ h ^ (n + 1)) := by
    intro y hy
    simp only [cosPowHemi]
    constructor
    · intro hle
      have := Real.rpow_le_rpow (Real.rpow_nonneg hy _) hle hn1.le
      rwa [← Real.rpow_mul hy, one_div_mul_cancel hn1.ne', Real.rpow_one] at this
    · intro hle
      have := Real.rpow_le_rpow hy hle (div_nonneg zero_le_one hn1.le : 0 ≤ 1 / (n + 1))
      rwa [← Real.rpow_mul h0, mul_one_div_cancel hn1.ne', Real.rpow_one] at this
  have e : ∫ z in (0 : ℝ)..h, 2 * Real.pi * cosPowHemiPdf ⟨0, 0, z⟩ n = h ^ (n + 1) := by
    have e1 : ∫ z in (0 : ℝ)..h, 2 * Real.pi * cosPowHemiPdf ⟨0, 0, z⟩ n =
        ∫ z in (0 : ℝ)..h, (n + 1) * z ^ n := by
      rw [intervalIntegral.integral_of_le h0, intervalIntegral.integral_of_le h0]
      apply setIntegral_congr_fun measurableSet_Ioc
      intro z hz
      have := Real.pi_pos
      simp only [cosPowHemiPdf, gt_iff_lt, hz.1, if_true]
      field_simp
    rw [e1, intervalIntegral.integral_const_mul, integral_rpow (Or.inl (by linarith)),
      Real.zero_rpow hn1.ne']
    field_simp
    ring
  rw [e]
  have hsub : {y : ℝ | 0 ≤ y ∧ y < 1 ∧ (cosPowHemi ⟨x, y⟩ n).z ≤ h} =ᵐ[volume]
      Set.Icc 0 (h ^ (n + 1)) := by
    have heq : {y : ℝ | 0 ≤ y ∧ y < 1 ∧ (cosPowHemi ⟨x, y⟩ n).z ≤ h} =
        Set.Icc 0 (h ^ (n + 1)) \ {1} := by
      ext y
      simp only [Set.mem_ofPred_eq, Set.mem_sdiff, Set.mem_Icc, Set.mem_singleton_iff]
      constructor
      · rintro ⟨a, b, c⟩; exact ⟨⟨a, (key y a).mp c⟩, b.ne⟩
      · rintro ⟨⟨a, b⟩, c⟩
        exact ⟨a, lt_of_le_of_ne (b.trans hpow1) c, (key y a).mpr b⟩
    rw [heq]
    exact sdiff_null_ae_eq_self (by simp)
  rw [measure_congr hsub, Real.volume_Icc]
  simp

/-- Uniform disk: share of radii at most `ρ` against the integral of the density over that disk in polar
coordinates. -/
theorem uniDisk_density (ρ : ℝ) (h0 : 0 ≤ ρ) (h1 : ρ ≤ 1) (x : ℝ) :
    volume {y : ℝ | 0 ≤ y ∧ y < 1 ∧
        (uniDisk ⟨x, y⟩).x ^ 2 + (uniDisk ⟨x, y⟩).y ^ 2 < ρ ^ 2} =
      ENNReal.ofReal (∫ r in (0 : ℝ)..ρ, 2 * Real.pi * r * uniDiskPdf ⟨r, 0⟩) := by
  have hs : {y : ℝ | 0 ≤ y ∧ y < 1 ∧
        (uniDisk ⟨x, y⟩).x ^ 2 + (uniDisk ⟨x, y⟩).y ^ 2 < ρ ^ 2} = Set.Ico 0 (ρ ^ 2) := by
    ext y
    simp only [Set.mem_ofPred_eq, Set.mem_Ico]
    have key : 0 ≤ y → (uniDisk ⟨x, y⟩).x ^ 2 + (uniDisk ⟨x, y⟩).y ^ 2 = y := fun hy => by
      have := uniDisk_sqr ⟨x, y⟩ hy
      simp only at this
      linear_combination this
    constructor
    · rintro ⟨a, b, c⟩; rw [key a] at c; exact ⟨a, c⟩
    · rintro ⟨a, b⟩; rw [key a]; exact ⟨a, by nlinarith, b⟩
  rw [hs, Real.volume_Ico]
  congr 1
  have e : ∫ r in (0 : ℝ)..ρ, 2 * Real.pi * r * uniDiskPdf ⟨r, 0⟩ = ∫ r in (0 : ℝ)..ρ, 2 * r := by
    rw [intervalIntegral.integral_of_le h0, intervalIntegral.integral_of_le h0]
    apply setIntegral_congr_fun measurableSet_Ioc
    intro r hr
    have := Real.pi_pos
    have hr1 : r * r + 0 * 0 ≤ 1 := by nlinarith [hr.1, hr.2]
    simp only [uniDiskPdf, if_pos hr1]
    field_simp
  rw [e, intervalIntegral.integral_const_mul, integral_id]
  ring

/-- Uniform triangle: share of first coordinates at most `a`; and given the first coordinate the second
one is uniform over what is left. -/
theorem uniTri_density (a : ℝ) (h0 : 0 ≤ a) (h1 : a ≤ 1) (y : ℝ) :
    volume {x : ℝ | 0 ≤ x ∧ x < 1 ∧ (uniTri ⟨x, y⟩).x ≤ a} =
      ENNReal.ofReal (∫ u in (0 : ℝ)..a, ∫ v in (0 : ℝ)..(1 - u), uniTriPdf ⟨u, v⟩) ∧
    ∀ x, (uniTri ⟨x, y⟩).y = y * (1 - (uniTri ⟨x, y⟩).x) := by
  refine ⟨?_, fun x => by simp only [uniTri]; ring⟩
  have hs : {x : ℝ | 0 ≤ x ∧ x < 1 ∧ (uniTri ⟨x, y⟩).x ≤ a} = Set.Ico ((1 - a) ^ 2) 1 := by
    ext x
    simp only [Set.mem_ofPred_eq, Set.mem_Ico, uniTri]
    constructor
    · rintro ⟨p, q, r⟩
      refine ⟨?_, q⟩
      have h2 := Real.mul_self_sqrt p
      nlinarith [Real.sqrt_nonneg x]
    · rintro ⟨p, q⟩
      have hx : 0 ≤ x := le_trans (sq_nonneg _) p
      refine ⟨hx, q, ?_⟩
      have := Real.le_sqrt_of_sq_le p
      linarith
  rw [hs, Real.volume_Ico]
  congr 1
  have e : ∫ u in (0 : ℝ)..a, ∫ v in (0 : ℝ)..(1 - u), uniTriPdf ⟨u, v⟩ =
      ∫ u in (0 : ℝ)..a, (2 - 2 * u) := by
    rw [intervalIntegral.integral_of_le h0, intervalIntegral.integral_of_le h0]
    apply setIntegral_congr_fun measurableSet_Ioc
    intro u hu
    dsimp only
    have hu1 : (0 : ℝ) ≤ 1 - u := by linarith [hu.2]
    have e2 : ∫ v in (0 : ℝ)..(1 - u), uniTriPdf ⟨u, v⟩ = ∫ v in (0 : ℝ)..(1 - u), (2 : ℝ) := by
      rw [intervalIntegral.integral_of_le hu1, intervalIntegral.integral_of_le hu1]
      apply setIntegral_congr_fun measurableSet_Ioc
      intro v hv
      simp only [uniTriPdf]
      rw [if_neg (not_lt.mpr (by linarith [hv.2])), if_neg (not_lt.mpr (by linarith [hv.1, hu.1]))]
    rw [e2]
    simp only [intervalIntegral.integral_const, smul_eq_mul]
    ring
  rw [e, intervalIntegral.integral_sub (by simp) (by
    exact (continuous_const.mul continuous_id).intervalIntegrable _ _),
    intervalIntegral.integral_const_mul, integral_id]
  simp only [intervalIntegral.integral_const, smul_eq_mul]
  ring

/-- Non-vacuity: a quarter of the samples of the cosine-weighted hemisphere lie below height 1/2. -/
example : volume {y : ℝ | 0 ≤ y ∧ y < 1 ∧ (cosHemi ⟨1 / 3, y⟩).z ≤ 1 / 2} =
    ENNReal.ofReal (∫ z in (0 : ℝ)..(1 / 2), 2 * Real.pi * cosHemiPdf ⟨0, 0, z⟩) ∧
    InSquare ⟨1 / 3, 1 / 2⟩ :=
  ⟨cosHemi_density _ (by norm_num) (by norm_num) _, by norm_num [InSquare]⟩

end Feign.Warp
