import Verif.Sampling.WarpMean
import Verif.Math.FrameProps
import Mathlib.Analysis.SpecialFunctions.PolarCoord
import Mathlib.MeasureTheory.Measure.Lebesgue.EqHaar
import Mathlib.MeasureTheory.Measure.Haar.Unique
import Mathlib.MeasureTheory.Measure.WithDensity
import Mathlib.MeasureTheory.Measure.Prod
import Mathlib.MeasureTheory.Group.LIntegral

/-!
# Solid angle (specification) and its invariance under rotations (helper lemmas)
-/

set_option linter.unusedSectionVars false

namespace Feign

open MeasureTheory Set
open scoped ENNReal

/-- Measurable sets of vectors: those of triples of numbers. -/
instance V3.measurableSpace : MeasurableSpace (V3 ℝ) :=
  MeasurableSpace.comap (fun v => (v.z, v.x, v.y)) inferInstance

namespace Warp

/-! ## Specification -/

/-- Pairs of random numbers, uniform in the unit square. -/
noncomputable def square : Measure (ℝ × ℝ) := (volume.restrict (Ioo 0 1)).prod (volume.restrict (Ioo 0 1))

/-- Solid angle on the unit sphere, in spherical coordinates: `sin θ dθ dφ`. -/
noncomputable def solidAngle : Measure (V3 ℝ) :=
  Measure.map (fun p : ℝ × ℝ => direction p.2 p.1)
    (((volume.restrict (Ioo 0 (2 * Real.pi))).prod (volume.restrict (Ioo 0 Real.pi))).withDensity
      fun p => ENNReal.ofReal (Real.sin p.2))

/-! ## Measurability -/

theorem measurable_of {α : Type*} [MeasurableSpace α] {f : α → V3 ℝ} (hx : Measurable fun a => (f a).x)
    (hy : Measurable fun a => (f a).y) (hz : Measurable fun a => (f a).z) : Measurable f := by
  apply measurable_iff_comap_le.mpr
  show MeasurableSpace.comap f (MeasurableSpace.comap _ _) ≤ _
  rw [MeasurableSpace.comap_comp]
  exact measurable_iff_comap_le.mp (hz.prodMk (hx.prodMk hy))

theorem measurable_triple : Measurable fun v : V3 ℝ => (v.z, v.x, v.y) := comap_measurable _

@[fun_prop]
theorem measurable_x : Measurable fun v : V3 ℝ => v.x := (measurable_fst.comp measurable_snd).comp measurable_triple

@[fun_prop]
theorem measurable_y : Measurable fun v : V3 ℝ => v.y := (measurable_snd.comp measurable_snd).comp measurable_triple

@[fun_prop]
theorem measurable_z : Measurable fun v : V3 ℝ => v.z := measurable_fst.comp measurable_triple

theorem measurable_direction : Measurable fun p : ℝ × ℝ => direction p.2 p.1 := by
  apply measurable_of <;> simp only [direction] <;> fun_prop

theorem measurable_smul : Measurable fun p : V3 ℝ × ℝ => p.1.smul p.2 := by
  apply measurable_of <;> simp only [V3.smul_x, V3.smul_y, V3.smul_z] <;> fun_prop

theorem measurable_toWorld (f : Frame) : Measurable f.toWorld := by
  apply measurable_of <;> simp only [Frame.toWorld, V3.add_x, V3.add_y, V3.add_z, V3.smul_x, V3.smul_y, V3.smul_z] <;>
    fun_prop

/-- Integrals over directions. -/
theorem lintegral_solidAngle (g : V3 ℝ → ℝ≥0∞) (hg : Measurable g) :
    ∫⁻ v, g v ∂solidAngle = ∫⁻ φ in Ioo 0 (2 * Real.pi), ∫⁻ θ in Ioo 0 Real.pi,
      ENNReal.ofReal (Real.sin θ) * g (direction θ φ) := by
  have hm : Measurable fun p : ℝ × ℝ => ENNReal.ofReal (Real.sin p.2) := by fun_prop
  have hgd : Measurable fun p : ℝ × ℝ => g (direction p.2 p.1) := hg.comp measurable_direction
  rw [solidAngle, lintegral_map hg measurable_direction, lintegral_withDensity_eq_lintegral_mul _ hm hgd,
    lintegral_prod _ (hm.mul hgd).aemeasurable]
  rfl

/-! ## Volume in spherical coordinates -/

/-- The vector of a triple. -/
def vec (p : ℝ × ℝ × ℝ) : V3 ℝ := ⟨p.2.1, p.2.2, p.1⟩

theorem measurable_vec : Measurable vec := by apply measurable_of <;> simp only [vec] <;> fun_prop

/-- Plane integrals in polar coordinates, the angle running from 0 to 2π. -/
theorem plane_polar (f : ℝ × ℝ → ℝ≥0∞) (hf : Measurable f) :
    ∫⁻ p, f p = ∫⁻ φ in Ioo 0 (2 * Real.pi), ∫⁻ r in Ioi (0 : ℝ),
      ENNReal.ofReal r * f (r * Real.cos φ, r * Real.sin φ) := by
  have hneg : ∫⁻ p : ℝ × ℝ, f (-p) = ∫⁻ p, f p := by
    have hp := (Measure.measurePreserving_neg (volume : Measure ℝ)).prod
      (Measure.measurePreserving_neg (volume : Measure ℝ))
    rw [Measure.volume_eq_prod]
    exact hp.lintegral_comp hf
  rw [← hneg, ← lintegral_comp_polarCoord_symm, polarCoord_target,
    Measure.volume_eq_prod, ← Measure.prod_restrict, lintegral_prod_symm]
  · have hs : ∀ F : ℝ → ℝ≥0∞, ∫⁻ y in Ioo (-Real.pi) Real.pi, F (y + Real.pi) =
        ∫⁻ φ in Ioo 0 (2 * Real.pi), F φ := by
      intro F
      rw [← lintegral_indicator measurableSet_Ioo, ← lintegral_indicator measurableSet_Ioo,
        ← lintegral_add_right_eq_self (μ := volume) (indicator (Ioo 0 (2 * Real.pi)) F) Real.pi]
      congr 1
      ext y
      by_cases h : y ∈ Ioo (-Real.pi) Real.pi
      · rw [indicator_of_mem h, indicator_of_mem]
        exact ⟨by linarith [h.1], by linarith [h.2]⟩
      · rw [indicator_of_notMem h, indicator_of_notMem]
        intro h'
        exact h ⟨by linarith [h'.1], by linarith [h'.2]⟩
    rw [← hs]
    congr 1
    ext φ
    simp only [polarCoord_symm_apply, smul_eq_mul, Real.cos_add_pi, Real.sin_add_pi, mul_neg, Prod.neg_mk]
  · refine Measurable.aemeasurable ?_
    refine (measurable_fst.ennreal_ofReal).smul ?_
    exact (hf.comp measurable_neg).comp continuous_polarCoord_symm.measurable

/-- Half-plane integrals in polar coordinates. -/
theorem half_polar (f : ℝ × ℝ → ℝ≥0∞) (hf : Measurable f) :
    ∫⁻ z, ∫⁻ ρ in Ioi (0 : ℝ), f (z, ρ) = ∫⁻ r in Ioi (0 : ℝ), ∫⁻ θ in Ioo 0 Real.pi,
      ENNReal.ofReal r * f (r * Real.cos θ, r * Real.sin θ) := by
  have hi : Measurable ((univ ×ˢ Ioi (0 : ℝ)).indicator f) :=
    hf.indicator (MeasurableSet.univ.prod measurableSet_Ioi)
  have h1 : ∫⁻ z, ∫⁻ ρ in Ioi (0 : ℝ), f (z, ρ) = ∫⁻ p : ℝ × ℝ, (univ ×ˢ Ioi (0 : ℝ)).indicator f p := by
    rw [Measure.volume_eq_prod, lintegral_prod _ hi.aemeasurable]
    congr 1
    ext z
    rw [← lintegral_indicator measurableSet_Ioi]
    congr 1
    ext ρ
    by_cases h : ρ ∈ Ioi (0 : ℝ)
    · rw [indicator_of_mem h, indicator_of_mem (by exact ⟨mem_univ _, h⟩)]
    · rw [indicator_of_notMem h, indicator_of_notMem (by rintro ⟨-, h'⟩; exact h h')]
  rw [h1, ← lintegral_comp_polarCoord_symm, polarCoord_target, Measure.volume_eq_prod, ← Measure.prod_restrict,
    lintegral_prod]
  · apply setLIntegral_congr_fun measurableSet_Ioi
    intro r hr
    have hr : 0 < r := hr
    simp only
    rw [← lintegral_indicator measurableSet_Ioo, ← lintegral_indicator measurableSet_Ioo]
    congr 1
    ext θ
    simp only [polarCoord_symm_apply, smul_eq_mul]
    by_cases h : θ ∈ Ioo 0 Real.pi
    · have h2 : θ ∈ Ioo (-Real.pi) Real.pi := ⟨by linarith [h.1, Real.pi_pos], h.2⟩
      rw [indicator_of_mem h, indicator_of_mem h2, indicator_of_mem]
      exact ⟨mem_univ _, mul_pos hr (Real.sin_pos_of_pos_of_lt_pi h.1 h.2)⟩
    · rw [indicator_of_notMem h]
      by_cases h2 : θ ∈ Ioo (-Real.pi) Real.pi
      · rw [indicator_of_mem h2, indicator_of_notMem, mul_zero]
        rintro ⟨-, h3⟩
        have h4 : 0 < Real.sin θ := (mul_pos_iff_of_pos_left hr).mp h3
        have h5 : θ ≤ 0 := not_lt.mp fun h6 => h ⟨h6, h2.2⟩
        exact absurd h4 (not_lt.mpr (Real.sin_nonpos_of_nonpos_of_neg_pi_le h5 h2.1.le))
      · rw [indicator_of_notMem h2]
  · refine Measurable.aemeasurable ?_
    refine (measurable_fst.ennreal_ofReal).smul ?_
    exact hi.comp continuous_polarCoord_symm.measurable

/-- Volume in spherical coordinates. -/
theorem volume_spherical (G : V3 ℝ → ℝ≥0∞) (hG : Measurable G) :
    ∫⁻ p, G (vec p) = ∫⁻ r in Ioi (0 : ℝ), ENNReal.ofReal (r ^ 2) * ∫⁻ v, G (v.smul r) ∂solidAngle := by
  have hGv : Measurable fun p => G (vec p) := hG.comp measurable_vec
  rw [Measure.volume_eq_prod, lintegral_prod _ hGv.aemeasurable]
  have h1 : ∀ z : ℝ, ∫⁻ q : ℝ × ℝ, G (vec (z, q)) = ∫⁻ φ in Ioo 0 (2 * Real.pi), ∫⁻ ρ in Ioi (0 : ℝ),
      ENNReal.ofReal ρ * G (vec (z, ρ * Real.cos φ, ρ * Real.sin φ)) := by
    intro z
    exact plane_polar (fun q => G (vec (z, q))) (hGv.comp (measurable_const.prodMk measurable_id))
  simp only [h1]
  have hm3 : Measurable fun q : (ℝ × ℝ) × ℝ =>
      ENNReal.ofReal q.2 * G (vec (q.1.1, q.2 * Real.cos q.1.2, q.2 * Real.sin q.1.2)) := by
    refine Measurable.mul (by fun_prop) (hGv.comp ?_)
    fun_prop
  rw [lintegral_lintegral_swap (hm3.lintegral_prod_right'.aemeasurable)]
  have h2 : ∀ φ : ℝ, ∫⁻ z, ∫⁻ ρ in Ioi (0 : ℝ),
      ENNReal.ofReal ρ * G (vec (z, ρ * Real.cos φ, ρ * Real.sin φ)) =
      ∫⁻ r in Ioi (0 : ℝ), ∫⁻ θ in Ioo 0 Real.pi, ENNReal.ofReal r *
        (ENNReal.ofReal (r * Real.sin θ) * G (vec (r * Real.cos θ, r * Real.sin θ * Real.cos φ,
          r * Real.sin θ * Real.sin φ))) := by
    intro φ
    refine half_polar (fun q => ENNReal.ofReal q.2 * G (vec (q.1, q.2 * Real.cos φ, q.2 * Real.sin φ))) ?_
    refine Measurable.mul (by fun_prop) (hGv.comp ?_)
    fun_prop
  simp only [h2]
  have hm4 : Measurable fun q : (ℝ × ℝ) × ℝ => ENNReal.ofReal q.1.2 *
      (ENNReal.ofReal (q.1.2 * Real.sin q.2) * G (vec (q.1.2 * Real.cos q.2, q.1.2 * Real.sin q.2 * Real.cos q.1.1,
          q.1.2 * Real.sin q.2 * Real.sin q.1.1))) := by
    refine Measurable.mul (by fun_prop) (Measurable.mul (by fun_prop) (hGv.comp ?_))
    fun_prop
  rw [lintegral_lintegral_swap (hm4.lintegral_prod_right'.aemeasurable)]
  apply setLIntegral_congr_fun measurableSet_Ioi
  intro r hr
  have hr : 0 < r := hr
  simp only
  have hGr : Measurable fun v : V3 ℝ => G (v.smul r) :=
    hG.comp (measurable_smul.comp (measurable_id.prodMk measurable_const))
  rw [lintegral_solidAngle _ hGr, ← lintegral_const_mul]
  · apply lintegral_congr
    intro φ
    rw [← lintegral_const_mul]
    · apply setLIntegral_congr_fun measurableSet_Ioo
      intro θ hθ
      have hs := Real.sin_pos_of_pos_of_lt_pi hθ.1 hθ.2
      have e : vec (r * Real.cos θ, r * Real.sin θ * Real.cos φ, r * Real.sin θ * Real.sin φ) =
          (direction θ φ).smul r := by
        ext <;> simp only [vec, direction, V3.smul_x, V3.smul_y, V3.smul_z] <;> ring
      simp only
      rw [e, ← mul_assoc, ← mul_assoc, ← ENNReal.ofReal_mul hr.le, ← ENNReal.ofReal_mul (by positivity)]
      congr 2
      ring
    · have hd : Measurable fun θ => direction θ φ := by
        apply measurable_of <;> simp only [direction] <;> fun_prop
      exact Measurable.mul (by fun_prop) (hGr.comp hd)
  · have : Measurable fun q : ℝ × ℝ => ENNReal.ofReal (Real.sin q.2) * G ((direction q.2 q.1).smul r) :=
      Measurable.mul (by fun_prop) (hGr.comp measurable_direction)
    exact this.lintegral_prod_right'

/-! ## Rotations -/

/-- An orthonormal frame keeps lengths. -/
theorem toWorld_sqrNorm (f : Frame) (h : f.Orthonormal) (v : V3 ℝ) : (f.toWorld v).sqrNorm = v.sqrNorm := by
  obtain ⟨ss, tt, nn, st, sn, tn⟩ := h
  simp only [V3.dot] at ss tt nn st sn tn
  simp only [Frame.toWorld, V3.sqrNorm, V3.add_x, V3.add_y, V3.add_z, V3.smul_x, V3.smul_y, V3.smul_z]
  linear_combination v.x * v.x * ss + v.y * v.y * tt + v.z * v.z * nn + 2 * v.x * v.y * st + 2 * v.x * v.z * sn +
    2 * v.y * v.z * tn

/-- The frame as a linear map of triples. -/
noncomputable def lin (f : Frame) : (ℝ × ℝ × ℝ) →ₗ[ℝ] (ℝ × ℝ × ℝ) where
  toFun p := ((f.toWorld (vec p)).z, (f.toWorld (vec p)).x, (f.toWorld (vec p)).y)
  map_add' p q := by
    simp only [Frame.toWorld, vec, V3.add_x, V3.add_y, V3.add_z, V3.smul_x, V3.smul_y, V3.smul_z, Prod.fst_add,
      Prod.snd_add, Prod.mk_add_mk]
    refine Prod.ext ?_ (Prod.ext ?_ ?_) <;> simp only <;> ring
  map_smul' c p := by
    simp only [Frame.toWorld, vec, V3.add_x, V3.add_y, V3.add_z, V3.smul_x, V3.smul_y, V3.smul_z, Prod.smul_fst,
      Prod.smul_snd, smul_eq_mul, RingHom.id_apply, Prod.smul_mk]
    refine Prod.ext ?_ (Prod.ext ?_ ?_) <;> simp only <;> ring

theorem vec_lin (f : Frame) (p : ℝ × ℝ × ℝ) : vec (lin f p) = f.toWorld (vec p) := rfl

instance : (volume : Measure (ℝ × ℝ × ℝ)).IsAddHaarMeasure := by
  rw [Measure.volume_eq_prod, Measure.volume_eq_prod]; exact Measure.prod.instIsAddHaarMeasure _ _

/-- The frame keeps volumes. -/
theorem volume_lin (f : Frame) (h : f.Orthonormal) (s : Set (ℝ × ℝ × ℝ)) : volume (lin f ⁻¹' s) = volume s := by
  have hdet : LinearMap.det (lin f) ≠ 0 := by
    intro h0
    have hk := LinearMap.bot_lt_ker_of_det_eq_zero h0
    obtain ⟨p, hp, hne⟩ := (Submodule.ne_bot_iff _).mp hk.ne'
    have h1 : f.toWorld (vec p) = 0 := by rw [← vec_lin, LinearMap.mem_ker.mp hp]; rfl
    have h2 := toWorld_sqrNorm f h (vec p)
    rw [h1] at h2
    apply hne
    simp only [V3.sqrNorm, vec, V3.zero_x, V3.zero_y, V3.zero_z] at h2
    have hx : p.2.1 = 0 := by nlinarith [sq_nonneg p.1, sq_nonneg p.2.1, sq_nonneg p.2.2]
    have hy : p.2.2 = 0 := by nlinarith [sq_nonneg p.1, sq_nonneg p.2.1, sq_nonneg p.2.2]
    have hz : p.1 = 0 := by nlinarith [sq_nonneg p.1, sq_nonneg p.2.1, sq_nonneg p.2.2]
    exact Prod.ext hz (Prod.ext hx hy)
  have key := fun s => Measure.addHaar_preimage_linearMap (volume : Measure (ℝ × ℝ × ℝ)) hdet s
  let B : Set (ℝ × ℝ × ℝ) := {p | (vec p).sqrNorm < 1}
  have hB : lin f ⁻¹' B = B := by
    ext p
    show (vec (lin f p)).sqrNorm < 1 ↔ (vec p).sqrNorm < 1
    rw [vec_lin, toWorld_sqrNorm f h]
  have hopen : IsOpen B := by
    have : Continuous fun p : ℝ × ℝ × ℝ => (vec p).sqrNorm := by simp only [V3.sqrNorm, vec]; fun_prop
    exact isOpen_lt this continuous_const
  have hpos : volume B ≠ 0 := (hopen.measure_pos volume ⟨0, by
    show (vec 0).sqrNorm < 1; simp [vec, V3.sqrNorm]⟩).ne'
  have hfin : volume B ≠ ⊤ := by
    have hsub : B ⊆ Metric.ball 0 1 := by
      intro p hp
      have hp : (vec p).sqrNorm < 1 := hp
      simp only [V3.sqrNorm, vec] at hp
      rw [mem_ball_zero_iff, Prod.norm_def, Prod.norm_def, Real.norm_eq_abs, Real.norm_eq_abs, Real.norm_eq_abs]
      refine max_lt ?_ (max_lt ?_ ?_) <;> rw [abs_lt] <;> constructor <;>
        nlinarith [sq_nonneg p.1, sq_nonneg p.2.1, sq_nonneg p.2.2, mul_self_nonneg p.1, mul_self_nonneg p.2.1,
          mul_self_nonneg p.2.2]
    exact ((measure_mono hsub).trans_lt measure_ball_lt_top).ne
  have h1 := key B
  rw [hB] at h1
  have hc : ENNReal.ofReal |(LinearMap.det (lin f))⁻¹| = 1 := by
    have : ENNReal.ofReal |(LinearMap.det (lin f))⁻¹| * volume B = 1 * volume B := by rw [one_mul]; exact h1.symm
    exact (ENNReal.mul_left_inj hpos hfin).mp this
  rw [key s, hc, one_mul]

theorem measurePreserving_lin (f : Frame) (h : f.Orthonormal) : MeasurePreserving (lin f) volume volume := by
  have hm : Measurable (lin f) := (LinearMap.continuous_of_finiteDimensional _).measurable
  exact ⟨hm, Measure.ext fun s hs => by rw [Measure.map_apply hm hs, volume_lin f h]⟩

theorem direction_sqrNorm (θ φ : ℝ) : (direction θ φ).sqrNorm = 1 := by
  have h1 := Real.sin_sq_add_cos_sq θ
  have h2 := Real.sin_sq_add_cos_sq φ
  simp only [V3.sqrNorm, direction]
  linear_combination Real.sin θ ^ 2 * h2 + h1

/-- All of the solid angle is on the unit sphere. -/
theorem solidAngle_unit : ∀ᵐ v ∂solidAngle, v.sqrNorm = 1 := by
  have hm : MeasurableSet {v : V3 ℝ | v.sqrNorm = 1} := by
    have : Measurable fun v : V3 ℝ => v.sqrNorm := by simp only [V3.sqrNorm]; fun_prop
    exact this (measurableSet_singleton 1)
  rw [solidAngle, ae_map_iff measurable_direction.aemeasurable hm]
  exact Filter.Eventually.of_forall fun p => direction_sqrNorm _ _

/-- Solid angle does not depend on the frame. -/
theorem solidAngle_toWorld (f : Frame) (h : f.Orthonormal) : Measure.map f.toWorld solidAngle = solidAngle := by
  have hf := measurable_toWorld f
  have hn : Measurable fun v : V3 ℝ => v.sqrNorm := by simp only [V3.sqrNorm]; fun_prop
  -- the part of the unit ball over a set of directions
  let C : Set (V3 ℝ) → Set (V3 ℝ) := fun A => {v | v.sqrNorm < 1 ∧ v.smul (1 / Real.sqrt v.sqrNorm) ∈ A}
  have hCm : ∀ A, MeasurableSet A → MeasurableSet (C A) := by
    intro A hA
    refine (measurableSet_lt hn measurable_const).inter ?_
    have : Measurable fun v : V3 ℝ => v.smul (1 / Real.sqrt v.sqrNorm) :=
      measurable_smul.comp (measurable_id.prodMk ((measurable_const.div (hn.sqrt))))
    exact this hA
  have hC : ∀ A, MeasurableSet A → volume (vec ⁻¹' C A) =
      (∫⁻ r in Ioi (0 : ℝ), (Iio (1 : ℝ)).indicator (fun r => ENNReal.ofReal (r ^ 2)) r) * solidAngle A := by
    intro A hA
    have h1 := volume_spherical ((C A).indicator 1) (measurable_one.indicator (hCm A hA))
    have h2 : ∫⁻ p, (C A).indicator 1 (vec p) = volume (vec ⁻¹' C A) := by
      rw [← lintegral_indicator_one (measurable_vec (hCm A hA))]; rfl
    rw [← h2, h1, ← lintegral_mul_const]
    · apply setLIntegral_congr_fun measurableSet_Ioi
      intro r hr
      have hr : 0 < r := hr
      simp only
      have h3 : ∫⁻ v, (C A).indicator 1 (v.smul r) ∂solidAngle =
          ∫⁻ v, (Iio (1 : ℝ)).indicator (fun _ => 1) r * A.indicator 1 v ∂solidAngle := by
        apply lintegral_congr_ae
        filter_upwards [solidAngle_unit] with v hv
        have e1 : (v.smul r).sqrNorm = r ^ 2 := by
          have : v.x * v.x + v.y * v.y + v.z * v.z = 1 := hv
          simp only [V3.sqrNorm, V3.smul_x, V3.smul_y, V3.smul_z]
          linear_combination r ^ 2 * this
        have e2 : (v.smul r).smul (1 / Real.sqrt (v.smul r).sqrNorm) = v := by
          rw [e1, Real.sqrt_sq hr.le]
          ext <;> simp only [V3.smul_x, V3.smul_y, V3.smul_z] <;> field_simp
        have e3 : v.smul r ∈ C A ↔ r ∈ Iio (1 : ℝ) ∧ v ∈ A := by
          show (v.smul r).sqrNorm < 1 ∧ (v.smul r).smul (1 / Real.sqrt (v.smul r).sqrNorm) ∈ A ↔ _
          rw [e2, e1]
          exact and_congr_left fun _ => by
            constructor
            · intro h; show r < 1; nlinarith
            · intro h; have : r < 1 := h; nlinarith
        by_cases hr1 : r ∈ Iio (1 : ℝ) <;> by_cases hvA : v ∈ A
        · rw [indicator_of_mem (e3.mpr ⟨hr1, hvA⟩), indicator_of_mem hr1, indicator_of_mem hvA]; simp
        · rw [indicator_of_notMem (fun h => hvA (e3.mp h).2), indicator_of_notMem hvA]; simp
        · rw [indicator_of_notMem (fun h => hr1 (e3.mp h).1), indicator_of_notMem hr1]; simp
        · rw [indicator_of_notMem (fun h => hr1 (e3.mp h).1), indicator_of_notMem hr1]; simp
      rw [h3, lintegral_const_mul _ (measurable_one.indicator hA), lintegral_indicator_one hA, ← mul_assoc]
      congr 1
      by_cases hr1 : r ∈ Iio (1 : ℝ)
      · rw [indicator_of_mem hr1, indicator_of_mem hr1, mul_one]
      · rw [indicator_of_notMem hr1, indicator_of_notMem hr1, mul_zero]
    · exact Measurable.indicator (by fun_prop) measurableSet_Iio
  have hc0 : (∫⁻ r in Ioi (0 : ℝ), (Iio (1 : ℝ)).indicator (fun r => ENNReal.ofReal (r ^ 2)) r) ≠ 0 := by
    intro h0
    rw [lintegral_eq_zero_iff (Measurable.indicator (by fun_prop) measurableSet_Iio),
      Filter.EventuallyEq, ae_restrict_iff' measurableSet_Ioi] at h0
    have hz : volume (Ioo (0 : ℝ) 1) = 0 := by
      refine measure_mono_null ?_ (ae_iff.mp h0)
      intro r hr hc
      have := hc hr.1
      rw [indicator_of_mem (show r ∈ Iio (1 : ℝ) from hr.2)] at this
      have h2 : ENNReal.ofReal (r ^ 2) = 0 := this
      rw [ENNReal.ofReal_eq_zero] at h2
      nlinarith [hr.1]
    rw [Real.volume_Ioo] at hz
    norm_num at hz
  have hct : (∫⁻ r in Ioi (0 : ℝ), (Iio (1 : ℝ)).indicator (fun r => ENNReal.ofReal (r ^ 2)) r) ≠ ⊤ := by
    rw [lintegral_indicator measurableSet_Iio, Measure.restrict_restrict measurableSet_Iio]
    have hset : Iio (1 : ℝ) ∩ Ioi 0 = Ioo 0 1 := by ext r; exact and_comm
    rw [hset]
    refine ne_of_lt (lt_of_le_of_lt (setLIntegral_mono (g := fun _ => 1) measurable_const ?_) ?_)
    · intro r hr
      rw [ENNReal.ofReal_le_one]
      nlinarith [hr.1, hr.2]
    · rw [setLIntegral_one, Real.volume_Ioo]
      exact ENNReal.ofReal_lt_top
  refine Measure.ext fun A hA => ?_
  rw [Measure.map_apply hf hA]
  have hpre : vec ⁻¹' C (f.toWorld ⁻¹' A) = lin f ⁻¹' (vec ⁻¹' C A) := by
    ext p
    show (vec p).sqrNorm < 1 ∧ f.toWorld ((vec p).smul (1 / Real.sqrt (vec p).sqrNorm)) ∈ A ↔
      (vec (lin f p)).sqrNorm < 1 ∧ (vec (lin f p)).smul (1 / Real.sqrt (vec (lin f p)).sqrNorm) ∈ A
    rw [vec_lin, toWorld_sqrNorm f h]
    have : ∀ c, f.toWorld ((vec p).smul c) = (f.toWorld (vec p)).smul c := by
      intro c
      ext <;> simp only [Frame.toWorld, V3.add_x, V3.add_y, V3.add_z, V3.smul_x, V3.smul_y, V3.smul_z] <;> ring
    rw [this]
  have e := hC _ (hf hA)
  rw [hpre, volume_lin f h, hC A hA] at e
  exact ((ENNReal.mul_right_inj hc0 hct).mp e).symm

end Warp
end Feign
