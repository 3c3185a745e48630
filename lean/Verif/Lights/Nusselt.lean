import Verif.Sampling.PlaneLaws
import Verif.Math.FrameProps
import Verif.Integrators.RoomLemmas
import Mathlib.Analysis.SpecialFunctions.PolarCoord
import Mathlib.Analysis.SpecialFunctions.Sqrt
import Mathlib.MeasureTheory.Function.Jacobian

/-!
# Directions towards a flat patch (helper lemmas)

The patch is the set of points `c + a e1 + b e2`, relative to the point from which it is seen. The directions to it,
projected onto the tangent plane, as a map of the plane into the unit disk (Nusselt), and its Jacobian determinant.
-/

set_option linter.unusedSectionVars false
set_option linter.unusedVariables false
set_option linter.unusedSimpArgs false

namespace Feign.Lights

open MeasureTheory Set Warp
open scoped ENNReal

/-- The point of the patch with coordinates `x`. -/
def patch (c e1 e2 : V3 ℝ) (x : ℝ × ℝ) : V3 ℝ := c + e1.smul x.1 + e2.smul x.2

/-- The tangential coordinates of the direction to it. -/
noncomputable def onDisk (f : Frame) (c e1 e2 : V3 ℝ) (x : ℝ × ℝ) : ℝ × ℝ :=
  ((patch c e1 e2 x).dot f.s / (patch c e1 e2 x).norm, (patch c e1 e2 x).dot f.t / (patch c e1 e2 x).norm)

theorem norm_sq (v : V3 ℝ) : v.norm ^ 2 = v.dot v := by
  rw [V3.norm, Real.sq_sqrt]
  · simp only [V3.dot]
  · nlinarith [mul_self_nonneg v.x, mul_self_nonneg v.y, mul_self_nonneg v.z]

theorem norm_pos_of_dot {v n : V3 ℝ} (h : v.dot n ≠ 0) : 0 < v.norm := by
  have hn : 0 ≤ v.norm := Real.sqrt_nonneg _
  rcases hn.lt_or_eq with h0 | h0
  · exact h0
  · exfalso
    have := norm_sq v
    rw [← h0] at this
    simp only [V3.dot] at this h
    have hx : v.x = 0 := by nlinarith [mul_self_nonneg v.x, mul_self_nonneg v.y, mul_self_nonneg v.z]
    have hy : v.y = 0 := by nlinarith [mul_self_nonneg v.x, mul_self_nonneg v.y, mul_self_nonneg v.z]
    have hz : v.z = 0 := by nlinarith [mul_self_nonneg v.x, mul_self_nonneg v.y, mul_self_nonneg v.z]
    rw [hx, hy, hz] at h
    simp at h

/-- An affine function of the plane. -/
theorem affine_deriv (α β γ : ℝ) (x : ℝ × ℝ) : HasFDerivAt (fun x : ℝ × ℝ => α + β * x.1 + γ * x.2)
    (β • ContinuousLinearMap.fst ℝ ℝ ℝ + γ • ContinuousLinearMap.snd ℝ ℝ ℝ) x := by
  have h := ((hasFDerivAt_fst (𝕜 := ℝ) (p := x)).const_mul β).add ((hasFDerivAt_snd (𝕜 := ℝ) (p := x)).const_mul γ)
  refine (h.const_add α).congr_of_eventuallyEq (Filter.Eventually.of_forall fun y => ?_)
  simp [add_assoc]

theorem patch_dot (c e1 e2 v : V3 ℝ) (x : ℝ × ℝ) :
    (patch c e1 e2 x).dot v = c.dot v + e1.dot v * x.1 + e2.dot v * x.2 := by
  simp only [patch, V3.dot, V3.add_x, V3.add_y, V3.add_z, V3.smul_x, V3.smul_y, V3.smul_z]
  ring

/-- The derivative of the squared distance. -/
theorem sqr_deriv (c e1 e2 : V3 ℝ) (x : ℝ × ℝ) :
    HasFDerivAt (fun x => (patch c e1 e2 x).dot (patch c e1 e2 x))
      ((2 * (patch c e1 e2 x).dot e1) • ContinuousLinearMap.fst ℝ ℝ ℝ +
        (2 * (patch c e1 e2 x).dot e2) • ContinuousLinearMap.snd ℝ ℝ ℝ) x := by
  have hx := affine_deriv c.x e1.x e2.x x
  have hy := affine_deriv c.y e1.y e2.y x
  have hz := affine_deriv c.z e1.z e2.z x
  have h := ((hx.mul hx).add (hy.mul hy)).add (hz.mul hz)
  refine HasFDerivAt.congr_fderiv (h.congr_of_eventuallyEq (Filter.Eventually.of_forall fun y => ?_)) ?_
  · simp only [patch, V3.dot, V3.add_x, V3.add_y, V3.add_z, V3.smul_x, V3.smul_y, V3.smul_z, Pi.add_apply, Pi.mul_apply]
  · ext <;>
    simp [patch, V3.dot, V3.add_x, V3.add_y, V3.add_z, V3.smul_x, V3.smul_y, V3.smul_z] <;> ring

/-- The derivative of one tangential coordinate. -/
theorem coord_deriv (c e1 e2 v : V3 ℝ) (x : ℝ × ℝ) (h : 0 < (patch c e1 e2 x).norm) :
    HasFDerivAt (fun x => (patch c e1 e2 x).dot v / (patch c e1 e2 x).norm)
      (((e1.dot v * (patch c e1 e2 x).norm ^ 2 - (patch c e1 e2 x).dot v * (patch c e1 e2 x).dot e1) /
          (patch c e1 e2 x).norm ^ 3) • ContinuousLinearMap.fst ℝ ℝ ℝ +
        ((e2.dot v * (patch c e1 e2 x).norm ^ 2 - (patch c e1 e2 x).dot v * (patch c e1 e2 x).dot e2) /
          (patch c e1 e2 x).norm ^ 3) • ContinuousLinearMap.snd ℝ ℝ ℝ) x := by
  have hA := affine_deriv (c.dot v) (e1.dot v) (e2.dot v) x
  have hQ := sqr_deriv c e1 e2 x
  have hne : (patch c e1 e2 x).dot (patch c e1 e2 x) ≠ 0 := by rw [← norm_sq]; positivity
  have hr := hQ.sqrt hne
  have hnr : Real.sqrt ((patch c e1 e2 x).dot (patch c e1 e2 x)) = (patch c e1 e2 x).norm := by
    rw [← norm_sq, Real.sqrt_sq h.le]
  have hd := hA.mul ((hasDerivAt_inv (by rw [hnr]; exact h.ne')).comp_hasFDerivAt x hr)
  refine HasFDerivAt.congr_fderiv (hd.congr_of_eventuallyEq (Filter.Eventually.of_forall fun y => ?_)) ?_
  · simp only [Pi.mul_apply, Function.comp]
    have hy : 0 ≤ (patch c e1 e2 y).norm := Real.sqrt_nonneg _
    rw [patch_dot, ← norm_sq, Real.sqrt_sq hy, div_eq_mul_inv]
  · simp only [Function.comp, hnr, ← patch_dot]
    ext <;> simp <;> field_simp <;> ring

/-- Its derivative as a matrix. -/
noncomputable def onDisk' (f : Frame) (c e1 e2 : V3 ℝ) (x : ℝ × ℝ) : ℝ × ℝ →L[ℝ] ℝ × ℝ :=
  let w := patch c e1 e2 x
  (Matrix.toLin (Module.Basis.finTwoProd ℝ) (Module.Basis.finTwoProd ℝ)
    !![(e1.dot f.s * w.norm ^ 2 - w.dot f.s * w.dot e1) / w.norm ^ 3,
       (e2.dot f.s * w.norm ^ 2 - w.dot f.s * w.dot e2) / w.norm ^ 3;
       (e1.dot f.t * w.norm ^ 2 - w.dot f.t * w.dot e1) / w.norm ^ 3,
       (e2.dot f.t * w.norm ^ 2 - w.dot f.t * w.dot e2) / w.norm ^ 3]).toContinuousLinearMap

theorem onDisk_deriv (f : Frame) (c e1 e2 : V3 ℝ) (x : ℝ × ℝ) (h : 0 < (patch c e1 e2 x).norm) :
    HasFDerivAt (onDisk f c e1 e2) (onDisk' f c e1 e2 x) x := by
  unfold onDisk'
  dsimp only
  rw [Matrix.toLin_finTwoProd_toContinuousLinearMap]
  exact (coord_deriv c e1 e2 f.s x h).prodMk (coord_deriv c e1 e2 f.t x h)

/-- The tangents' cross product is the normal up to sign. -/
theorem cross_tangents (f : Frame) (h : f.Orthonormal) (v : V3 ℝ) : |(f.s.cross f.t).dot v| = |f.n.dot v| := by
  have h1 : (f.s.cross f.t).dot v = (f.s.cross f.t).dot f.n * f.n.dot v := by
    have hv := Frame.toWorld_toLocal f h v
    conv_lhs => rw [← hv]
    simp only [Frame.toWorld, Frame.toLocal, V3.cross, V3.dot, V3.add_x, V3.add_y, V3.add_z, V3.smul_x, V3.smul_y, V3.smul_z]
    ring
  have h2 : ((f.s.cross f.t).dot f.n) ^ 2 = 1 := by
    have hs := h.ss; have ht := h.tt; have hn := h.nn; have hst := h.st; have hsn := h.sn; have htn := h.tn
    have hg : ((f.s.cross f.t).dot f.n) ^ 2 = f.s.dot f.s * (f.t.dot f.t * f.n.dot f.n - f.t.dot f.n * f.t.dot f.n) -
        f.s.dot f.t * (f.s.dot f.t * f.n.dot f.n - f.t.dot f.n * f.s.dot f.n) +
        f.s.dot f.n * (f.s.dot f.t * f.t.dot f.n - f.t.dot f.t * f.s.dot f.n) := by
      simp only [V3.cross, V3.dot]
      ring
    rw [hg, hs, ht, hn, hst, hsn, htn]
    norm_num
  have h3 : |(f.s.cross f.t).dot f.n| = 1 := by
    rw [← sq_abs] at h2
    nlinarith [abs_nonneg ((f.s.cross f.t).dot f.n)]
  rw [h1, abs_mul, h3, one_mul]

theorem onDisk_det (f : Frame) (hf : f.Orthonormal) (c e1 e2 : V3 ℝ) (x : ℝ × ℝ) (h : 0 < (patch c e1 e2 x).norm) :
    |(onDisk' f c e1 e2 x).det| =
      |f.n.dot (patch c e1 e2 x)| * |c.dot (e1.cross e2)| / (patch c e1 e2 x).norm ^ 4 := by
  have hN : (patch c e1 e2 x).dot (e1.cross e2) = c.dot (e1.cross e2) := by
    rw [patch_dot]
    simp only [V3.cross, V3.dot]
    ring
  have hd : (onDisk' f c e1 e2 x).det =
      (f.s.cross f.t).dot (patch c e1 e2 x) * (patch c e1 e2 x).dot (e1.cross e2) / (patch c e1 e2 x).norm ^ 4 := by
    unfold onDisk'
    simp only [LinearMap.det_toContinuousLinearMap, LinearMap.det_toLin, Matrix.det_fin_two_of]
    have hq := norm_sq (patch c e1 e2 x)
    generalize patch c e1 e2 x = w at *
    rw [div_mul_div_comm, div_mul_div_comm, ← sub_div, div_eq_div_iff (by positivity) (by positivity)]
    have e6 : w.norm ^ 3 * w.norm ^ 3 = w.norm ^ 2 * w.norm ^ 4 := by ring
    rw [e6, hq, ← mul_assoc]
    congr 1
    simp only [V3.cross, V3.dot]
    ring
  rw [hd, hN, abs_div, abs_mul, cross_tangents f hf, abs_of_pos (by positivity : 0 < (patch c e1 e2 x).norm ^ 4)]

/-- The direction over a point of the disk. -/
noncomputable def lift (f : Frame) (x : ℝ × ℝ) : V3 ℝ := f.toWorld ⟨x.1, x.2, Real.sqrt (max 0 (1 - x.1 * x.1 - x.2 * x.2))⟩

theorem local_sqr (f : Frame) (h : f.Orthonormal) (v : V3 ℝ) :
    v.dot f.s * v.dot f.s + v.dot f.t * v.dot f.t + v.dot f.n * v.dot f.n = v.dot v := by
  have hv := Frame.toWorld_toLocal f h v
  have hs := h.ss; have ht := h.tt; have hn := h.nn; have hst := h.st; have hsn := h.sn; have htn := h.tn
  have e : v.dot v = v.dot (f.toWorld (f.toLocal v)) := by rw [hv]
  rw [e]
  simp only [Frame.toWorld, Frame.toLocal, V3.dot, V3.add_x, V3.add_y, V3.add_z, V3.smul_x, V3.smul_y, V3.smul_z]
  ring

/-- Over the tangential coordinates of a direction above the surface lies the direction itself. -/
theorem lift_onDisk (f : Frame) (h : f.Orthonormal) (c e1 e2 : V3 ℝ) (x : ℝ × ℝ) (hn : 0 < (patch c e1 e2 x).dot f.n) :
    lift f (onDisk f c e1 e2 x) = (patch c e1 e2 x).smul (1 / (patch c e1 e2 x).norm) := by
  have hr := norm_pos_of_dot hn.ne'
  have hl := local_sqr f h (patch c e1 e2 x)
  have hq := norm_sq (patch c e1 e2 x)
  have hw := Frame.toWorld_toLocal f h ((patch c e1 e2 x).smul (1 / (patch c e1 e2 x).norm))
  rw [← hw]
  unfold lift onDisk
  congr 1
  generalize patch c e1 e2 x = w at *
  have hz : Real.sqrt (max 0 (1 - w.dot f.s / w.norm * (w.dot f.s / w.norm) - w.dot f.t / w.norm * (w.dot f.t / w.norm))) =
      w.dot f.n / w.norm := by
    have e : 1 - w.dot f.s / w.norm * (w.dot f.s / w.norm) - w.dot f.t / w.norm * (w.dot f.t / w.norm) =
        (w.dot f.n / w.norm) ^ 2 := by
      field_simp
      rw [hq, ← hl]
      ring
    rw [e, max_eq_right (by positivity), Real.sqrt_sq (by positivity)]
  simp only [hz]
  ext <;> simp only [Frame.toLocal, V3.dot, V3.smul_x, V3.smul_y, V3.smul_z] <;> ring

/-- Different points of the patch are seen in different directions. -/
theorem patch_injective (c e1 e2 : V3 ℝ) (hc : c.dot (e1.cross e2) ≠ 0) (x y : ℝ × ℝ)
    (h : (patch c e1 e2 x).smul (1 / (patch c e1 e2 x).norm) = (patch c e1 e2 y).smul (1 / (patch c e1 e2 y).norm)) :
    x = y := by
  have hN : ∀ z, (patch c e1 e2 z).dot (e1.cross e2) = c.dot (e1.cross e2) := by
    intro z
    rw [patch_dot]
    simp only [V3.cross, V3.dot]
    ring
  have hx : 0 < (patch c e1 e2 x).norm := norm_pos_of_dot (n := e1.cross e2) (by rw [hN]; exact hc)
  have hy : 0 < (patch c e1 e2 y).norm := norm_pos_of_dot (n := e1.cross e2) (by rw [hN]; exact hc)
  have hs : ∀ (v m : V3 ℝ) (k : ℝ), (v.smul k).dot m = v.dot m * k := by
    intro v m k; simp only [V3.dot, V3.smul_x, V3.smul_y, V3.smul_z]; ring
  have hd := congrArg (fun v : V3 ℝ => v.dot (e1.cross e2)) h
  simp only [hs, hN] at hd
  have hd := mul_left_cancel₀ hc hd
  rw [hd] at h
  have hk : 1 / (patch c e1 e2 y).norm ≠ 0 := by positivity
  have hw : patch c e1 e2 x = patch c e1 e2 y := by
    have ex := congrArg V3.x h
    have ey := congrArg V3.y h
    have ez := congrArg V3.z h
    simp only [V3.smul_x, V3.smul_y, V3.smul_z] at ex ey ez
    ext
    · exact mul_right_cancel₀ hk ex
    · exact mul_right_cancel₀ hk ey
    · exact mul_right_cancel₀ hk ez
  -- the two edges are independent
  have h1 : ∀ z, (patch c e1 e2 z).dot (e2.cross c) = z.1 * c.dot (e1.cross e2) := by
    intro z
    rw [patch_dot]
    simp only [V3.cross, V3.dot]
    ring
  have h2 : ∀ z, (patch c e1 e2 z).dot (c.cross e1) = z.2 * c.dot (e1.cross e2) := by
    intro z
    rw [patch_dot]
    simp only [V3.cross, V3.dot]
    ring
  have e1' := congrArg (fun v : V3 ℝ => v.dot (e2.cross c)) hw
  have e2' := congrArg (fun v : V3 ℝ => v.dot (c.cross e1)) hw
  simp only [h1, h2] at e1' e2'
  exact Prod.ext (mul_right_cancel₀ hc e1') (mul_right_cancel₀ hc e2')

theorem measurable_lift (f : Frame) : Measurable (lift f) := by
  unfold lift
  exact Integrators.measurable_worldOf measurable_const measurable_const measurable_const
    (measurable_of (by fun_prop) (by fun_prop) (by fun_prop))

theorem measurable_patch (c e1 e2 : V3 ℝ) : Measurable (patch c e1 e2) := by
  unfold patch
  apply measurable_of <;> simp only [V3.add_x, V3.add_y, V3.add_z, V3.smul_x, V3.smul_y, V3.smul_z] <;> fun_prop

/-- **Nusselt.** The average over cosine-distributed directions of a function of the direction that vanishes in
directions that do not meet the part `T` of the patch, as an integral over `T`. -/
theorem nusselt (f : Frame) (hf : f.Orthonormal) (c e1 e2 : V3 ℝ) (hc : c.dot (e1.cross e2) ≠ 0) (T : Set (ℝ × ℝ))
    (hT : MeasurableSet T) (G : V3 ℝ → ℝ≥0∞) (hG : Measurable G)
    (hz : ∀ v : V3 ℝ, 0 < v.dot f.n → G v ≠ 0 → ∃ x ∈ T, ∃ k > 0, patch c e1 e2 x = v.smul k) :
    ∫⁻ q, G (f.toWorld (cosHemi ⟨q.1, q.2⟩)) ∂square =
      ∫⁻ x in T, ENNReal.ofReal (1 / Real.pi * (max 0 ((patch c e1 e2 x).dot f.n) * |c.dot (e1.cross e2)| /
        (patch c e1 e2 x).norm ^ 4)) * G ((patch c e1 e2 x).smul (1 / (patch c e1 e2 x).norm)) := by
  have hN : ∀ z, (patch c e1 e2 z).dot (e1.cross e2) = c.dot (e1.cross e2) := by
    intro z
    rw [patch_dot]
    simp only [V3.cross, V3.dot]
    ring
  have hpos : ∀ z, 0 < (patch c e1 e2 z).norm := fun z => norm_pos_of_dot (n := e1.cross e2) (by rw [hN]; exact hc)
  have hpi := Real.pi_pos
  have md : Measurable fun x => (patch c e1 e2 x).dot f.n :=
    Integrators.measurable_dot (measurable_patch c e1 e2) measurable_const
  let P : Set (ℝ × ℝ) := T ∩ {x | 0 < (patch c e1 e2 x).dot f.n}
  have hP : MeasurableSet P := hT.inter (measurableSet_lt measurable_const md)
  let H : ℝ × ℝ → ℝ≥0∞ := fun x => if x.1 * x.1 + x.2 * x.2 < 1 then G (lift f x) else 0
  have mH : Measurable H := Measurable.ite (measurableSet_lt (by fun_prop) measurable_const)
    (hG.comp (measurable_lift f)) measurable_const
  -- the left side as an integral over the disk
  have hleft : ∫⁻ q, G (f.toWorld (cosHemi ⟨q.1, q.2⟩)) ∂square = ENNReal.ofReal (1 / Real.pi) * ∫⁻ x, H x := by
    have e : ∫⁻ q, G (f.toWorld (cosHemi ⟨q.1, q.2⟩)) ∂square = ∫⁻ q, H (pair (uniDisk ⟨q.1, q.2⟩)) ∂square := by
      refine lintegral_congr_ae ?_
      have hsq : square = (volume : Measure (ℝ × ℝ)).restrict (Ioo 0 1 ×ˢ Ioo 0 1) := by
        rw [square, Measure.prod_restrict]
        rfl
      rw [hsq]
      refine (ae_restrict_iff' (measurableSet_Ioo.prod measurableSet_Ioo)).2 (Filter.Eventually.of_forall fun q hq => ?_)
      have hin : (pair (uniDisk ⟨q.1, q.2⟩)).1 * (pair (uniDisk ⟨q.1, q.2⟩)).1 +
          (pair (uniDisk ⟨q.1, q.2⟩)).2 * (pair (uniDisk ⟨q.1, q.2⟩)).2 < 1 := by
        have := uniDisk_sqr ⟨q.1, q.2⟩ hq.2.1.le
        simp only [pair]
        simp only at this
        rw [this]
        exact hq.2.2
      simp only [H, if_pos hin]
      rfl
    rw [e, uniDisk_lintegral H mH, ← lintegral_const_mul _ mH]
    refine lintegral_congr fun x => ?_
    by_cases hx : x.1 * x.1 + x.2 * x.2 < 1
    · rw [uniDiskPdf, if_pos hx.le]
    · simp only [H, if_neg hx, mul_zero]
  -- the part of the disk that is not reached contributes nothing
  have him : ∫⁻ x, H x = ∫⁻ x in onDisk f c e1 e2 '' P, H x := by
    rw [← lintegral_indicator]
    · refine lintegral_congr fun x => ?_
      by_cases hx : x ∈ onDisk f c e1 e2 '' P
      · rw [indicator_of_mem hx]
      · rw [indicator_of_notMem hx]
        by_contra hne
        apply hx
        have hd : x.1 * x.1 + x.2 * x.2 < 1 := by
          by_contra hd
          exact hne (by simp only [H, if_neg hd])
        have hg : G (lift f x) ≠ 0 := by simpa only [H, if_pos hd] using hne
        have hl := Frame.toLocal_toWorld f hf ⟨x.1, x.2, Real.sqrt (max 0 (1 - x.1 * x.1 - x.2 * x.2))⟩
        have lx : (lift f x).dot f.s = x.1 := congrArg V3.x hl
        have ly : (lift f x).dot f.t = x.2 := congrArg V3.y hl
        have lz : (lift f x).dot f.n = Real.sqrt (max 0 (1 - x.1 * x.1 - x.2 * x.2)) := congrArg V3.z hl
        have hz0 : 0 < (lift f x).dot f.n := by
          rw [lz]
          exact Real.sqrt_pos.2 (lt_max_of_lt_right (by linarith))
        obtain ⟨y, hy, k, hk, hyk⟩ := hz _ hz0 hg
        have hs : ∀ (v m : V3 ℝ) (k : ℝ), (v.smul k).dot m = v.dot m * k := by
          intro v m k; simp only [V3.dot, V3.smul_x, V3.smul_y, V3.smul_z]; ring
        have hone : (lift f x).dot (lift f x) = 1 := by
          rw [← local_sqr f hf, lx, ly, lz, Real.mul_self_sqrt (le_max_left _ _), max_eq_right (by linarith)]
          ring
        have hnorm : (patch c e1 e2 y).norm = k := by
          have h2 := norm_sq (patch c e1 e2 y)
          have hss : ((lift f x).smul k).dot ((lift f x).smul k) = k ^ 2 * (lift f x).dot (lift f x) := by
            simp only [V3.dot, V3.smul_x, V3.smul_y, V3.smul_z]; ring
          rw [hyk, hss, hone, mul_one] at h2
          rw [hyk]
          exact (pow_left_inj₀ (Real.sqrt_nonneg _) hk.le two_ne_zero).1 h2
        refine ⟨y, ⟨hy, ?_⟩, ?_⟩
        · show 0 < (patch c e1 e2 y).dot f.n
          rw [hyk, hs]
          positivity
        · refine Prod.ext ?_ ?_
          · show (patch c e1 e2 y).dot f.s / (patch c e1 e2 y).norm = x.1
            rw [hnorm, hyk, hs, lx]
            field_simp
          · show (patch c e1 e2 y).dot f.t / (patch c e1 e2 y).norm = x.2
            rw [hnorm, hyk, hs, ly]
            field_simp
    · exact measurable_image_of_fderivWithin hP
        (fun x hx => (onDisk_deriv f c e1 e2 x (hpos x)).hasFDerivWithinAt) (by
          intro x hx y hy hxy
          apply patch_injective c e1 e2 hc
          rw [← lift_onDisk f hf c e1 e2 x hx.2, ← lift_onDisk f hf c e1 e2 y hy.2, hxy])
  have hcv := lintegral_image_eq_lintegral_abs_det_fderiv_mul volume hP
    (fun x hx => (onDisk_deriv f c e1 e2 x (hpos x)).hasFDerivWithinAt) (by
      intro x hx y hy hxy
      apply patch_injective c e1 e2 hc
      rw [← lift_onDisk f hf c e1 e2 x hx.2, ← lift_onDisk f hf c e1 e2 y hy.2, hxy]) H
  rw [hleft, him, hcv, ← lintegral_const_mul' _ _ ENNReal.ofReal_ne_top, ← lintegral_indicator hP, ← lintegral_indicator hT]
  refine lintegral_congr fun x => ?_
  by_cases hxT : x ∈ T
  · rw [indicator_of_mem hxT]
    by_cases hn : 0 < (patch c e1 e2 x).dot f.n
    · have hx : x ∈ P := ⟨hxT, hn⟩
      have hin : (onDisk f c e1 e2 x).1 * (onDisk f c e1 e2 x).1 + (onDisk f c e1 e2 x).2 * (onDisk f c e1 e2 x).2 < 1 := by
        have hl := local_sqr f hf (patch c e1 e2 x)
        have hq := norm_sq (patch c e1 e2 x)
        have hr := hpos x
        simp only [onDisk]
        rw [div_mul_div_comm, div_mul_div_comm, ← add_div, div_lt_one (by positivity)]
        nlinarith
      rw [indicator_of_mem hx]
      simp only [H, if_pos hin]
      rw [lift_onDisk f hf c e1 e2 x hn, ← mul_assoc, ← ENNReal.ofReal_mul (by positivity), onDisk_det f hf c e1 e2 x (hpos x),
        max_eq_right hn.le]
      have hnd : f.n.dot (patch c e1 e2 x) = (patch c e1 e2 x).dot f.n := by simp only [V3.dot]; ring
      rw [hnd, abs_of_pos hn]
    · rw [indicator_of_notMem (fun h => hn h.2), max_eq_left (not_lt.1 hn)]
      simp
  · rw [indicator_of_notMem (fun h => hxT h.1), indicator_of_notMem hxT]

end Feign.Lights
