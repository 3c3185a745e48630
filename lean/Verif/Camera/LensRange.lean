import Verif.Camera.PerspectiveProps

/-!
# C107: the range of depths seen through a lens
-/

namespace Feign.Camera

open Feign

/-- The range of a ray through the lens, in camera space: from depth `near` to depth `far`, both scaled by how much the
line from the eye to the point in focus is longer than the line from the lens point (specification: `near` and `far`
are depths). -/
theorem lens_range (c : Persp) (h : c.Ok) (hf : 0 < c.focal) (film app : V2 ℝ) :
    ∃ r ap n f, c.sampleRay Xf.one film app = some r ∧ r.origin = ap ∧ r.near = Ext.fin n ∧ r.far = Ext.fin f ∧
      let F := (c.filmPoint film).smul c.focal
      (r.point n).z = c.near * (F.norm / (F - ap).norm) ∧ (r.point f).z = c.far * (F.norm / (F - ap).norm) := by
  classical
  obtain ⟨ap, r, hr, hap, hor, ⟨hdir, hvn⟩, hn, hfar⟩ :=
    sampleRay_spec c h hf Xf.one ⟨M4.Affine.one, M4.Affine.one⟩ film app
  rw [Xf.one_point _ _ rfl] at hor
  rw [Xf.one_vec _ _ rfl] at hdir
  have ho : r.origin = ap := (Option.some.inj hor).symm
  refine ⟨r, ap, _, _, hr, ho, hn, hfar, ?_⟩
  have hF : ((c.filmPoint film).smul c.focal).norm = c.focal * (c.filmPoint film).norm := by
    rw [V3.norm_smul, abs_of_pos hf]
  have hz : ap.z = 0 := by rw [hap]
  have hq : (c.filmPoint film).z = 1 := rfl
  intro F
  have hk : (F - ap).norm ≠ 0 := hvn.ne'
  constructor
  · simp only [Ray.point, ho, hdir, V3.add_z, V3.smul_z, V3.sub_z, hz, hq, F, hF]
    ring
  · simp only [Ray.point, ho, hdir, V3.add_z, V3.smul_z, V3.sub_z, hz, hq, F, hF]
    ring

/-- Specification: whatever the aperture, rays see exactly the depths from `near` to `far`. -/
def RangeIsDepth (c : Persp) : Prop :=
  ∀ film app r n f, Warp.InSquare app → c.sampleRay Xf.one film app = some r → r.near = Ext.fin n → r.far = Ext.fin f →
    (r.point n).z = c.near ∧ (r.point f).z = c.far

/-- **C107, refuted part.** With an open aperture the range of a ray is not the range of depths: it is measured along the
line through the eye and used along the line through the lens point. -/
theorem range_is_depth_refuted : ∃ c : Persp, c.Ok ∧ 0 < c.focal ∧ 0 < c.radius ∧ ¬ RangeIsDepth c := by
  refine ⟨⟨1, 1, 90, 1, 2, 2, 2⟩, ?_, by norm_num, by norm_num, fun hd => ?_⟩
  · exact ⟨by norm_num, by norm_num, by norm_num, by norm_num, by norm_num, by norm_num⟩
  have hok : (⟨1, 1, 90, 1, 2, 2, 2⟩ : Persp).Ok :=
    ⟨by norm_num, by norm_num, by norm_num, by norm_num, by norm_num, by norm_num⟩
  obtain ⟨r, ap, n, f, hr, ho, hn, hf, h1, -⟩ := lens_range _ hok (by norm_num) ⟨1, 1⟩ ⟨0, 1 / 4⟩
  classical
  obtain ⟨ap', r', hr', hap, hor, -⟩ := sampleRay_spec _ hok (by norm_num) Xf.one ⟨M4.Affine.one, M4.Affine.one⟩
    ⟨1, 1⟩ ⟨0, 1 / 4⟩
  rw [hr] at hr'
  have e := Option.some.inj hr'
  subst e
  rw [Xf.one_point _ _ rfl, ho] at hor
  have e := Option.some.inj hor
  subst e
  have hin : Warp.InSquare (⟨0, 1 / 4⟩ : V2 ℝ) := by unfold Warp.InSquare; norm_num
  have h2 := (hd _ _ _ _ _ hin hr hn hf).1
  rw [h1] at h2
  have hs : Real.sqrt (1 / 4) = 1 / 2 := by
    rw [show (1 / 4 : ℝ) = (1 / 2) ^ 2 by norm_num, Real.sqrt_sq (by norm_num)]
  have hap2 : ap' = ⟨1 / 2, 0, 0⟩ := by
    rw [hap]
    simp [Warp.uniDisk]
    rw [show (4 : ℝ) = 2 ^ 2 by norm_num, Real.sqrt_sq (by norm_num)]
  rw [hap2] at h2
  have hF : ((⟨1, 1, 90, 1, 2, 2, 2⟩ : Persp).filmPoint ⟨1, 1⟩).smul 1 = ⟨0, 0, 1⟩ := by
    ext <;> simp [Persp.filmPoint]
  simp only [hF] at h2
  have n1 : (⟨0, 0, 1⟩ : V3 ℝ).norm = 1 := by simp [V3.norm]
  rw [n1] at h2
  have h3 : ((⟨0, 0, 1⟩ : V3 ℝ) - ⟨1 / 2, 0, 0⟩).norm = 1 := by
    by_contra hne
    have : (1 : ℝ) * (1 / ((⟨0, 0, 1⟩ : V3 ℝ) - ⟨1 / 2, 0, 0⟩).norm) = 1 := h2
    rw [one_mul, div_eq_iff] at this
    · rw [one_mul] at this; exact hne this.symm
    · intro h0
      rw [h0] at this
      norm_num at this
  have h4 := V3.norm_sq ((⟨0, 0, 1⟩ : V3 ℝ) - ⟨1 / 2, 0, 0⟩)
  rw [h3] at h4
  norm_num [V3.sqrNorm] at h4

/-- **C107, what holds.** With aperture 0 the range is exactly the range of depths. -/
theorem range_is_depth_partial (c : Persp) (h : c.Ok) (hf : 0 < c.focal) (h0 : c.radius = 0) : RangeIsDepth c := by
  classical
  intro film app r n f _ hr hn hfar
  obtain ⟨r', ap, n', f', hr', ho, hn', hf', h1, h2⟩ := lens_range c h hf film app
  obtain ⟨ap2, r2, hr2, hap, hor, ⟨-, hv⟩, -⟩ := sampleRay_spec c h hf Xf.one ⟨M4.Affine.one, M4.Affine.one⟩ film app
  rw [hr] at hr' hr2
  have e1 := Option.some.inj hr'
  have e2 := Option.some.inj hr2
  subst e1
  subst e2
  rw [Xf.one_point _ _ rfl, ho] at hor
  have e3 := Option.some.inj hor
  subst e3
  have hz : ap2 = 0 := by rw [hap, h0]; ext <;> simp
  have en : n = n' := WithTop.coe_injective (WithBot.coe_injective (hn.symm.trans hn'))
  have ef : f = f' := WithTop.coe_injective (WithBot.coe_injective (hfar.symm.trans hf'))
  subst en
  subst ef
  have hs : (c.filmPoint film).smul c.focal - ap2 = (c.filmPoint film).smul c.focal := by
    rw [hz]; ext <;> simp
  rw [hs] at h1 h2 hv
  rw [div_self hv.ne', mul_one] at h1 h2
  exact ⟨h1, h2⟩

/-- A camera with aperture 0 and a ray of it. -/
example : ∃ c : Persp, c.Ok ∧ c.radius = 0 ∧ ∃ r, c.sampleRay Xf.one ⟨1, 1⟩ ⟨0, 1 / 4⟩ = some r := by
  have hok : (⟨0, 1, 90, 1, 2, 2, 2⟩ : Persp).Ok :=
    ⟨by norm_num, by norm_num, by norm_num, by norm_num, by norm_num, by norm_num⟩
  obtain ⟨r, -, -, -, hr, -⟩ := lens_range _ hok (by norm_num) ⟨1, 1⟩ ⟨0, 1 / 4⟩
  exact ⟨_, hok, rfl, r, hr⟩

end Feign.Camera
