import Verif.Integrators.FacetsSpec
import Verif.Integrators.LitLemmas
import Verif.Lights.EmitterProps
import Verif.Lights.Nusselt

/-! # Scenes of triangles: the sample of one lamp (lemmas) -/

set_option linter.unusedSectionVars false
set_option linter.unusedSimpArgs false
set_option linter.unusedVariables false

namespace Feign.Integrators

open Sampling MeasureTheory Warp Bsdf Lights Shapes
open scoped ENNReal

/-- The normal of a triangle. -/
noncomputable def Facet.normal (T : Facet) : V3 ℝ := T.cross.smul (1 / T.cross.norm)

theorem norm_pos_of_ne {v : V3 ℝ} (h : v ≠ 0) : 0 < v.norm := by
  have h0 : 0 ≤ v.norm := Real.sqrt_nonneg _
  rcases h0.lt_or_eq with h1 | h1
  · exact h1
  · exfalso
    apply h
    have hs := norm_sq v
    rw [← h1] at hs
    simp only [V3.dot] at hs
    have hx := mul_self_nonneg v.x
    have hy := mul_self_nonneg v.y
    have hz := mul_self_nonneg v.z
    exact V3.ext (mul_self_eq_zero.1 (by linarith)) (mul_self_eq_zero.1 (by linarith)) (mul_self_eq_zero.1 (by linarith))

theorem normalized_of_ne {v : V3 ℝ} (h : v ≠ 0) : v.normalized = some (v.smul (1 / v.norm)) := by
  rw [V3.normalized, if_neg (norm_pos_of_ne h).ne']
  congr 1
  ext <;> simp only [V3.smul_x, V3.smul_y, V3.smul_z] <;> ring

theorem geomNormal_eq (T : Facet) (h : T.cross ≠ 0) : geomNormal T.p0 T.p1 T.p2 = some T.normal := normalized_of_ne h

theorem normal_sqr (T : Facet) (h : T.cross ≠ 0) : T.normal.dot T.normal = 1 := by
  have hp := norm_pos_of_ne h
  have hs := norm_sq T.cross
  have : T.normal.dot T.normal = T.cross.dot T.cross * (1 / T.cross.norm) ^ 2 := by
    simp only [Facet.normal, V3.dot, V3.smul_x, V3.smul_y, V3.smul_z]; ring
  rw [this, ← hs]
  field_simp

theorem frame_spec (T : Facet) (h : T.cross ≠ 0) : T.frame.Orthonormal ∧ T.frame.n = T.normal := by
  obtain ⟨f, hf, hn, ho, -⟩ := Frame.frame_orthonormal T.normal (normal_sqr T h)
  have e : T.frame = f := by
    rw [Facet.frame, geomNormal_eq T h]
    simp only [Option.bind_some, hf, Option.getD_some]
  rw [e]
  exact ⟨ho, hn⟩

theorem triArea_pos (T : Facet) (h : T.cross ≠ 0) : 0 < triArea T.p0 T.p1 T.p2 := by
  have := norm_pos_of_ne h
  unfold triArea
  have e : ((T.p1 - T.p0).cross (T.p2 - T.p0)).norm = T.cross.norm := rfl
  rw [e]
  positivity

theorem newMesh_eq (T : Facet) (h : T.cross ≠ 0) (I : V3 ℝ) (k : ℕ) :
    Light.newMesh I k T.mesh = .ok (.mesh I k T.mesh [0, 1]) := by
  have hp := triArea_pos T h
  have hfa : faceAreas T.mesh T.mesh.tris = .ok [triArea T.p0 T.p1 T.p2] := rfl
  have ht : areaTable [triArea T.p0 T.p1 T.p2] = .ok [0, 1] := by
    simp only [areaTable, runningSums, normalizeCdf, List.getLast?_cons_cons, List.getLast?_singleton, zero_add,
      if_neg hp.ne', List.map_cons, List.map_nil, zero_mul, mul_one_div_cancel hp.ne']
  rw [Light.newMesh, hfa]
  simp only [Res.bind_ok, ht, Res.pure_eq]

theorem reuse_one (u : ℝ) : sampleReusePdf [(0 : ℝ), 1] u = .ok (0, u, 1) := by
  have hs : Sampling.sample [(0 : ℝ), 1] u = .ok 0 := by
    have hx : getAt [(0 : ℝ), 1] (max ((scan u [(0 : ℝ), 1] 0 : ℕ) - 1 : ℤ) 0) = .ok 0 := by
      by_cases h : (0 : ℝ) < u
      · simp [scan, h, getAt]
      · simp [scan, h, getAt]
    rw [Sampling.sample, hx]
    simp [truncInt]
  have hp : pmfAt [(0 : ℝ), 1] 0 = .ok 1 := by simp [pmfAt, getAt]
  have hg : getAt [(0 : ℝ), 1] 0 = .ok 0 := rfl
  simp [sampleReusePdf, samplePdf, hs, hp, hg]

/-- What `sample_nee` returns, for all numbers. -/
theorem sample_facet (T : Facet) (h : T.cross ≠ 0) (I p : V3 ℝ) (k : ℕ) (u : V2 ℝ) :
    (Light.mesh I k T.mesh [0, 1]).sampleNee p u =
      .ok (areaSample I p (hitPoint T.p0 T.p1 T.p2 (uniTri u).x (uniTri u).y) T.normal (1 / triArea T.p0 T.p1 T.p2)) := by
  have hg := geomNormal_eq T h
  have hp := triArea_pos T h
  have hc : T.mesh.corners ⟨![0, 1, 2], fun _ => 0, fun _ => 0⟩ = .ok (T.p0, T.p1, T.p2) := rfl
  have hsn : ∀ a b, T.mesh.shadingNormal ⟨![0, 1, 2], fun _ => 0, fun _ => 0⟩ a b = .ok (some T.normal) := by
    intro a b
    unfold Mesh.shadingNormal
    rw [if_neg (by simp [Facet.mesh])]
    simp only [hc, Res.bind_ok, hg, Res.pure_eq]
  have hga : getAt T.mesh.tris 0 = .ok ⟨![0, 1, 2], fun _ => 0, fun _ => 0⟩ := rfl
  simp only [Light.sampleNee, meshSample, reuse_one, Res.bind_ok, hga, hc, hsn, if_neg hp.ne', mul_one, Res.pure_eq]

/-- The contribution of a lamp for one random point on it, before it is divided by the probability of the choice. -/
noncomputable def shareAt (T : Facet) (I : V3 ℝ) (blocked : Blocked) (p : V3 ℝ) (n albedo : V3 ℝ) (back : ℝ)
    (q : V3 ℝ) : V3 ℝ :=
  let v := q - p
  let w := v.smul (1 / v.norm)
  if blocked p w (v.norm - 1 / 1000) = true ∨ back ≤ 0 ∨ n.dot w ≤ 0 ∨ (-w).dot T.normal ≤ 1 / 1000 then 0
  else (I * albedo).smul (1 / Real.pi * n.dot w * (-w).dot T.normal * triArea T.p0 T.p1 T.p2 / v.norm ^ 2)

/-- The same in terms of the coordinates of the point. -/
noncomputable def lampShare (T : Facet) (I : V3 ℝ) (blocked : Blocked) (p : V3 ℝ) (n albedo : V3 ℝ) (back : ℝ)
    (u : ℝ × ℝ) : V3 ℝ := shareAt T I blocked p n albedo back (hitPoint T.p0 T.p1 T.p2 u.1 u.2)

theorem share_total (T : Facet) (h : T.cross ≠ 0) (I : V3 ℝ) (blocked : Blocked) (p : V3 ℝ) (f : Frame) (albedo wi : V3 ℝ)
    (k k' : ℕ) (u : V2 ℝ) (choice : ℝ) (hch : choice ≠ 0) :
    ∃ e, lightEval (queries blocked p) ⟨p, f.n, f, k'⟩ f.n false choice (.mesh I k T.mesh [0, 1]) u = .ok e ∧
      total [shadowRay albedo wi e] =
        (lampShare T I blocked p f.n albedo wi.z (pair (uniTri u))).smul (1 / choice) := by
  have hs := sample_facet T h I p k u
  have hA := triArea_pos T h
  have hzs : ∀ c : ℝ, (0 : V3 ℝ).smul c = 0 := by
    intro c; ext <;> simp
  have hm0 : ∀ v : V3 ℝ, v * (0 : V3 ℝ) = 0 := by
    intro v
    ext
    · show v.x * (0 : ℝ) = 0; ring
    · show v.y * (0 : ℝ) = 0; ring
    · show v.z * (0 : ℝ) = 0; ring
  have h0m : ∀ v : V3 ℝ, (0 : V3 ℝ) * v = 0 := by
    intro v
    ext
    · show (0 : ℝ) * v.x = 0; ring
    · show (0 : ℝ) * v.y = 0; ring
    · show (0 : ℝ) * v.z = 0; ring
  have heps : Lights.eps = 1 / 1000 := rfl
  unfold lampShare
  simp only [pair]
  unfold lightEval
  rw [hs]
  simp only [Res.bind_ok]
  generalize hitPoint T.p0 T.p1 T.p2 (uniTri u).x (uniTri u).y = q
  unfold shareAt
  dsimp only
  by_cases hq : q - p = 0
  · have hnz : (q - p).normalized = none := by
      rw [hq, V3.normalized, if_pos]
      simp [V3.norm]
    refine ⟨.nan, ?_, ?_⟩
    · simp only [areaSample, hnz]
      rfl
    · have hcase : f.n.dot ((q - p).smul (1 / (q - p).norm)) ≤ 0 := by
        rw [hq, hzs]
        simp [V3.dot]
      rw [total_single, if_neg (by simp [shadowRay, toEntry]), if_pos (Or.inr (Or.inr (Or.inl hcase))), hzs]
  · have hn := norm_pos_of_ne hq
    have hnz := normalized_of_ne hq
    have hsq : (q - p).sqrNorm = (q - p).norm ^ 2 := by
      rw [norm_sq]; simp only [V3.sqrNorm, V3.dot]
    have hroot : Real.sqrt (q - p).sqrNorm = (q - p).norm := by rw [hsq, Real.sqrt_sq hn.le]
    set w := (q - p).smul (1 / (q - p).norm) with hw
    have hloc : (f.toLocal w).z = f.n.dot w := by
      simp only [Frame.toLocal, V3.dot]
      ring
    by_cases hd : (-w).dot T.normal ≤ 1 / 1000
    · rw [if_pos (Or.inr (Or.inr (Or.inr hd))), hzs]
      simp only [areaSample, hnz, heps, if_pos hd, initialCheck, Light.needsCheck, Bool.false_eq_true, if_false, queries,
        Bool.not_false, Bool.and_true, hroot]
      by_cases hb : blocked p w ((q - p).norm - 1 / 1000) = true
      · rw [if_pos hb]
        exact ⟨_, rfl, by rw [total_single]; rfl⟩
      · rw [if_neg hb]
        refine ⟨_, rfl, ?_⟩
        rw [total_single]
        simp only [shadowRay, toEntry, if_true, h0m]
    · simp only [areaSample, hnz, heps, if_neg hd, initialCheck, Light.needsCheck, Bool.false_eq_true, if_false, queries,
        Bool.not_false, Bool.and_true, hroot]
      by_cases hb : blocked p w ((q - p).norm - 1 / 1000) = true
      · rw [if_pos hb, if_pos (Or.inl hb), hzs]
        exact ⟨_, rfl, by rw [total_single]; rfl⟩
      · rw [if_neg hb]
        refine ⟨_, rfl, ?_⟩
        rw [total_single]
        simp only [shadowRay, toEntry, if_true, diffuseEval, hloc]
        by_cases hf : wi.z ≤ 0
        · rw [if_pos (Or.inl hf), if_pos (Or.inr (Or.inl hf)), hm0, hzs]
        · by_cases hc : f.n.dot w ≤ 0
          · rw [if_pos (Or.inr hc), if_pos (Or.inr (Or.inr (Or.inl hc))), hm0, hzs]
          · have hdp : 0 < (-w).dot T.normal := by linarith [not_le.1 hd]
            rw [if_neg (not_or.2 ⟨hf, hc⟩), if_neg (not_or.2 ⟨hb, not_or.2 ⟨hf, not_or.2 ⟨hc, hd⟩⟩⟩), if_neg]
            · have hct : cosTerm (f.n.dot w) = f.n.dot w := by
                rw [cosTerm, if_neg]
                rw [heps]
                linarith [not_le.1 hc]
              rw [hct, abs_of_pos hdp, hsq]
              have hpi := Real.pi_pos
              generalize f.n.dot w = c at *
              generalize (-w).dot T.normal = d at *
              generalize (q - p).norm = m at *
              generalize triArea T.p0 T.p1 T.p2 = A at *
              ext
              · show I.x * c * _ * 1 * (albedo.x * _) = I.x * albedo.x * _ * _
                field_simp
              · show I.y * c * _ * 1 * (albedo.y * _) = I.y * albedo.y * _ * _
                field_simp
              · show I.z * c * _ * 1 * (albedo.z * _) = I.z * albedo.z * _ * _
                field_simp
            · rw [hsq, abs_of_pos hdp]
              positivity

end Feign.Integrators
