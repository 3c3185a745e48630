import Verif.Bsdf.LobeProps
import Verif.Bsdf.SpecularProps
import Verif.Media.PhaseProps
import Verif.Shapes.MeshProps

/-!
# Light paths can be reversed (C116)

Paths are followed from the camera, photons from the lights. The two agree only if every step can be taken backwards:
surfaces reflect as much one way as the other, what is reflected or refracted goes back where it came from, media
scatter alike both ways, and a surface between two points is in the way from both sides.
-/

set_option linter.unusedSectionVars false

namespace Feign

open Bsdf

/-! ## Reflectance -/

/-- C116, diffuse. -/
theorem Bsdf.diffuse_reciprocal (albedo wi wo : V3 ℝ) : diffuseEval albedo wi wo = diffuseEval albedo wo wi := by
  simp only [diffuseEval, or_comm]

/-- C116, Phong. -/
theorem Bsdf.phong_reciprocal (m : Phong) (wi wo : V3 ℝ) : m.eval wi wo = m.eval wo wi := by
  have : wo.dot ((⟨0, 0, 2 * wi.z⟩ : V3 ℝ) - wi) = wi.dot ((⟨0, 0, 2 * wo.z⟩ : V3 ℝ) - wo) := by
    simp only [V3.dot, V3.sub_x, V3.sub_y, V3.sub_z]; ring
  simp only [Phong.eval, this]

/-- C116, Blinn, for directions on the upper side. -/
theorem Bsdf.blinn_reciprocal_partial (kd ks : V3 ℝ) (n : ℕ) (wi wo : V3 ℝ) (hi : 0 < wi.z) (ho : 0 < wo.z) :
    blinnEval kd ks n wi wo = blinnEval kd ks n wo wi := by
  have : wo + wi = wi + wo := by ext <;> simp only [V3.add_x, V3.add_y, V3.add_z] <;> ring
  simp only [blinnEval, if_neg (not_le.2 hi), if_neg (not_le.2 ho), this]

/-- C116 fails for Blinn across the surface: light from above is seen from below, but not the other way round. -/
theorem Bsdf.blinn_reciprocal_refuted :
    ∃ wi wo : V3 ℝ, wi.sqrNorm = 1 ∧ wo.sqrNorm = 1 ∧
      blinnEval ⟨1, 1, 1⟩ 0 1 wo wi = some 0 ∧ ∃ c, blinnEval ⟨1, 1, 1⟩ 0 1 wi wo = some c ∧ 0 < c.x := by
  obtain ⟨wi, wo, h1, h2, h3, h4, c, hc, hp⟩ := blinn_leaks_refuted
  exact ⟨wi, wo, h1, h2, by rw [blinnEval, if_pos h4.le], c, hc, hp⟩

/-! ## Specular directions -/

theorem Bsdf.mirror_above (albedo wi : V3 ℝ) (hz : ¬ wi.z ≤ 0) :
    mirrorSample albedo wi = some ⟨⟨-wi.x, -wi.y, wi.z⟩, albedo, 1, 1⟩ := by
  rw [mirrorSample, if_neg hz]

/-- C116, mirror: the reflected direction is reflected back, with the same colour. -/
theorem Bsdf.mirror_reversible (albedo wi : V3 ℝ) (s : Sample) (h : mirrorSample albedo wi = some s) :
    ∃ s', mirrorSample albedo s.wo = some s' ∧ s'.wo = wi ∧ s'.albedo = s.albedo := by
  unfold mirrorSample at h
  split_ifs at h with hz
  obtain rfl := Option.some.inj h
  refine ⟨_, mirror_above _ _ hz, ?_, rfl⟩
  ext <;> simp

/-- C116, null surfaces: light carries straight on with nothing taken from it, and the same is
true of the way back. -/
theorem Bsdf.null_reversible (wi : V3 ℝ) (p q : ℝ) :
    (nullSample wi p).wo = -wi ∧ (nullSample wi p).albedo = ⟨1, 1, 1⟩ ∧
      (nullSample (nullSample wi p).wo q).wo = wi ∧
      (nullSample (nullSample wi p).wo q).albedo = ⟨1, 1, 1⟩ := by
  refine ⟨rfl, rfl, ?_, rfl⟩
  ext <;> simp [nullSample]

theorem Bsdf.back_index {ext int : ℝ} {c d : ℝ} (hcd : c * d < 0) :
    indexFrom d ext int = indexTo c ext int ∧ indexTo d ext int = indexFrom c ext int := by
  unfold indexFrom indexTo
  rcases lt_trichotomy c 0 with h | h | h
  · have hd : ¬ d < 0 := by intro hd; nlinarith
    simp [h, hd]
  · rw [h] at hcd; simp at hcd
  · have hd : d < 0 := by by_contra hd; nlinarith [not_lt.1 hd]
    have : ¬ c < 0 := not_lt.2 h.le
    simp [this, hd]

/-- The direction refracted by glass, spelled out. -/
theorem Bsdf.refracted_eq (eps ext int : ℝ) (albedo wi : V3 ℝ) (u : ℝ)
    (hn : ¬ below u (fresnel wi.z ext int)) (hu : wi.sqrNorm = 1) :
    (dielectricSample eps int ext albedo wi u).wo =
      ⟨-wi.x * (indexFrom wi.z ext int / indexTo wi.z ext int),
        -wi.y * (indexFrom wi.z ext int / indexTo wi.z ext int),
        if wi.z < -eps then SQRT eps (1 - sinToSqr wi.z ext int) else -SQRT eps (1 - sinToSqr wi.z ext int)⟩ := by
  have hs : (V3.smul (⟨-wi.x, -wi.y, 0⟩ : V3 ℝ) (if wi.z < 0 then int / ext else ext / int)).sqrNorm =
      sinToSqr wi.z ext int := by
    simp only [V3.sqrNorm] at hu
    simp only [V3.sqrNorm, V3.smul_x, V3.smul_y, V3.smul_z, sinToSqr, indexFrom, indexTo]
    split_ifs
    · linear_combination int / ext * (int / ext) * hu
    · linear_combination ext / int * (ext / int) * hu
  have he : (if wi.z < 0 then int / ext else ext / int) = indexFrom wi.z ext int / indexTo wi.z ext int := by
    unfold indexFrom indexTo; split_ifs <;> rfl
  simp only [dielectricSample, if_neg hn, hs]
  rw [he]
  split_ifs <;> ext <;> simp

/-- C116, glass: what is reflected or refracted goes back where it came from when it arrives from there with the same
random number, with the same colour and the same reflectance. For refraction both directions have to be further than
`eps` (in squared cosine) from grazing, see `dielectric_unit_refuted`. -/
theorem Bsdf.glass_reversible_partial (eps ext int : ℝ) (heps : 0 < eps) (heps1 : eps < 1) (he : 0 < ext) (hi : 0 < int)
    (albedo wi : V3 ℝ) (h1 : wi.sqrNorm = 1) (u : ℝ)
    (hsteep : below u (fresnel wi.z ext int) ∨ (eps ≤ wi.z * wi.z ∧ eps ≤ 1 - sinToSqr wi.z ext int)) :
    let s := dielectricSample eps int ext albedo wi u
    let back := dielectricSample eps int ext albedo s.wo u
    back.wo = wi ∧ back.albedo = s.albedo ∧ fresnel s.wo.z ext int = fresnel wi.z ext int := by
  intro s back
  by_cases hb : below u (fresnel wi.z ext int)
  · have hs : s.wo = ⟨-wi.x, -wi.y, wi.z⟩ := by
      show (dielectricSample eps int ext albedo wi u).wo = _
      simp only [dielectricSample, if_pos hb]
    have ha : s.albedo = albedo := by
      show (dielectricSample eps int ext albedo wi u).albedo = _
      simp only [dielectricSample, if_pos hb]
    have hb' : below u (fresnel s.wo.z ext int) := by rw [hs]; exact hb
    refine ⟨?_, ?_, by rw [hs]⟩
    · show (dielectricSample eps int ext albedo s.wo u).wo = _
      simp only [dielectricSample, if_pos hb', hs]
      ext <;> simp
    · show (dielectricSample eps int ext albedo s.wo u).albedo = _
      rw [ha]
      simp only [dielectricSample, if_pos hb']
  · obtain ⟨hz, ht⟩ := hsteep.resolve_left hb
    have hfp : 0 < indexFrom wi.z ext int := by unfold indexFrom; split_ifs <;> assumption
    have htp : 0 < indexTo wi.z ext int := by unfold indexTo; split_ifs <;> assumption
    have hsqrt : SQRT eps (1 - sinToSqr wi.z ext int) = Real.sqrt (1 - sinToSqr wi.z ext int) := by
      rw [SQRT, if_neg (not_lt.2 ht)]
    have hse : eps < Real.sqrt eps := by
      rw [Real.lt_sqrt heps.le]; nlinarith
    have hst : eps < Real.sqrt (1 - sinToSqr wi.z ext int) := hse.trans_le (Real.sqrt_le_sqrt ht)
    have habs : eps < |wi.z| := by
      have : Real.sqrt eps ≤ |wi.z| := by
        rw [← Real.sqrt_mul_self_eq_abs]; exact Real.sqrt_le_sqrt hz
      exact hse.trans_le this
    have hs : s.wo = _ := refracted_eq eps ext int albedo wi u hb h1
    rw [hsqrt] at hs
    have hsq : Real.sqrt (1 - sinToSqr wi.z ext int) * Real.sqrt (1 - sinToSqr wi.z ext int) =
        1 - sinToSqr wi.z ext int := Real.mul_self_sqrt (heps.le.trans ht)
    have hwz : s.wo.z * s.wo.z = 1 - sinToSqr wi.z ext int := by
      rw [hs]; simp only; split_ifs
      · exact hsq
      · rw [neg_mul_neg]; exact hsq
    have hopp : wi.z * s.wo.z < 0 := by
      rw [hs]; simp only
      split_ifs with h
      · nlinarith
      · have : 0 < wi.z := by
          rcases lt_abs.1 habs with h' | h'
          · linarith
          · exact absurd (by linarith) h
        nlinarith
    obtain ⟨hf, hto⟩ := back_index (ext := ext) (int := int) hopp
    have hsin : sinToSqr s.wo.z ext int = 1 - wi.z * wi.z := by
      rw [sinToSqr, hf, hto, hwz, sinToSqr]
      field_simp
      ring
    have hfres : fresnel s.wo.z ext int = fresnel wi.z ext int := by
      rw [fresnel_eq _ _ _ he hi, fresnel_eq _ _ _ he hi]
      have h2 : ¬ sinToSqr wi.z ext int > 1 := by intro h; linarith
      have h3 : ¬ sinToSqr s.wo.z ext int > 1 := by rw [hsin]; intro h; linarith
      have h4 : wi.z ≠ 0 := by intro h; rw [h] at hopp; simp at hopp
      have h5 : s.wo.z ≠ 0 := by intro h; rw [h] at hopp; simp at hopp
      rw [if_neg h2, if_neg h3, if_neg h4, if_neg h5]
    have hb' : ¬ below u (fresnel s.wo.z ext int) := by rw [hfres]; exact hb
    have hunit : s.wo.sqrNorm = 1 := by
      have hxy : s.wo.x * s.wo.x + s.wo.y * s.wo.y = sinToSqr wi.z ext int := by
        simp only [V3.sqrNorm] at h1
        rw [hs, sinToSqr]; simp only
        linear_combination (indexFrom wi.z ext int / indexTo wi.z ext int) ^ 2 * h1
      simp only [V3.sqrNorm]
      linarith
    have hback : back.wo = _ := refracted_eq eps ext int albedo s.wo u hb' hunit
    refine ⟨?_, ?_, hfres⟩
    · rw [hback, hsin, hf, hto]
      have hz' : SQRT eps (1 - (1 - wi.z * wi.z)) = |wi.z| := by
        rw [SQRT, if_neg (by linarith), sub_sub_cancel, Real.sqrt_mul_self_eq_abs]
      rw [hz']
      ext
      · rw [hs]; simp only; field_simp
      · rw [hs]; simp only; field_simp
      · simp only
        rcases lt_or_ge wi.z 0 with h | h
        · have hw : 0 < s.wo.z := by by_contra hw; nlinarith [not_lt.1 hw]
          rw [if_neg (by linarith), abs_of_neg h, neg_neg]
        · have : wi.z = |wi.z| := (abs_of_nonneg h).symm
          have hn : ¬ wi.z < -eps := by linarith
          have hw : s.wo.z < -eps := by
            rw [hs]; simp only [if_neg hn]; linarith
          rw [if_pos hw, abs_of_nonneg h]
    · show (dielectricSample eps int ext albedo s.wo u).albedo = (dielectricSample eps int ext albedo wi u).albedo
      simp only [dielectricSample, if_neg hb, if_neg hb']

/-- Light at about 37 degrees from the normal into glass of index 3/2 and back. -/
example :
    let s := dielectricSample (1 / 1000) (3 / 2) 1 ⟨1, 1, 1⟩ ⟨3 / 5, 0, 4 / 5⟩ (1 / 2)
    s.wo.z < 0 ∧ (dielectricSample (1 / 1000) (3 / 2) 1 ⟨1, 1, 1⟩ s.wo (1 / 2)).wo = ⟨3 / 5, 0, 4 / 5⟩ := by
  have hs : sinToSqr (4 / 5) 1 (3 / 2) = 4 / 25 := by norm_num [sinToSqr, indexFrom, indexTo]
  have hn : ¬ below (1 / 2) (fresnel (4 / 5) 1 (3 / 2)) := by
    rw [fresnel_eq _ _ _ one_pos (by norm_num), hs]
    rintro ⟨x, hx, hl⟩
    norm_num at hx
    rw [← hx] at hl
    norm_num at hl
  have h1 : (⟨3 / 5, 0, 4 / 5⟩ : V3 ℝ).sqrNorm = 1 := by norm_num [V3.sqrNorm]
  refine ⟨?_, (glass_reversible_partial (1 / 1000) 1 (3 / 2) (by norm_num) (by norm_num) one_pos (by norm_num) _ _ h1
    (1 / 2) (Or.inr ⟨by norm_num, by show _ ≤ 1 - sinToSqr (4 / 5) 1 (3 / 2); rw [hs]; norm_num⟩)).1⟩
  rw [refracted_eq _ _ _ _ _ _ hn h1]
  simp only [hs]
  rw [if_neg (by norm_num), SQRT, if_neg (by norm_num)]
  exact neg_neg_of_pos (Real.sqrt_pos.2 (by norm_num))

/-- C116 fails for glass near grazing: through glass with the index of its surroundings a direction about half a
degree above the surface leaves along the surface, and what arrives from there stays along the surface. -/
theorem Bsdf.glass_reversible_refuted :
    ∃ wi : V3 ℝ, wi.sqrNorm = 1 ∧ 0 < wi.z ∧
      (dielectricSample (1 / 1000) 1 1 ⟨1, 1, 1⟩ (dielectricSample (1 / 1000) 1 1 ⟨1, 1, 1⟩ wi (1 / 2)).wo
        (1 / 2)).wo.z = 0 := by
  have hf : ∀ c : ℝ, ¬ below (1 / 2) (fresnel c 1 1) := by
    rintro c ⟨x, hx, hl⟩
    rw [fresnel, if_pos rfl] at hx
    rw [← Option.some.inj hx] at hl
    norm_num at hl
  have hq : Real.sqrt (1 - 1 / 10000) * Real.sqrt (1 - 1 / 10000) = 1 - 1 / 10000 :=
    Real.mul_self_sqrt (by norm_num)
  have h1 : (⟨Real.sqrt (1 - 1 / 10000), 0, 1 / 100⟩ : V3 ℝ).sqrNorm = 1 := by
    simp only [V3.sqrNorm]; rw [hq]; norm_num
  have hs : sinToSqr (1 / 100) 1 1 = 1 - 1 / 10000 := by norm_num [sinToSqr, indexFrom, indexTo]
  have hwo : (dielectricSample (1 / 1000) 1 1 ⟨1, 1, 1⟩ ⟨Real.sqrt (1 - 1 / 10000), 0, 1 / 100⟩ (1 / 2)).wo =
      ⟨-Real.sqrt (1 - 1 / 10000), 0, 0⟩ := by
    rw [refracted_eq _ _ _ _ _ _ (hf _) h1]
    simp only [hs]
    rw [if_neg (by norm_num), SQRT, if_pos (by norm_num)]
    ext <;> simp [indexFrom, indexTo]
  refine ⟨⟨Real.sqrt (1 - 1 / 10000), 0, 1 / 100⟩, h1, by norm_num, ?_⟩
  rw [hwo]
  simp only [dielectricSample, if_neg (hf _), V3.sqrNorm, V3.smul_x, V3.smul_y, V3.smul_z]
  have e : (1 : ℝ) - (-(-Real.sqrt (1 - 1 / 10000)) * (if (0 : ℝ) < 0 then 1 / 1 else 1 / 1) *
      (-(-Real.sqrt (1 - 1 / 10000)) * (if (0 : ℝ) < 0 then 1 / 1 else 1 / 1)) +
      -0 * (if (0 : ℝ) < 0 then 1 / 1 else 1 / 1) * (-0 * (if (0 : ℝ) < 0 then 1 / 1 else 1 / 1)) +
      0 * (if (0 : ℝ) < 0 then 1 / 1 else 1 / 1) * (0 * (if (0 : ℝ) < 0 then 1 / 1 else 1 / 1))) = 1 / 10000 := by
    rw [if_neg (lt_irrefl _), neg_neg]
    linear_combination -hq
  have e' : SQRT (1 / 1000) (1 / 10000) = 0 := by rw [SQRT, if_pos (by norm_num)]
  rw [e, e']
  split_ifs <;> simp

/-- C116 fails for one-way glass, as it is meant to: light goes in and does not come back. -/
theorem Bsdf.one_way_reversible_refuted :
    ∃ s back, oneWaySample (1 / 1000) 1 1 ⟨1, 1, 1⟩ ⟨0, 0, 1⟩ (1 / 2) = some s ∧
      oneWaySample (1 / 1000) 1 1 ⟨1, 1, 1⟩ s.wo (1 / 2) = some back ∧ s.wo = ⟨0, 0, -1⟩ ∧ back.wo = ⟨0, 0, -1⟩ := by
  have hf : ∀ c : ℝ, ¬ below (1 / 2) (fresnel c 1 1) := by
    rintro c ⟨x, hx, hl⟩
    rw [fresnel, if_pos rfl] at hx
    rw [← Option.some.inj hx] at hl
    norm_num at hl
  refine ⟨⟨⟨0, 0, -1⟩, ⟨1, 1, 1⟩, 1, 1 / 1⟩, ⟨⟨0, 0, -1⟩, ⟨1, 1, 1⟩, 1, 1⟩, ?_, ?_, rfl, rfl⟩
  · rw [oneWaySample]
    simp only
    rw [if_neg (by rintro (h | h); exact hf _ h; norm_num at h)]
    norm_num [V3.sqrNorm, sqrtF, V3.smul]
    ext <;> simp
  · rw [oneWaySample]
    simp only
    rw [if_pos (Or.inr (by norm_num))]
    simp

/-! ## Media -/

/-- C116, every phase function. -/
theorem Media.phase_reciprocal (p : Media.Phase) (wo wi : V3 ℝ) : p.eval wo wi = p.eval wi wo := by
  have : wo.dot wi = wi.dot wo := by simp only [V3.dot]; ring
  simp only [Media.Phase.eval, this]

/-! ## Visibility -/

namespace Shapes

variable {K : Type} [Field K] [LinearOrder K] [IsStrictOrderedRing K]

/-- The stretch of a ray from `near` to `far`, taken from the point at distance `len` back to its origin. -/
def turned (o d : V3 K) (near far len : K) : Ray K := ⟨o + d.smul len, -d, Ext.fin (len - far), Ext.fin (len - near)⟩

/-- C116, meshes: the faces met on the way back are the faces met on the way there, at the same points. -/
theorem mesh_reversible (m : Mesh K) (o d : V3 K) (near far len : K) (i : ℕ) (u v t : K) :
    m.HitsAt (turned o d near far len) i ⟨u, v, len - t⟩ ↔ m.HitsAt ⟨o, d, Ext.fin near, Ext.fin far⟩ i ⟨u, v, t⟩ := by
  unfold Mesh.HitsAt
  refine exists_congr fun f => exists_congr fun p0 => exists_congr fun p1 => exists_congr fun p2 => ?_
  refine and_congr_right fun _ => and_congr_right fun _ => and_congr_right fun _ => and_congr_right fun _ => ?_
  have hs : Slant p0 p1 p2 (turned o d near far len).dir = -Slant p0 p1 p2 d := by
    simp only [turned, Slant, V3.dot, V3.cross, V3.neg_x, V3.neg_y, V3.neg_z]; ring
  have hp : (turned o d near far len).point (len - t) = (⟨o, d, Ext.fin near, Ext.fin far⟩ : Ray K).point t := by
    ext <;> simp only [Ray.point, turned, V3.add_x, V3.add_y, V3.add_z, V3.smul_x, V3.smul_y, V3.smul_z, V3.neg_x,
      V3.neg_y, V3.neg_z] <;> ring
  rw [hs, abs_neg, hp]
  refine and_congr_right fun _ => and_congr_right fun _ => and_congr_right fun _ => and_congr_right fun _ =>
    and_congr_right fun _ => ?_
  simp only [turned, Ext.fin_le_fin, sub_le_sub_iff_left]
  tauto

/-- C116, visibility: a mesh is in the way from one end exactly if it is from the other. -/
theorem mesh_blocks_reversible (m : Mesh K) (hm : m.WellFormed) (o d : V3 K) (near far len : K) :
    m.intersect (turned o d near far len) = .ok none ↔ m.intersect ⟨o, d, Ext.fin near, Ext.fin far⟩ = .ok none := by
  obtain ⟨a, ha, hna, -⟩ := mesh_closest_hit m hm (turned o d near far len)
  obtain ⟨b, hb, hnb, -⟩ := mesh_closest_hit m hm ⟨o, d, Ext.fin near, Ext.fin far⟩
  rw [ha, hb, Res.ok.injEq, Res.ok.injEq, hna, hnb]
  constructor
  · intro h i g hg
    exact h i ⟨g.u, g.v, len - g.t⟩ ((mesh_reversible m o d near far len i g.u g.v g.t).2 hg)
  · intro h i g hg
    refine h i ⟨g.u, g.v, len - g.t⟩ ((mesh_reversible m o d near far len i g.u g.v (len - g.t)).1 ?_)
    rw [sub_sub_cancel]
    exact hg

/-- A square in the way of a vertical line, from above and from below. -/
example : square.intersect (turned ⟨3 / 4, 1 / 4, 1⟩ ⟨0, 0, -1⟩ (1 / 1000) 2 2) ≠ .ok none := by
  decide +kernel

end Shapes

end Feign
