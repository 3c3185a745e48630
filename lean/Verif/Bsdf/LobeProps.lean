import Verif.Bsdf.SpecularProps
import Verif.Sampling.WarpProps
import Verif.Math.FrameProps
import Verif.Math.VecRealLemmas
import Mathlib.Analysis.SpecialFunctions.Integrals.Basic

/-!
# C72, C73: diffuse, Phong and Blinn materials
-/

namespace Feign.Bsdf

open Warp

/-- C72, diffuse. From above, the sampled direction is a unit vector above the surface, its density is the density
of the cosine-weighted hemisphere and positive, evaluating the material in that direction gives the sampled albedo,
and reflectance times cosine over density is exactly the material's colour. From below nothing is reflected. -/
theorem diffuse_consistent (albedo wi : V3 ℝ) (u : V2 ℝ) (hu : InSquare u) :
    (0 < wi.z → ∃ s, diffuseSample albedo wi u = some s ∧ s.wo.sqrNorm = 1 ∧ 0 < s.wo.z ∧
      s.pdf = cosHemiPdf s.wo ∧ 0 < s.pdf ∧ s.albedo = diffuseEval albedo wi s.wo ∧
      s.albedo.smul (s.wo.z / s.pdf) = albedo) ∧
    (wi.z ≤ 0 → diffuseSample albedo wi u = none ∧ ∀ wo, diffuseEval albedo wi wo = 0) := by
  obtain ⟨h1, h2, -⟩ := cosHemi_domain u hu
  have hpi := Real.pi_pos
  constructor
  · intro hz
    have hz' : ¬ wi.z ≤ 0 := not_le.2 hz
    refine ⟨⟨cosHemi u, albedo.smul (1 / Real.pi), 1 / Real.pi * (cosHemi u).z, 1⟩,
      by rw [diffuseSample, if_neg hz'], h1, h2, ?_, ?_, ?_, ?_⟩
    · simp only [cosHemiPdf, gt_iff_lt, if_pos h2]
    · exact mul_pos (div_pos one_pos hpi) h2
    · rw [diffuseEval, if_neg (not_or.2 ⟨hz', not_le.2 h2⟩)]
    · ext <;> simp only [V3.smul_x, V3.smul_y, V3.smul_z] <;> field_simp
  · intro hz
    exact ⟨by rw [diffuseSample, if_pos hz], fun wo => by rw [diffuseEval, if_pos (Or.inl hz)]⟩

example : InSquare ⟨1 / 4, 1 / 2⟩ := by norm_num [InSquare]

/-- C72, Phong. From above the sampled direction is a unit vector, on the upper
side when drawn from the diffuse lobe and within a right angle of the mirror direction when drawn from the specular
lobe; the density reported is the mixture of the two lobes' densities at that direction, in the proportions in which
the lobes are chosen; and the albedo is that of `evaluate` when the direction is not within `eps` of a right angle
from the mirror direction. -/
theorem phong_sample (m : Phong) (eps : ℝ) (wi : V3 ℝ) (h1 : wi.sqrNorm = 1)
    (hz : 0 < wi.z) (u : V2 ℝ) (hu : InSquare u) :
    ∃ s, m.sample eps wi u = some s ∧ s.wo.sqrNorm = 1 ∧
      (m.ks ≤ u.x → 0 < s.wo.z) ∧ (u.x < m.ks → 0 ≤ s.wo.dot (reflect wi)) ∧
      s.pdf = (1 - m.ks) * cosHemiPdf s.wo +
        m.ks * cosPowHemiPdf ⟨0, 0, s.wo.dot (reflect wi)⟩ m.exponent ∧
      (eps ≤ s.wo.dot (reflect wi) → s.albedo = m.eval wi s.wo) := by
  have hwr : (⟨0, 0, 2 * wi.z⟩ : V3 ℝ) - wi = reflect wi := by
    rw [reflect_eq]; ext <;> simp; ring
  obtain ⟨f, hf, hfn, ho, -⟩ := Frame.frame_orthonormal (reflect wi) (reflect_unit h1)
  have hlocal : ∀ v : V3 ℝ, (f.toLocal v).z = v.dot (reflect wi) := by
    intro v; rw [← hfn]; rfl
  have hunit : ∀ v : V3 ℝ, v.sqrNorm = 1 → (f.toWorld v).sqrNorm = 1 := by
    intro v hv
    obtain ⟨ss, tt, nn, st, sn, tn⟩ := ho
    rw [← hv]
    simp only [V3.dot] at ss tt nn st sn tn
    simp only [Frame.toWorld, V3.sqrNorm, V3.add_x, V3.add_y, V3.add_z, V3.smul_x, V3.smul_y, V3.smul_z]
    linear_combination v.x * v.x * ss + v.y * v.y * tt + v.z * v.z * nn + 2 * v.x * v.y * st + 2 * v.x * v.z * sn +
      2 * v.y * v.z * tn
  have hpdf : ∀ a b : V3 ℝ, a.z = b.z → cosPowHemiPdf a m.exponent = cosPowHemiPdf b m.exponent := by
    intro a b h; simp only [cosPowHemiPdf, h]
  have hz' : ¬ wi.z ≤ 0 := not_le.2 hz
  have hcomm : ∀ v : V3 ℝ, (reflect wi).dot v = v.dot (reflect wi) := by
    intro v; simp only [V3.dot]; ring
  refine ⟨_, by rw [Phong.sample, if_neg hz', hwr]; dsimp only; rw [hf]; rfl, ?_, ?_, ?_, ?_, ?_⟩
  · dsimp only
    obtain ⟨hx0, hx1, hy0, hy1⟩ := hu
    split_ifs with h
    · have hks : 0 < m.ks := lt_of_le_of_lt hx0 h
      exact hunit _ (cosPowHemi_domain_partial ⟨u.x / m.ks, u.y⟩ ⟨div_nonneg hx0 hks.le, (div_lt_one hks).2 h, hy0, hy1⟩ _
        (by have : (0 : ℝ) ≤ m.exponent := Nat.cast_nonneg _
            linarith)).1
    · have hle := not_lt.1 h
      have hpos : 0 < 1 - m.ks := by linarith
      exact (cosHemi_domain ⟨(u.x - m.ks) / (1 - m.ks), u.y⟩
        ⟨div_nonneg (by linarith) hpos.le, (div_lt_one hpos).2 (by linarith), hy0, hy1⟩).1
  · intro hle
    dsimp only
    rw [if_neg (not_lt.2 hle)]
    obtain ⟨hx0, hx1, hy0, hy1⟩ := hu
    have hpos : 0 < 1 - m.ks := by linarith
    exact (cosHemi_domain ⟨(u.x - m.ks) / (1 - m.ks), u.y⟩
        ⟨div_nonneg (by linarith) hpos.le, (div_lt_one hpos).2 (by linarith), hy0, hy1⟩).2.1
  · intro hlt
    dsimp only
    rw [if_pos hlt, ← hlocal, Frame.toLocal_toWorld f ho]
    obtain ⟨hx0, hx1, hy0, hy1⟩ := hu
    exact Real.rpow_nonneg hy0 _
  · dsimp only
    congr 2
    exact hpdf _ _ (hlocal _)
  · intro he
    dsimp only at he ⊢
    rw [Phong.eval, hwr, hcomm, max_eq_left he]

/-- C73 fails: a Phong surface lit at a shallow angle scatters light into its own inside, with positive density and
positive reflectance, and evaluating it between the two sides is not zero either. -/
theorem phong_leaks_refuted :
    ∃ wi : V3 ℝ, wi.sqrNorm = 1 ∧ 0 < wi.z ∧ ∃ u, InSquare u ∧
      ∃ s, (Phong.make 0 (1 / 2) 1).sample (1 / 1000) wi u = some s ∧
        s.wo.z < 0 ∧ 0 < s.pdf ∧ 0 < s.albedo.x ∧ 0 < ((Phong.make 0 (1 / 2) 1).eval wi s.wo).x := by
  have hpi := Real.pi_pos
  refine ⟨⟨24 / 25, 0, 7 / 25⟩, by norm_num [V3.sqrNorm], by norm_num, ⟨3 / 8, 9 / 25⟩, by norm_num [InSquare], ?_⟩
  obtain ⟨s, hs, hunit, -, -, hpdf, halb⟩ := phong_sample (Phong.make 0 (1 / 2) 1) (1 / 1000)
    ⟨24 / 25, 0, 7 / 25⟩ (by norm_num [V3.sqrNorm])
    (by norm_num) ⟨3 / 8, 9 / 25⟩ (by norm_num [InSquare])
  have hwr : (⟨0, 0, 2 * (7 / 25)⟩ : V3 ℝ) - ⟨24 / 25, 0, 7 / 25⟩ = ⟨-(24 / 25), 0, 7 / 25⟩ := by
    ext <;> simp; norm_num
  have hl : Real.sqrt (-(24 / 25) * -(24 / 25) + 7 / 25 * (7 / 25)) = 1 := by
    rw [show (-(24 / 25) * -(24 / 25) + 7 / 25 * (7 / 25) : ℝ) = 1 by norm_num]; exact Real.sqrt_one
  have hf : Frame.ofNormal ⟨-(24 / 25), 0, 7 / 25⟩ =
      some ⟨⟨0, -1, 0⟩, ⟨7 / 25, 0, 24 / 25⟩, ⟨-(24 / 25), 0, 7 / 25⟩⟩ := by
    have habs : |(-(24 / 25) : ℝ)| > |(0 : ℝ)| := by norm_num
    simp only [Frame.ofNormal, Frame.coordinateSystem, if_pos habs, hl]
    norm_num [V3.cross]
  have hc : (9 / 25 : ℝ) ^ (1 / (((1 : ℕ) : ℝ) + 1)) = 3 / 5 := by
    rw [show (9 / 25 : ℝ) = (3 / 5) ^ (2 : ℝ) by norm_num, ← Real.rpow_mul (by norm_num)]
    norm_num
  have hr : Real.sqrt (max 0 (1 - 3 / 5 * (3 / 5))) = 4 / 5 := by
    rw [show max (0 : ℝ) (1 - 3 / 5 * (3 / 5)) = (4 / 5) ^ 2 by norm_num]
    exact Real.sqrt_sq (by norm_num)
  have hang : (2 * Real.pi * (3 / 8 / (1 / 2)) : ℝ) = Real.pi + Real.pi / 2 := by ring
  have hsin : Real.sin (2 * Real.pi * (3 / 8 / (1 / 2))) = -1 := by
    rw [hang, Real.sin_add]; simp
  have hcos : Real.cos (2 * Real.pi * (3 / 8 / (1 / 2))) = 0 := by
    rw [hang, Real.cos_add]; simp
  have hlobe : cosPowHemi ⟨3 / 8 / (1 / 2), 9 / 25⟩ ((1 : ℕ) : ℝ) = ⟨0, -(4 / 5), 3 / 5⟩ := by
    simp only [cosPowHemi, hc, hr, hsin, hcos]
    norm_num
  have hwo : s.wo = ⟨-(7 / 25 * (4 / 5)) - 24 / 25 * (3 / 5), 0, -(24 / 25 * (4 / 5)) + 7 / 25 * (3 / 5)⟩ := by
    rw [Phong.sample, if_neg (by norm_num), hwr] at hs
    dsimp only at hs
    rw [hf] at hs
    obtain rfl := Option.some.inj hs
    have hlt : (3 / 8 : ℝ) < 1 / 2 := by norm_num
    simp only [Phong.make, if_pos hlt, hlobe]
    ext <;> simp [Frame.toWorld]
    ring
  have hdot : s.wo.dot (reflect ⟨24 / 25, 0, 7 / 25⟩) = 3 / 5 := by
    rw [reflect_eq, hwo]; norm_num [V3.dot]
  have heval : 0 < ((Phong.make 0 (1 / 2) 1).eval ⟨24 / 25, 0, 7 / 25⟩ s.wo).x := by
    have hd : s.wo.dot (⟨0, 0, 2 * (7 / 25)⟩ - ⟨24 / 25, 0, 7 / 25⟩) = 3 / 5 := by
      rw [hwr, hwo]; norm_num [V3.dot]
    simp only [Phong.eval, hd, Phong.make, V3.add_x, V3.smul_x, V3.zero_x, zero_mul, zero_add]
    positivity
  refine ⟨s, hs, by rw [hwo]; norm_num, ?_, ?_, heval⟩
  · rw [hpdf, hdot]
    have hz : ¬ s.wo.z > 0 := by rw [hwo]; norm_num
    have h35 : (3 / 5 : ℝ) > 0 := by norm_num
    simp only [cosHemiPdf, if_neg hz, cosPowHemiPdf, if_pos h35, Phong.make]
    positivity
  · rw [halb (by rw [hdot]; norm_num)]
    exact heval

/-- The share of light arriving along the normal that a material with reflectance `f` (a function of the outgoing
direction's height, being the same all the way round) sends back out of the surface: the integral of `f` times the
cosine over the hemisphere. -/
noncomputable def returned (f : ℝ → ℝ) : ℝ := ∫ z in (0 : ℝ)..1, 2 * Real.pi * (f z * z)

/-- C73, diffuse: exactly its colour is returned. -/
theorem diffuse_energy (albedo : V3 ℝ) :
    returned (fun z => if 0 < z then (diffuseEval albedo ⟨0, 0, 1⟩ ⟨Real.sqrt (1 - z ^ 2), 0, z⟩).x else 0) =
      albedo.x := by
  have hpi := Real.pi_pos
  have : returned (fun z => if 0 < z then (diffuseEval albedo ⟨0, 0, 1⟩ ⟨Real.sqrt (1 - z ^ 2), 0, z⟩).x else 0) =
      ∫ z in (0 : ℝ)..1, 2 * albedo.x * z := by
    unfold returned
    apply intervalIntegral.integral_congr
    intro z hz
    rw [Set.uIcc_of_le zero_le_one] at hz
    simp only
    split_ifs with h
    · rw [diffuseEval, if_neg (by simp; exact h)]
      simp only [V3.smul_x]
      field_simp
    · have : z = 0 := le_antisymm (not_lt.1 h) hz.1
      subst this; ring
  rw [this, intervalIntegral.integral_const_mul, integral_id]
  ring

/-- C73 fails: a Phong surface returns the sum of its two shares, whatever the constructor's rescaling of the
specular share was meant to do; with a white diffuse and a full specular share that is twice the light received. -/
theorem phong_energy_refuted (kd : V3 ℝ) (ks : ℝ) (n : ℕ) :
    returned (fun z => ((Phong.make kd ks n).eval ⟨0, 0, 1⟩ ⟨Real.sqrt (1 - z ^ 2), 0, z⟩).x) = kd.x + ks ∧
    returned (fun z => ((Phong.make ⟨1, 1, 1⟩ 1 n).eval ⟨0, 0, 1⟩ ⟨Real.sqrt (1 - z ^ 2), 0, z⟩).x) = 2 := by
  have hpi := Real.pi_pos
  have key : ∀ (kd : V3 ℝ) (ks : ℝ),
      returned (fun z => ((Phong.make kd ks n).eval ⟨0, 0, 1⟩ ⟨Real.sqrt (1 - z ^ 2), 0, z⟩).x) = kd.x + ks := by
    intro kd ks
    have : returned (fun z => ((Phong.make kd ks n).eval ⟨0, 0, 1⟩ ⟨Real.sqrt (1 - z ^ 2), 0, z⟩).x) =
        ∫ z in (0 : ℝ)..1, (2 * kd.x * z + ks * (n + 2) * z ^ (n + 1)) := by
      unfold returned
      apply intervalIntegral.integral_congr
      intro z _
      simp only [Phong.eval, Phong.make, V3.add_x, V3.smul_x, V3.dot, V3.sub_x, V3.sub_y, V3.sub_z]
      have : (0 - 0) * Real.sqrt (1 - z ^ 2) + (0 - 0) * 0 + (2 * 1 - 1) * z = z := by ring
      rw [this, pow_succ]
      field_simp
    rw [this, intervalIntegral.integral_add, intervalIntegral.integral_const_mul,
      intervalIntegral.integral_const_mul, integral_id, integral_pow]
    · have : ((n : ℝ) + 2) ≠ 0 := by positivity
      push_cast
      rw [show (n : ℝ) + 1 + 1 = n + 2 by ring]
      field_simp
      simp
    · exact (continuous_const.mul continuous_id).intervalIntegrable _ _
    · exact (continuous_const.mul (continuous_pow _)).intervalIntegrable _ _
  refine ⟨key kd ks, ?_⟩
  rw [key]
  norm_num

/-- C72 fails for Blinn: without a specular share the direction is drawn from the cosine-weighted hemisphere, and
still the density reported is not that hemisphere's density. -/
theorem blinn_density_refuted :
    ∃ wi : V3 ℝ, wi.sqrNorm = 1 ∧ 0 < wi.z ∧ ∃ u, InSquare u ∧
      ∃ s, blinnSample 0 0 1 (1 / 1000) 1 wi u = some s ∧ s.wo = cosHemi u ∧
        cosHemiPdf s.wo = 1 / Real.pi ∧ s.pdf = 4 / (5 * Real.pi) := by
  refine ⟨⟨24 / 25, 0, 7 / 25⟩, by norm_num [V3.sqrNorm], by norm_num, ⟨0, 0⟩, by norm_num [InSquare], ?_⟩
  have hwo : cosHemi ⟨0, 0⟩ = ⟨0, 0, 1⟩ := by
    simp [cosHemi, uniDisk]
  have hsum : (⟨24 / 25, 0, 7 / 25⟩ : V3 ℝ) + ⟨0, 0, 1⟩ = ⟨24 / 25, 0, 32 / 25⟩ := by
    ext <;> simp; norm_num
  have hnorm : V3.norm ⟨24 / 25, 0, 32 / 25⟩ = 8 / 5 := by
    unfold V3.norm
    rw [show (24 / 25 * (24 / 25) + 0 * 0 + 32 / 25 * (32 / 25) : ℝ) = (8 / 5) ^ 2 by norm_num]
    exact Real.sqrt_sq (by norm_num)
  have hnz : V3.normalized ⟨24 / 25, 0, 32 / 25⟩ = some ⟨3 / 5, 0, 4 / 5⟩ := by
    unfold V3.normalized
    rw [hnorm, if_neg (by norm_num)]
    norm_num
  obtain ⟨f, hf, hfn, -, -⟩ := Frame.frame_orthonormal ⟨3 / 5, 0, 4 / 5⟩ (by norm_num [V3.sqrNorm])
  have hmax : (0 : V3 ℝ).maxValue = 0 := by simp [V3.maxValue]
  have hval : (f.toLocal ⟨0, 0, 1⟩).z = 4 / 5 := by
    simp [Frame.toLocal, hfn, V3.dot]
  have hz : ¬ (7 / 25 : ℝ) ≤ 0 := by norm_num
  refine ⟨⟨⟨0, 0, 1⟩, 0, 4 / (5 * Real.pi), 1⟩, ?_, hwo.symm, ?_, rfl⟩
  · have hn : ¬ (8 / 5 : ℝ) < 1 / 1000 := by norm_num
    simp only [blinnSample, if_neg hz, hmax, lt_irrefl, if_false, sub_zero, div_one, hwo, hsum, hnorm, if_neg hn,
      hnz, hf, Option.map_some, cosHemiPdf, hval]
    congr 2
    · ext <;> simp
    · rw [if_pos (by norm_num)]
      have := Real.pi_pos
      field_simp
      ring
  · simp [cosHemiPdf]

/-- C72, Blinn: what holds. Whenever a direction is sampled, the material is lit from its front and the reflectance
reported is what evaluation returns for that direction. -/
theorem blinn_albedo (kd ks : V3 ℝ) (n : ℕ) (eps eta0 : ℝ) (wi : V3 ℝ) (u : V2 ℝ) (s : Sample)
    (h : blinnSample kd ks n eps eta0 wi u = some s) : 0 < wi.z ∧ blinnEval kd ks n wi s.wo = some s.albedo := by
  have hz : ¬ wi.z ≤ 0 := by
    intro hz
    rw [blinnSample, if_pos hz] at h
    exact absurd h (by simp)
  refine ⟨not_le.1 hz, ?_⟩
  rw [blinnSample, if_neg hz] at h
  dsimp only at h
  generalize (if u.x < ks.maxValue then ((cosPowHemi ⟨u.x / ks.maxValue, u.y⟩ n).smul 2).smul
    ((cosPowHemi ⟨u.x / ks.maxValue, u.y⟩ n).dot wi) - wi
    else cosHemi ⟨(u.x - ks.maxValue) / (1 - ks.maxValue), u.y⟩) = wo at h
  by_cases hn : (wi + wo).norm < eps
  · rw [if_pos hn] at h
    exact absurd h (by simp)
  · rw [if_neg hn] at h
    have hc : wo + wi = wi + wo := by
      ext
      · simp only [V3.add_x]; ring
      · simp only [V3.add_y]; ring
      · simp only [V3.add_z]; ring
    cases hw : (wi + wo).normalized with
    | none => rw [hw] at h; exact absurd h (by simp)
    | some wh =>
      rw [hw] at h
      obtain ⟨f, -, hf⟩ := Option.map_eq_some_iff.1 h
      rw [← hf]
      simp only [blinnEval, if_neg hz, hc, hw]

/-- The density Blinn reports: both lobes are computed from the cosine `c` between the sampled direction and the half
vector, where the diffuse lobe should use the normal and the specular lobe the angle between normal and half vector. -/
theorem blinn_density (kd ks : V3 ℝ) (n : ℕ) (eps eta0 : ℝ) (wi : V3 ℝ) (u : V2 ℝ) (s : Sample)
    (h : blinnSample kd ks n eps eta0 wi u = some s) :
    ∃ wh : V3 ℝ, (wi + s.wo).normalized = some wh ∧ (0 < wh.dot s.wo →
      s.pdf = (1 - ks.maxValue) * (wh.dot s.wo / Real.pi) +
        ks.maxValue * ((n + 1) / (2 * Real.pi) * (wh.dot s.wo) ^ n) / (4 * max (wh.dot s.wo) eps)) := by
  have hz : ¬ wi.z ≤ 0 := not_le.2 (blinn_albedo kd ks n eps eta0 wi u s h).1
  rw [blinnSample, if_neg hz] at h
  dsimp only at h
  generalize (if u.x < ks.maxValue then ((cosPowHemi ⟨u.x / ks.maxValue, u.y⟩ n).smul 2).smul
    ((cosPowHemi ⟨u.x / ks.maxValue, u.y⟩ n).dot wi) - wi
    else cosHemi ⟨(u.x - ks.maxValue) / (1 - ks.maxValue), u.y⟩) = wo at h
  by_cases hn : (wi + wo).norm < eps
  · rw [if_pos hn] at h
    exact absurd h (by simp)
  · rw [if_neg hn] at h
    cases hw : (wi + wo).normalized with
    | none => rw [hw] at h; exact absurd h (by simp)
    | some wh =>
      rw [hw] at h
      obtain ⟨f, hfr, hf⟩ := Option.map_eq_some_iff.1 h
      have hfn : f.n = wh := by
        unfold Frame.ofNormal at hfr
        obtain ⟨bc, -, hbc⟩ := Option.map_eq_some_iff.1 hfr
        rw [← hbc]
      rw [← hf]
      refine ⟨wh, hw, fun hc => ?_⟩
      have hval : (f.toLocal wo).z = wh.dot wo := by
        simp only [Frame.toLocal, hfn, V3.dot]
        ring
      simp only [cosHemiPdf, cosPowHemiPdf, hval, gt_iff_lt, if_pos hc, Real.rpow_natCast]
      ring

/-- Blinn's reflectance: the diffuse colour over π, and the specular colour times the power of the cosine between the
normal and the half vector. -/
theorem blinn_value (kd ks : V3 ℝ) (n : ℕ) (wi wo : V3 ℝ) (hz : 0 < wi.z) (h : 0 < (wo + wi).norm) :
    blinnEval kd ks n wi wo = some (kd.smul (1 / Real.pi) +
      ks.smul ((n + 2) / (2 * Real.pi) * (max ((wi.z + wo.z) / (wo + wi).norm) 0) ^ n)) := by
  simp only [blinnEval, if_neg (not_le.2 hz), V3.normalized, if_neg h.ne']
  congr 3
  rw [V3.add_z]
  ring_nf

example : 0 < ((⟨0, 0, 1⟩ : V3 ℝ) + ⟨0, 0, 1⟩).norm := by
  unfold V3.norm
  apply Real.sqrt_pos.2
  norm_num

/-- C73 fails for Blinn as well: `evaluate` does not look at the side of the outgoing direction. -/
theorem blinn_leaks_refuted :
    ∃ wi wo : V3 ℝ, wi.sqrNorm = 1 ∧ wo.sqrNorm = 1 ∧ 0 < wi.z ∧ wo.z < 0 ∧
      ∃ c, blinnEval ⟨1, 1, 1⟩ 0 1 wi wo = some c ∧ 0 < c.x := by
  refine ⟨⟨3 / 5, 0, 4 / 5⟩, ⟨4 / 5, 0, -(3 / 5)⟩, by norm_num [V3.sqrNorm], by norm_num [V3.sqrNorm], by norm_num,
    by norm_num, ?_⟩
  have hz : ¬ (4 / 5 : ℝ) ≤ 0 := by norm_num
  have hpi := Real.pi_pos
  cases h : V3.normalized ((⟨4 / 5, 0, -(3 / 5)⟩ : V3 ℝ) + ⟨3 / 5, 0, 4 / 5⟩) with
  | none =>
    rw [V3.normalized_eq_none] at h
    have := congrArg V3.x h
    norm_num at this
  | some wh =>
    refine ⟨_, by simp only [blinnEval, if_neg hz, h]; rfl, ?_⟩
    simp only [V3.add_x, V3.smul_x, V3.zero_x, zero_mul, add_zero, one_mul]
    positivity

end Feign.Bsdf
