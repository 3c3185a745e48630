import Verif.Sdf.MarchProps
import Mathlib.Tactic.Linarith
import Mathlib.Tactic.Positivity

/-! # Helper lemmas: the numerical normal where one shape is by far the closest -/

set_option linter.unusedSectionVars false

namespace Feign.Sdf
open Feign.V3

/-- What a reported hit says about the scene at its point. -/
theorem march_hit (fs : List (V3 ℝ → Option ℝ)) (r : Ray ℝ) (far : Ext ℝ) (h : Hit) (n : ℕ) :
    ∀ d, march fs r far n d = .ok (.hit h) →
      ∃ sd, sdEvaluate fs (r.point h.t) = some (sd, h.shape) ∧ sd ≤ eps ∧
        sdNormal fs (r.point h.t) = some h.normal := by
  induction n with
  | zero => intro d hm; simp [march] at hm
  | succ n ih =>
    intro d hm
    unfold march at hm
    by_cases hfar : Ext.fin d ≤ far
    · rw [if_pos hfar] at hm
      dsimp only at hm
      cases he : sdEvaluate fs (r.point d) with
      | none => rw [he] at hm; simp at hm
      | some b =>
        obtain ⟨sd, idx⟩ := b
        rw [he] at hm
        dsimp only at hm
        by_cases hs : sd ≤ eps
        · rw [if_pos hs] at hm
          cases hn : sdNormal fs (r.point d) with
          | none => rw [hn] at hm; simp at hm
          | some nn =>
            rw [hn] at hm
            dsimp only at hm
            split_ifs at hm with hlen
            simp only [Res.ok.injEq, March.hit.injEq] at hm
            subst hm
            exact ⟨sd, he, hs, hn⟩
        · rw [if_neg hs] at hm
          exact ih _ hm
    · rw [if_neg hfar] at hm; simp at hm

/-- If the scene's value is `F` around a point, the normal there is made of the differences of `F`. -/
theorem sdNormal_of_value (fs : List (V3 ℝ → Option ℝ)) (p : V3 ℝ) (F : V3 ℝ → ℝ)
    (hF : ∀ q, dist p q ≤ eps → ∃ j, sdEvaluate fs q = some (F q, j)) (v : V3 ℝ)
    (hx : v.x = F (p + ⟨eps, 0, 0⟩) - F (p - ⟨eps, 0, 0⟩))
    (hy : v.y = F (p + ⟨0, eps, 0⟩) - F (p - ⟨0, eps, 0⟩))
    (hz : v.z = F (p + ⟨0, 0, eps⟩) - F (p - ⟨0, 0, eps⟩)) (hv : v ≠ 0) :
    sdNormal fs p = v.normalized := by
  have he : (0 : ℝ) ≤ eps := by unfold eps; norm_num
  have hd : ∀ e : V3 ℝ, e.norm ≤ eps → sdDiff fs p e = some (F (p + e) - F (p - e)) := by
    intro e hn
    obtain ⟨j, h1⟩ := hF (p + e) (by
      unfold dist
      have : p - (p + e) = -e := by ext <;> simp
      rw [this, norm_neg']; exact hn)
    obtain ⟨k, h2⟩ := hF (p - e) (by
      unfold dist
      have : p - (p - e) = e := by ext <;> simp
      rw [this]; exact hn)
    unfold sdDiff
    rw [h1, h2]
  unfold sdNormal
  rw [hd ⟨eps, 0, 0⟩ (norm_le_of_sq he (by simp [sqrNorm])),
    hd ⟨0, eps, 0⟩ (norm_le_of_sq he (by simp [sqrNorm])),
    hd ⟨0, 0, eps⟩ (norm_le_of_sq he (by simp [sqrNorm])), ← hx, ← hy, ← hz]
  dsimp only
  rw [if_neg]
  rintro ⟨h1, h2, h3⟩
  exact hv (V3.ext h3 (h1 ▸ h3) (h2 ▸ h3))

/-- Where every other shape is at least three tolerances away, the scene's value around a hit is that of
the shape hit. -/
theorem value_around (ss : List Shape) (hw : ∀ s ∈ ss, s.WellFormed) (p : V3 ℝ) (i : ℕ) (sd : ℝ)
    (hev : sdEvaluate (evals ss) p = some (sd, i)) (hsd : sd ≤ eps) (s : Shape)
    (hs : ss[i]? = some s)
    (ha : ∀ j t, j ≠ i → ss[j]? = some t → ∀ q ∈ t.solid, 3 * eps ≤ dist p q) :
    ∃ F : V3 ℝ → ℝ, IsSignedDistance s.solid F ∧ F p ≤ eps ∧ (∀ q, s.eval q = some (F q)) ∧
      ∀ q, dist p q ≤ eps → ∃ j, sdEvaluate (evals ss) q = some (F q, j) := by
  have he : (0 : ℝ) < eps := by unfold eps; norm_num
  obtain ⟨F, hF, hFs⟩ := primitives_exact s (hw s (List.mem_of_getElem? hs))
  have hi : (evals ss)[i]? = some s.eval := by unfold evals; rw [List.getElem?_map, hs]; rfl
  have hFp : F p ≤ eps := by
    obtain ⟨⟨f, hf, hfm⟩, -, -⟩ := (closest_shape (evals ss) p).1 sd i hev
    rw [hi] at hf
    cases hf
    rw [hF p] at hfm
    cases hfm
    exact hsd
  refine ⟨F, hFs, hFp, hF, fun q hq => ?_⟩
  have hFq : F q ≤ 2 * eps := by
    have := hFs.lipschitz p q
    have := abs_le.mp this
    linarith [this.1]
  obtain ⟨m, j, hj⟩ := sdEvaluate_isSome (evals ss) q
    ⟨s.eval, List.mem_of_getElem? hi, by rw [hF q]; simp⟩
  obtain ⟨⟨f, hf, hfm⟩, hle, -⟩ := (closest_shape (evals ss) q).1 m j hj
  refine ⟨j, ?_⟩
  rw [hj]
  have h1 : m ≤ F q := hle s.eval (List.mem_of_getElem? hi) (F q) (hF q)
  by_cases hji : j = i
  · subst hji
    rw [hi] at hf
    cases hf
    rw [hF q] at hfm
    cases hfm
    rfl
  · unfold evals at hf
    rw [List.getElem?_map, Option.map_eq_some_iff] at hf
    obtain ⟨t, ht, rfl⟩ := hf
    obtain ⟨G, hG, hGs⟩ := primitives_exact t (hw t (List.mem_of_getElem? ht))
    rw [hG q] at hfm
    cases hfm
    have hout : 0 < G p := by
      by_contra hc
      have hmem := (hGs.inside_iff p).mp (not_lt.mp hc)
      have := ha j t hji ht p hmem
      rw [dist_self] at this
      linarith
    obtain ⟨x, hx, hd⟩ := hGs.outside_attained p hout
    have h3 := ha j t hji ht x hx
    have := abs_le.mp (hGs.lipschitz p q)
    have h4 : 2 * eps ≤ G q := by linarith [this.2]
    have : G q = F q := le_antisymm h1 (hFq.trans h4)
    rw [this]

/-- A vector close to a unit vector has nearly its direction. -/
theorem normalized_close (v n : V3 ℝ) (hn : n.norm = 1) (δ : ℝ) (hδ : δ < 1)
    (h : (v - n).norm ≤ δ) :
    v ≠ 0 ∧ ∃ u, v.normalized = some u ∧ u.norm = 1 ∧ (u - n).norm ≤ 2 * δ := by
  have hv : v ≠ 0 := by
    rintro rfl
    have : (0 - n : V3 ℝ) = -n := by ext <;> simp
    rw [this, norm_neg', hn] at h
    linarith
  refine ⟨hv, ?_⟩
  obtain ⟨u, hu, h1, h2⟩ := normalized_spec v hv
  have hun : u.norm = 1 := by rw [norm_eq, h1, Real.sqrt_one]
  refine ⟨u, hu, hun, ?_⟩
  have h3 : (u - v).norm = |1 - v.norm| := by
    have : u - v = u.smul (1 - v.norm) := by
      have hx := congrArg V3.x h2
      have hy := congrArg V3.y h2
      have hz := congrArg V3.z h2
      simp only [smul_x, smul_y, smul_z] at hx hy hz
      ext <;> simp only [sub_x, sub_y, sub_z, smul_x, smul_y, smul_z] <;> linarith
    rw [this, norm_smul', hun, one_mul]
  have h4 : |1 - v.norm| ≤ δ := by
    have a1 := norm_sub_norm_le v n
    have a2 := norm_sub_norm_le n v
    rw [norm_sub_comm] at a2
    rw [hn] at a1 a2
    exact abs_le.mpr ⟨by linarith, by linarith⟩
  have := norm_sub_le_add u v n
  linarith

/-- A vector that is a positive multiple of a unit vector has its direction. -/
theorem normalized_exact (n : V3 ℝ) (hn : n.norm = 1) (c : ℝ) (hc : 0 < c) :
    n.smul c ≠ 0 ∧ (n.smul c).normalized = some n := by
  have h1 : (n.smul c).norm = c := by rw [norm_smul', hn, one_mul, abs_of_pos hc]
  refine ⟨fun e => ?_, ?_⟩
  · rw [(norm_eq_zero _).mpr e] at h1
    exact hc.ne h1
  · unfold normalized
    rw [if_neg (by rw [h1]; exact hc.ne'), h1]
    congr 1
    ext <;> simp only [smul_x, smul_y, smul_z] <;> field_simp

/-- Length of a sum of a long vector along `n` and a short one. -/
theorem norm_long (n e : V3 ℝ) (hn : n.norm = 1) (R : ℝ) (hR : 0 < R) :
    (n.smul R + e).norm ≤ R + n.dot e + e.sqrNorm / (2 * R) := by
  have hn2 : n.sqrNorm = 1 := by rw [← norm_sq, hn, one_mul]
  have hexp : (n.smul R + e).sqrNorm = R * R + 2 * R * n.dot e + e.sqrNorm := by
    have : (n.smul R + e).sqrNorm = R * R * n.sqrNorm + 2 * R * n.dot e + e.sqrNorm := by
      simp only [sqrNorm, dot, add_x, add_y, add_z, smul_x, smul_y, smul_z]; ring
    rw [this, hn2, mul_one]
  have h0 := sqrNorm_nonneg (n.smul R + e)
  have hnn : 0 ≤ R + n.dot e + e.sqrNorm / (2 * R) := by
    have hd : R + n.dot e + e.sqrNorm / (2 * R) = (R * R + (n.smul R + e).sqrNorm) / (2 * R) := by
      rw [hexp]; field_simp; ring
    rw [hd]; positivity
  apply norm_le_of_sq hnn
  set T := R + n.dot e + e.sqrNorm / (2 * R) with hT
  have h2 : (n.smul R + e).sqrNorm = 2 * R * T - R * R := by
    rw [hexp, hT]; field_simp; ring
  rw [h2]
  nlinarith [mul_self_nonneg (T - R)]

/-- A disc that touches the slope of a trapezium from inside and stays between its ends lies in it. -/
theorem cone_inner {ra rb L K W ρ t R T : ℝ} (hL : 0 < L) (hK0 : 0 < K)
    (hK : K * K = (rb - ra) * (rb - ra) + L * L) (hwr : W = ra + t * (rb - ra))
    (hlow : ρ ≤ L * t + ρ * ((rb - ra) / K)) (hhigh : L * t + ρ * ((rb - ra) / K) ≤ L - ρ)
    (hle : Real.sqrt ((R - (W - ρ * (L / K))) * (R - (W - ρ * (L / K))) +
      (T - (t + ρ * ((rb - ra) / (K * L)))) * (T - (t + ρ * ((rb - ra) / (K * L)))) * (L * L)) ≤ ρ) :
    0 ≤ T ∧ T ≤ 1 ∧ R ≤ ra + T * (rb - ra) := by
  have k1 : (L / K) * (R - (W - ρ * (L / K))) +
      ((rb - ra) / K) * -(L * (T - (t + ρ * ((rb - ra) / (K * L))))) ≤
      Real.sqrt ((R - (W - ρ * (L / K))) * (R - (W - ρ * (L / K))) +
      -(L * (T - (t + ρ * ((rb - ra) / (K * L))))) * -(L * (T - (t + ρ * ((rb - ra) / (K * L)))))) := by
    apply cs2
    have : L / K * (L / K) + (rb - ra) / K * ((rb - ra) / K) =
        ((rb - ra) * (rb - ra) + L * L) / (K * K) := by field_simp; ring
    rw [this, ← hK, div_self (by positivity)]
  have e2 : (R - (W - ρ * (L / K))) * (R - (W - ρ * (L / K))) +
      -(L * (T - (t + ρ * ((rb - ra) / (K * L))))) * -(L * (T - (t + ρ * ((rb - ra) / (K * L))))) =
      (R - (W - ρ * (L / K))) * (R - (W - ρ * (L / K))) + (T - (t + ρ * ((rb - ra) / (K * L)))) *
        (T - (t + ρ * ((rb - ra) / (K * L)))) * (L * L) := by ring
  rw [e2] at k1
  have hS := k1.trans hle
  have hvert : |L * (T - (t + ρ * ((rb - ra) / (K * L))))| ≤ ρ := by
    refine le_trans ?_ hle
    apply Real.le_sqrt_of_sq_le
    rw [sq_abs]
    have := mul_self_nonneg (R - (W - ρ * (L / K)))
    have e : (L * (T - (t + ρ * ((rb - ra) / (K * L))))) ^ 2 = (T - (t + ρ * ((rb - ra) / (K * L)))) *
        (T - (t + ρ * ((rb - ra) / (K * L)))) * (L * L) := by ring
    rw [e]
    linarith
  have e3 : L * (T - (t + ρ * ((rb - ra) / (K * L)))) = L * T - (L * t + ρ * ((rb - ra) / K)) := by
    field_simp
  rw [e3] at hvert
  obtain ⟨v1, v2⟩ := abs_le.mp hvert
  refine ⟨?_, ?_, ?_⟩
  · by_contra hc
    have := mul_neg_of_pos_of_neg hL (not_le.mp hc)
    linarith
  · by_contra hc
    have := mul_lt_mul_of_pos_left (not_le.mp hc) hL
    linarith
  · rw [e3] at hS
    have e4 : L / K * (R - (W - ρ * (L / K))) +
        (rb - ra) / K * -(L * T - (L * t + ρ * ((rb - ra) / K))) =
        L / K * (R - (W + (T - t) * (rb - ra))) +
          ρ * (((rb - ra) * (rb - ra) + L * L) / (K * K)) := by
      field_simp; ring
    rw [e4, ← hK, div_self (by positivity), mul_one] at hS
    have hpos : 0 < L / K := div_pos hL hK0
    have : R - (W + (T - t) * (rb - ra)) ≤ 0 := by
      by_contra hc
      have := mul_pos hpos (not_le.mp hc)
      linarith
    rw [hwr] at this
    linarith

end Feign.Sdf
