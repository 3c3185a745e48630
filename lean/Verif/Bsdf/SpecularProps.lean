import Verif.Bsdf.Model
import Mathlib.Tactic.Linarith
import Mathlib.Tactic.FieldSimp
import Mathlib.Tactic.Ring
import Mathlib.Tactic.NormNum
import Mathlib.Tactic.LinearCombination
import Mathlib.Tactic.Positivity

/-!
# C41, C42: mirror, glass and the Fresnel reflectance
-/

namespace Feign.Bsdf

/-- The local surface normal. -/
def normal : V3 ℝ := ⟨0, 0, 1⟩

/-- Mirror image of `wi` about the normal: the law of reflection. -/
def reflect (wi : V3 ℝ) : V3 ℝ := normal.smul (2 * wi.dot normal) - wi

/-- Squared sine of the angle with the normal, for a unit vector. -/
def sinSqr (v : V3 ℝ) : ℝ := v.x * v.x + v.y * v.y

theorem reflect_eq (wi : V3 ℝ) : reflect wi = ⟨-wi.x, -wi.y, wi.z⟩ := by
  ext <;> simp [reflect, normal, V3.dot]
  ring

theorem reflect_unit {wi : V3 ℝ} (h : wi.sqrNorm = 1) : (reflect wi).sqrNorm = 1 := by
  rw [reflect_eq, ← h]
  simp only [V3.sqrNorm]
  ring

/-- C41, mirror: a direction on the upper side is reflected about the normal and stays a unit vector on the upper
side; nothing is reflected on the lower side. -/
theorem mirror_law (albedo wi : V3 ℝ) (h : wi.sqrNorm = 1) :
    (0 < wi.z → ∃ s, mirrorSample albedo wi = some s ∧ s.wo = reflect wi ∧ s.wo.sqrNorm = 1 ∧ 0 < s.wo.z ∧
      s.albedo = albedo ∧ s.pdf = 1 ∧ mirrorEval albedo wi = s.albedo) ∧
    (wi.z ≤ 0 → mirrorSample albedo wi = none ∧ mirrorEval albedo wi = 0) := by
  constructor
  · intro hz
    have hz' : ¬ wi.z ≤ 0 := not_le.2 hz
    refine ⟨_, by rw [mirrorSample, if_neg hz'], (reflect_eq wi).symm, ?_, hz, rfl, rfl, ?_⟩
    · have := reflect_unit h
      rwa [reflect_eq] at this
    · rw [mirrorEval, if_neg hz']
  · intro hz
    exact ⟨by rw [mirrorSample, if_pos hz], by rw [mirrorEval, if_pos hz]⟩

example : (⟨3 / 5, 0, 4 / 5⟩ : V3 ℝ).sqrNorm = 1 ∧ 0 < (⟨3 / 5, 0, 4 / 5⟩ : V3 ℝ).z := by
  norm_num [V3.sqrNorm]

/-! ## Fresnel -/

/-- The side the light comes from and the other side: the indices of refraction. -/
noncomputable def indexFrom (c ext int : ℝ) : ℝ := if c < 0 then int else ext
noncomputable def indexTo (c ext int : ℝ) : ℝ := if c < 0 then ext else int

/-- Squared sine of the refracted direction by Snell's law. -/
noncomputable def sinToSqr (c ext int : ℝ) : ℝ :=
  (indexFrom c ext int / indexTo c ext int) * (indexFrom c ext int / indexTo c ext int) * (1 - c * c)

/-- The Fresnel equations for unpolarised light. -/
noncomputable def fresnelSpec (c ext int : ℝ) : ℝ :=
  let cosI := |c|
  let cosT := Real.sqrt (1 - sinToSqr c ext int)
  let nI := indexFrom c ext int
  let nT := indexTo c ext int
  let rs := (nI * cosI - nT * cosT) / (nI * cosI + nT * cosT)
  let rp := (nT * cosI - nI * cosT) / (nT * cosI + nI * cosT)
  (rs * rs + rp * rp) / 2

/-- What the code computes: equal indices, total reflection, grazing (not a number), and otherwise the reflectance
for light along the normal, whatever the angle. -/
theorem fresnel_eq (c ext int : ℝ) (he : 0 < ext) (hi : 0 < int) :
    fresnel c ext int =
      if ext = int then some 0
      else if sinToSqr c ext int > 1 then some 1
      else if c = 0 then none
      else some (((ext - int) / (ext + int)) ^ 2) := by
  unfold fresnel
  by_cases hei : ext = int
  · rw [if_pos hei, if_pos hei]
  · rw [if_neg hei, if_neg hei]
    have hto : 0 < indexTo c ext int := by unfold indexTo; split_ifs <;> assumption
    have hfrom : 0 < indexFrom c ext int := by unfold indexFrom; split_ifs <;> assumption
    have hsame : (if c < 0 then int else ext) = indexFrom c ext int := rfl
    have hsame' : (if c < 0 then ext else int) = indexTo c ext int := rfl
    simp only [hsame, hsame']
    have habs : (if c < 0 then -c else c) * (if c < 0 then -c else c) = c * c := by
      split_ifs <;> ring
    have hc0 : (if c < 0 then -c else c) = 0 ↔ c = 0 := by split_ifs <;> simp
    generalize (if c < 0 then -c else c) = d at habs hc0 ⊢
    rw [if_neg hto.ne', habs]
    have hs : indexFrom c ext int / indexTo c ext int * (indexFrom c ext int / indexTo c ext int) * (1 - c * c) =
        sinToSqr c ext int := rfl
    rw [hs]
    by_cases ht : sinToSqr c ext int > 1
    · rw [if_pos ht, if_pos ht]
    · rw [if_neg ht, if_neg ht]
      by_cases hc : c = 0
      · have hd := hc0.2 hc
        rw [if_pos hc, hd]; simp
      · have hd : d ≠ 0 := fun h => hc (hc0.1 h)
        have hsum : indexFrom c ext int + indexTo c ext int = ext + int := by
          unfold indexFrom indexTo; split_ifs <;> ring
        have hne : indexFrom c ext int + indexTo c ext int ≠ 0 := by positivity
        have hsq : (indexFrom c ext int - indexTo c ext int) ^ 2 = (ext - int) ^ 2 := by
          unfold indexFrom indexTo; split_ifs <;> ring
        rw [if_neg hc, if_neg (by rw [← add_mul]; exact mul_ne_zero hne hd)]
        congr 1
        rw [← sub_mul, ← sub_mul, ← add_mul, ← add_mul, mul_div_mul_right _ _ hd, mul_div_mul_right _ _ hd,
          add_comm (indexTo c ext int), div_pow, ← hsq, ← hsum]
        field_simp
        ring

/-- C42, the part that holds: whenever the reflectance is a number it is in `[0, 1]`; it is 1 under total internal
reflection and 0 for equal indices; along the normal it follows the Fresnel equations. -/
theorem fresnel_partial (c ext int : ℝ) (he : 0 < ext) (hi : 0 < int) :
    (∀ p, fresnel c ext int = some p → 0 ≤ p ∧ p ≤ 1) ∧
    (ext ≠ int → 1 < sinToSqr c ext int → fresnel c ext int = some 1) ∧
    (ext = int → fresnel c ext int = some 0) ∧
    (c = 1 ∨ c = -1 → fresnel c ext int = some (fresnelSpec c ext int)) := by
  rw [fresnel_eq c ext int he hi]
  refine ⟨?_, ?_, ?_, ?_⟩
  · intro p hp
    split_ifs at hp with h1 h2 h3
    · obtain rfl := Option.some.inj hp; norm_num
    · obtain rfl := Option.some.inj hp; norm_num
    · obtain rfl := Option.some.inj hp
      refine ⟨sq_nonneg _, ?_⟩
      rw [sq_le_one_iff_abs_le_one, abs_div, abs_of_pos (add_pos he hi), div_le_one (add_pos he hi), abs_le]
      constructor <;> linarith
  · intro h1 h2
    rw [if_neg h1, if_pos h2]
  · intro h; rw [if_pos h]
  · intro hc
    have hcc : c * c = 1 := by rcases hc with rfl | rfl <;> norm_num
    have hs : sinToSqr c ext int = 0 := by simp [sinToSqr, hcc]
    have hab : |c| = 1 := by rcases hc with rfl | rfl <;> norm_num
    have hc0 : c ≠ 0 := by rcases hc with rfl | rfl <;> norm_num
    have hne : ext + int ≠ 0 := by positivity
    have hspec : fresnelSpec c ext int = ((ext - int) / (ext + int)) ^ 2 := by
      simp only [fresnelSpec, hs, hab, sub_zero, Real.sqrt_one, mul_one]
      unfold indexFrom indexTo
      split_ifs
      · rw [add_comm int ext]; field_simp; ring
      · rw [add_comm int ext]; field_simp; ring
    by_cases h : ext = int
    · rw [if_pos h, hspec, h]; simp
    · rw [if_neg h, hs, if_neg (by norm_num), if_neg hc0, hspec]

/-- C42 fails: the reflectance does not depend on the angle. Below total reflection, any two directions that are not
grazing have the same reflectance. -/
theorem fresnel_angle_refuted (ext int : ℝ) (he : 0 < ext) (hi : 0 < int) (c d : ℝ) (hc : c ≠ 0) (hd : d ≠ 0)
    (htc : sinToSqr c ext int ≤ 1) (htd : sinToSqr d ext int ≤ 1) : fresnel c ext int = fresnel d ext int := by
  rw [fresnel_eq c ext int he hi, fresnel_eq d ext int he hi, if_neg (not_lt.2 htc), if_neg (not_lt.2 htd),
    if_neg hc, if_neg hd]

/-- C42 fails: air to glass of index 4/3 at Brewster's angle, where the Fresnel equations give 49/1250 and the code
1/49. -/
theorem fresnel_value_refuted :
    fresnel (3 / 5) 1 (4 / 3) = some (1 / 49) ∧ fresnelSpec (3 / 5) 1 (4 / 3) = 49 / 1250 := by
  have hs : sinToSqr (3 / 5) 1 (4 / 3) = 9 / 25 := by
    norm_num [sinToSqr, indexFrom, indexTo]
  constructor
  · rw [fresnel_eq _ _ _ (by norm_num) (by norm_num), hs]
    norm_num
  · have hr : Real.sqrt (1 - 9 / 25) = 4 / 5 := by
      rw [show (1 : ℝ) - 9 / 25 = (4 / 5) ^ 2 by norm_num]
      exact Real.sqrt_sq (by norm_num)
    simp only [fresnelSpec, hs, hr]
    norm_num [indexFrom, indexTo, abs_of_pos]

/-- C42 fails at grazing incidence: the reflectance, which should be 1, is not a number. -/
theorem fresnel_grazing_refuted (ext int : ℝ) (he : 0 < ext) (hi : 0 < int) (h : ext < int) :
    fresnel 0 ext int = none ∧ fresnelSpec 0 ext int = 1 := by
  have hs : sinToSqr 0 ext int < 1 := by
    simp only [sinToSqr, indexFrom, indexTo, lt_irrefl, if_false, mul_zero, sub_zero, mul_one]
    have h1 : ext / int < 1 := (div_lt_one hi).2 h
    have h0 : 0 < ext / int := div_pos he hi
    nlinarith
  constructor
  · rw [fresnel_eq _ _ _ he hi, if_neg h.ne, if_neg (not_lt.2 hs.le), if_pos rfl]
  · have hsq : 0 < Real.sqrt (1 - sinToSqr 0 ext int) := Real.sqrt_pos.2 (by linarith)
    simp only [fresnelSpec, indexFrom, indexTo, lt_irrefl, if_false, abs_zero, mul_zero, zero_sub, zero_add]
    rw [neg_div, neg_div, div_self (by positivity), div_self (by positivity)]
    norm_num

example : sinToSqr (1 / 2) (3 / 2) 1 > 1 ∧ sinToSqr (3 / 5) 1 (4 / 3) ≤ 1 := by
  constructor <;> norm_num [sinToSqr, indexFrom, indexTo]

/-! ## Glass -/

theorem below_fresnel_of_total {c ext int u : ℝ} (he : 0 < ext) (hi : 0 < int) (hne : ext ≠ int) (hu : u < 1)
    (h : 1 < sinToSqr c ext int) : below u (fresnel c ext int) :=
  ⟨1, (fresnel_partial c ext int he hi).2.1 hne h, hu⟩

/-- Light that is refracted is not totally reflected. -/
theorem refracts_sin_le {c ext int u : ℝ} (he : 0 < ext) (hi : 0 < int) (hu : u < 1)
    (h : ¬ below u (fresnel c ext int)) : sinToSqr c ext int ≤ 1 := by
  by_cases hne : ext = int
  · subst hne
    have : indexFrom c ext ext = ext ∧ indexTo c ext ext = ext := by
      unfold indexFrom indexTo; split_ifs <;> exact ⟨rfl, rfl⟩
    unfold sinToSqr
    rw [this.1, this.2, div_self he.ne', one_mul, one_mul]
    nlinarith [mul_self_nonneg c]
  · by_contra hlt
    exact h (below_fresnel_of_total he hi hne hu (not_le.1 hlt))

/-- Snell's law and crossing for a refracted direction: the tangential part keeps its plane and is reversed, the
sines are in the inverse ratio of the indices, and the direction lies on the other side. -/
structure Refracts (ext int : ℝ) (wi wo : V3 ℝ) : Prop where
  plane : wi.x * wo.y = wi.y * wo.x ∧ wi.x * wo.x + wi.y * wo.y ≤ 0
  snell : indexFrom wi.z ext int ^ 2 * sinSqr wi = indexTo wi.z ext int ^ 2 * sinSqr wo
  cross : wi.z * wo.z ≤ 0

/-- C41, glass, the part that holds. For a unit direction that is neither grazing nor within `eps` below the surface,
the sampled direction is either the mirror image or obeys Snell's law on the other side; it is a unit vector except
when the refracted direction is within `eps` (in squared cosine) of grazing, where it is shorter by at most `eps` in
squared length. -/
theorem dielectric_partial (eps ext int : ℝ) (heps : 0 < eps) (he : 0 < ext) (hi : 0 < int) (albedo wi : V3 ℝ)
    (h1 : wi.sqrNorm = 1) (hz : 0 < wi.z ∨ wi.z < -eps) (u : ℝ) (hu : u < 1) :
    let s := dielectricSample eps int ext albedo wi u
    s.albedo = albedo ∧ s.pdf = 1 ∧
      ((below u (fresnel wi.z ext int) ∧ s.wo = reflect wi ∧ s.wo.sqrNorm = 1 ∧ s.eta = 1) ∨
        (¬ below u (fresnel wi.z ext int) ∧ Refracts ext int wi s.wo ∧
          s.eta = indexFrom wi.z ext int / indexTo wi.z ext int ∧
          (eps ≤ 1 - sinToSqr wi.z ext int → s.wo.sqrNorm = 1 ∧ wi.z * s.wo.z < 0) ∧
          1 - eps ≤ s.wo.sqrNorm ∧ s.wo.sqrNorm ≤ 1)) := by
  intro s
  have hxy : wi.x * wi.x + wi.y * wi.y = 1 - wi.z * wi.z := by
    simp only [V3.sqrNorm] at h1
    linear_combination h1
  have hzz : wi.z * wi.z ≤ 1 := by nlinarith [mul_self_nonneg wi.x, mul_self_nonneg wi.y]
  by_cases hb : below u (fresnel wi.z ext int)
  · have hs : s = ⟨⟨-wi.x, -wi.y, wi.z⟩, albedo, 1, 1⟩ := by
      simp only [s, dielectricSample, if_pos hb]
    rw [hs]
    refine ⟨rfl, rfl, Or.inl ⟨hb, (reflect_eq wi).symm, ?_, rfl⟩⟩
    have := reflect_unit h1
    rwa [reflect_eq] at this
  · have hle := refracts_sin_le he hi hu hb
    have hto : 0 < indexTo wi.z ext int := by unfold indexTo; split_ifs <;> assumption
    have hfrom : 0 < indexFrom wi.z ext int := by unfold indexFrom; split_ifs <;> assumption
    set eta := indexFrom wi.z ext int / indexTo wi.z ext int with heta
    have hetapos : 0 < eta := div_pos hfrom hto
    have heta' : (if wi.z < 0 then int / ext else ext / int) = eta := by
      rw [heta]; unfold indexFrom indexTo; split_ifs <;> rfl
    have hperp : ((⟨-wi.x, -wi.y, 0⟩ : V3 ℝ).smul eta).sqrNorm = sinToSqr wi.z ext int := by
      simp only [V3.sqrNorm, V3.smul_x, V3.smul_y, V3.smul_z, sinToSqr, ← heta]
      linear_combination (eta * eta) * hxy
    have hflip : (wi.z < -eps) = (wi.z < 0) := by
      rcases hz with h | h
      · exact propext ⟨fun h' => by linarith, fun h' => by linarith⟩
      · exact propext ⟨fun h' => by linarith, fun _ => h⟩
    set r := SQRT eps (1 - sinToSqr wi.z ext int) with hr
    have hr0 : 0 ≤ r := by
      rw [hr]; unfold SQRT; split_ifs
      · exact le_rfl
      · exact Real.sqrt_nonneg _
    have hs : s = ⟨⟨-(wi.x * eta), -(wi.y * eta), if wi.z < 0 then r else -r⟩, albedo, 1, eta⟩ := by
      simp only [s, dielectricSample, if_neg hb, heta', hperp, hflip, ← hr]
      by_cases hneg : wi.z < 0
      · simp only [if_pos hneg]
        congr 1
        ext <;> simp
      · simp only [if_neg hneg]
        congr 1
        ext <;> simp
    rw [hs]
    have hnorm : (⟨-(wi.x * eta), -(wi.y * eta), if wi.z < 0 then r else -r⟩ : V3 ℝ).sqrNorm =
        sinToSqr wi.z ext int + r * r := by
      have : (if wi.z < 0 then r else -r) * (if wi.z < 0 then r else -r) = r * r := by
        split_ifs <;> ring
      simp only [V3.sqrNorm, this, ← hperp, V3.smul_x, V3.smul_y, V3.smul_z]
      ring
    refine ⟨rfl, rfl, Or.inr ⟨hb, ⟨⟨?_, ?_⟩, ?_, ?_⟩, rfl, ?_, ?_, ?_⟩⟩
    · ring
    · have : 0 ≤ (wi.x * wi.x + wi.y * wi.y) * eta := by
        apply mul_nonneg _ hetapos.le
        nlinarith [mul_self_nonneg wi.x, mul_self_nonneg wi.y]
      simp only
      linarith
    · simp only [sinSqr]
      have : eta * indexTo wi.z ext int = indexFrom wi.z ext int := by
        rw [heta]; field_simp
      rw [← this]
      ring
    · simp only
      split_ifs with h
      · exact mul_nonpos_of_nonpos_of_nonneg h.le hr0
      · have : 0 ≤ wi.z * r := mul_nonneg (not_lt.1 h) hr0
        linarith
    · intro heps'
      have hr2 : r = Real.sqrt (1 - sinToSqr wi.z ext int) := by
        rw [hr, SQRT, if_neg (not_lt.2 heps')]
      have hrpos : 0 < r := by rw [hr2]; exact Real.sqrt_pos.2 (by linarith)
      refine ⟨?_, ?_⟩
      · rw [hnorm, hr2, Real.mul_self_sqrt (by linarith)]
        ring
      · simp only
        rcases hz with h | h
        · rw [if_neg (by linarith)]
          have := mul_pos h hrpos
          linarith
        · rw [if_pos (by linarith)]
          exact mul_neg_of_neg_of_pos (by linarith) hrpos
    · rw [hnorm, hr, SQRT]
      split_ifs with h
      · linarith
      · rw [Real.mul_self_sqrt (by linarith)]; linarith
    · rw [hnorm, hr, SQRT]
      split_ifs with h
      · linarith
      · rw [Real.mul_self_sqrt (by linarith)]; linarith

example : (⟨3 / 5, 0, 4 / 5⟩ : V3 ℝ).sqrNorm = 1 ∧ ¬ below (1 / 2) (fresnel (4 / 5) 1 (3 / 2)) ∧
    1 / 1000 ≤ 1 - sinToSqr (4 / 5) 1 (3 / 2) := by
  refine ⟨by norm_num [V3.sqrNorm], ?_, by norm_num [sinToSqr, indexFrom, indexTo]⟩
  rintro ⟨x, hx, hlt⟩
  have hs : sinToSqr (4 / 5) 1 (3 / 2) ≤ 1 := by norm_num [sinToSqr, indexFrom, indexTo]
  rw [fresnel_eq _ _ _ (by norm_num) (by norm_num), if_neg (by norm_num), if_neg (not_lt.2 hs),
    if_neg (by norm_num)] at hx
  obtain rfl := Option.some.inj hx
  norm_num at hlt

/-- C41 fails near grazing: through glass with the index of its surroundings, which should not bend light at all, a
unit direction about one degree above the surface comes out along the surface and shorter than one. -/
theorem dielectric_unit_refuted :
    ∃ wi : V3 ℝ, wi.sqrNorm = 1 ∧ 0 < wi.z ∧
      ((dielectricSample (1 / 1000) 1 1 0 wi (1 / 2)).wo.sqrNorm < 1 ∧
        (dielectricSample (1 / 1000) 1 1 0 wi (1 / 2)).wo.z = 0) := by
  refine ⟨⟨9999 / 10001, 0, 200 / 10001⟩, by norm_num [V3.sqrNorm], by norm_num, ?_⟩
  have hf : ¬ below (1 / 2) (fresnel (200 / 10001) 1 1) := by
    rintro ⟨x, hx, hlt⟩
    rw [fresnel, if_pos rfl] at hx
    obtain rfl := Option.some.inj hx
    norm_num at hlt
  have hz : ¬ (200 / 10001 : ℝ) < -(1 / 1000) := by norm_num
  have hr : SQRT (1 / 1000) (1 - ((⟨-(9999 / 10001), -0, 0⟩ : V3 ℝ).smul
      (if (200 / 10001 : ℝ) < 0 then 1 / 1 else 1 / 1)).sqrNorm) = 0 := by
    rw [SQRT, if_pos]
    norm_num [V3.sqrNorm]
  simp only [dielectricSample, if_neg hf, if_neg hz, hr]
  norm_num [V3.sqrNorm]

/-- C41 fails just below the surface: a direction within `eps` of grazing on the inner side is "refracted" to the
side it came from. -/
theorem dielectric_cross_refuted :
    ∃ wi : V3 ℝ, wi.sqrNorm = 1 ∧ wi.z < 0 ∧ ¬ below (1 / 2) (fresnel wi.z 2 1) ∧
      (dielectricSample (1 / 1000) 1 2 0 wi (1 / 2)).wo.z < 0 := by
  have hz0 : (-(8000 / 16000001) : ℝ) < 0 := by norm_num
  have hs : sinToSqr (-(8000 / 16000001)) 2 1 ≤ 1 := by
    norm_num [sinToSqr, indexFrom, indexTo, hz0]
  have hf : ¬ below (1 / 2) (fresnel (-(8000 / 16000001)) 2 1) := by
    rintro ⟨x, hx, hlt⟩
    rw [fresnel_eq _ _ _ (by norm_num) (by norm_num), if_neg (by norm_num), if_neg (not_lt.2 hs),
      if_neg (by norm_num)] at hx
    obtain rfl := Option.some.inj hx
    norm_num at hlt
  refine ⟨⟨15999999 / 16000001, 0, -(8000 / 16000001)⟩, by norm_num [V3.sqrNorm], hz0, hf, ?_⟩
  have hz : ¬ (-(8000 / 16000001) : ℝ) < -(1 / 1000) := by norm_num
  have hr : 0 < SQRT (1 / 1000) (1 - ((⟨-(15999999 / 16000001), -0, 0⟩ : V3 ℝ).smul (1 / 2)).sqrNorm) := by
    rw [SQRT, if_neg]
    · apply Real.sqrt_pos.2
      norm_num [V3.sqrNorm]
    · norm_num [V3.sqrNorm]
  simp only [dielectricSample, if_neg hf, if_neg hz, if_pos hz0, V3.add_z, V3.smul_z]
  linarith

/-! ## One-way glass -/

/-- C41, one-way glass. From inside, light is always reflected about the normal; from outside it is
reflected or refracted by Snell's law into a unit vector on the other side; the direction is always a number. -/
theorem one_way_law (eps ext int : ℝ) (heps : 0 < eps) (he : 0 < ext) (hi : 0 < int) (albedo wi : V3 ℝ)
    (h1 : wi.sqrNorm = 1) (u : ℝ) (hu : u < 1) :
    ∃ s, oneWaySample eps int ext albedo wi u = some s ∧ s.albedo = albedo ∧ s.pdf = 1 ∧ s.wo.sqrNorm = 1 ∧
      ((wi.z < 0 ∨ below u (fresnel wi.z ext int)) → s.wo = reflect wi) ∧
      (0 ≤ wi.z → ¬ below u (fresnel wi.z ext int) → Refracts ext int wi s.wo) := by
  have hxy : wi.x * wi.x + wi.y * wi.y = 1 - wi.z * wi.z := by
    simp only [V3.sqrNorm] at h1
    linear_combination h1
  have hzz : wi.z * wi.z ≤ 1 := by nlinarith [mul_self_nonneg wi.x, mul_self_nonneg wi.y]
  by_cases hb : below u (fresnel wi.z ext int) ∨ wi.z < 0
  · refine ⟨⟨⟨-wi.x, -wi.y, wi.z⟩, albedo, 1, 1⟩, by simp only [oneWaySample, if_pos hb], rfl, rfl, ?_, fun _ => (reflect_eq wi).symm, ?_⟩
    · have := reflect_unit h1
      rwa [reflect_eq] at this
    · intro hp hn
      rcases hb with hb | hb
      · exact absurd hb hn
      · linarith
  · have hb1 : ¬ below u (fresnel wi.z ext int) := fun h => hb (Or.inl h)
    have hpos : 0 ≤ wi.z := not_lt.1 fun h => hb (Or.inr h)
    have hnn : ¬ wi.z < 0 := by linarith
    have hle := refracts_sin_le he hi hu hb1
    have hfrom : indexFrom wi.z ext int = ext := by rw [indexFrom, if_neg hnn]
    have hto : indexTo wi.z ext int = int := by rw [indexTo, if_neg hnn]
    have hperp : ((⟨-wi.x, -wi.y, 0⟩ : V3 ℝ).smul (ext / int)).sqrNorm = sinToSqr wi.z ext int := by
      simp only [V3.sqrNorm, V3.smul_x, V3.smul_y, V3.smul_z, sinToSqr, hfrom, hto]
      linear_combination (ext / int * (ext / int)) * hxy
    have hsq : sqrtF (1 - sinToSqr wi.z ext int) = some (Real.sqrt (1 - sinToSqr wi.z ext int)) := by
      rw [sqrtF, if_neg (by linarith)]
    have hflip : ¬ wi.z < -eps := by linarith
    set r := Real.sqrt (1 - sinToSqr wi.z ext int) with hr
    have hrr : r * r = 1 - sinToSqr wi.z ext int := Real.mul_self_sqrt (by linarith)
    have hr0 : 0 ≤ r := Real.sqrt_nonneg _
    refine ⟨⟨(⟨-wi.x, -wi.y, 0⟩ : V3 ℝ).smul (ext / int) + ⟨0, 0, -r⟩, albedo, 1, ext / int⟩, ?_, rfl, rfl, ?_,
      ?_, ?_⟩
    · simp only [oneWaySample, if_neg hb, if_neg hnn, hperp, hsq, if_neg hflip]
    · simp only [V3.sqrNorm, V3.add_x, V3.add_y, V3.add_z, V3.smul_x, V3.smul_y, V3.smul_z] at hperp ⊢
      linear_combination hperp + hrr
    · rintro (h | h)
      · exact absurd h hnn
      · exact absurd h hb1
    · intro _ _
      refine ⟨⟨?_, ?_⟩, ?_, ?_⟩
      · simp only [V3.add_x, V3.add_y, V3.smul_x, V3.smul_y]; ring
      · simp only [V3.add_x, V3.add_y, V3.smul_x, V3.smul_y, add_zero]
        have : 0 ≤ (wi.x * wi.x + wi.y * wi.y) * (ext / int) := by
          apply mul_nonneg _ (div_pos he hi).le
          nlinarith [mul_self_nonneg wi.x, mul_self_nonneg wi.y]
        linarith
      · rw [hfrom, hto]
        simp only [sinSqr, V3.add_x, V3.add_y, V3.smul_x, V3.smul_y, add_zero]
        field_simp
      · simp only [V3.add_z, V3.smul_z, zero_mul, zero_add]
        have := mul_nonneg hpos hr0
        linarith

end Feign.Bsdf
