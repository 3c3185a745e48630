import Verif.Bsdf.Powers
import Verif.Bsdf.LobeProps
import Verif.Shaders.SphereLemmas
import Mathlib.Analysis.SpecialFunctions.Pow.Real

/-!
# C118: materials evaluate to finite reflectances that are not negative
-/

set_option linter.unusedSectionVars false

namespace Feign.Bsdf

open Warp Flt

/-! ### Powers -/

theorem powf_zero (a : Flt) : powf a 0 = .fin 1 := by cases a <;> simp [powf]

theorem powf_pos {x : ℝ} (hx : 0 < x) (e : ℝ) : powf (.fin x) e = .fin (x ^ e) := by
  by_cases he : e = 0
  · rw [he, powf_zero, Real.rpow_zero]
  · simp only [powf, if_neg he, if_pos hx]

theorem powf_nat (x : ℝ) (n : ℕ) : powf (.fin x) n = .fin (x ^ n) := by
  by_cases hn : n = 0
  · subst hn; rw [Nat.cast_zero, powf_zero, pow_zero]
  have hn' : (n : ℝ) ≠ 0 := by exact_mod_cast hn
  have hp : (0 : ℝ) < n := by positivity
  rcases lt_trichotomy 0 x with h | h | h
  · rw [powf_pos h, Real.rpow_natCast]
  · subst h
    simp only [powf, if_neg hn', lt_irrefl, if_false, if_true, if_pos hp, zero_pow hn]
  · have hex : ∃ m : ℤ, (n : ℝ) = m := ⟨n, by norm_cast⟩
    simp only [powf, if_neg hn', if_neg (not_lt.2 h.le), if_neg h.ne, dif_pos hex]
    have : hex.choose = n := by
      have := hex.choose_spec
      exact_mod_cast this.symm
    rw [this, zpow_natCast]

theorem powf_fin_iff (x e : ℝ) :
    (powf (.fin x) e).IsFin ↔ e = 0 ∨ 0 < x ∨ (x = 0 ∧ 0 < e) ∨ (x < 0 ∧ ∃ n : ℤ, e = n) := by
  simp only [powf]
  split_ifs with h1 h2 h3 h4 h5
  · simp [IsFin, h1]
  · simp [IsFin, h2]
  · simp [IsFin, h3, h4]
  · simp [IsFin, h1, h3, h4]
  · have : x < 0 := lt_of_le_of_ne (not_lt.1 h2) h3
    exact ⟨fun _ => .inr (.inr (.inr ⟨this, h5⟩)), fun _ => trivial⟩
  · constructor
    · exact fun h => h.elim
    · rintro (h | h | ⟨h, -⟩ | ⟨-, h⟩)
      exacts [h1 h, h2 h, h3 h, h5 h]

private theorem sum_fin_iff (a b : ℝ) (p : Flt) : (Flt.fin a + .fin b * p).IsFin ↔ p.IsFin := by
  constructor
  · intro h
    by_contra hb
    exact (bad_iff _).1 (Bad.add_right _ (Bad.mul_right _ ((bad_iff _).2 hb))) h
  · intro h
    cases p with
    | fin x => trivial
    | inf s => exact h.elim
    | nan => exact h.elim

private theorem mirror_eq (wi : V3 ℝ) : (⟨0, 0, 2 * wi.z⟩ : V3 ℝ) - wi = reflect wi := by
  rw [reflect_eq]; ext <;> simp; ring

/-! ### Phong -/

/-- **C118, Phong.** A channel is a finite number exactly if the exponent is zero, or the outgoing direction is within a
right angle of the mirror direction, or at a right angle with a positive exponent, or further away with a whole
exponent. -/
theorem phong_number_iff (kd : V3 ℝ) (ks e : ℝ) (wi wo : V3 ℝ) (c : Fin 3) :
    (phongEvalF kd ks e wi wo c).IsFin ↔
      e = 0 ∨ 0 < wo.dot (reflect wi) ∨ (wo.dot (reflect wi) = 0 ∧ 0 < e) ∨
        (wo.dot (reflect wi) < 0 ∧ ∃ n : ℤ, e = n) := by
  unfold phongEvalF
  simp only
  rw [sum_fin_iff, mirror_eq, powf_fin_iff]

/-- **C118, Phong, natural exponents.** The value is always a number, that of `Phong.eval`. -/
theorem phong_natural (kd : V3 ℝ) (ks : ℝ) (n : ℕ) (wi wo : V3 ℝ) (c : Fin 3) :
    phongEvalF kd ks n wi wo c = .fin (((Phong.make kd ks n).eval wi wo).get c) := by
  unfold phongEvalF Phong.eval Phong.make
  simp only
  rw [powf_nat, fin_mul, fin_add]
  congr 1
  fin_cases c <;> simp [V3.get]

/-- **C118, Phong, near the mirror direction.** With shares that are not negative and an exponent that is not either, the
value within a right angle of the mirror direction is a number between the diffuse part and the diffuse part plus
the height of the lobe. Missing: everything further away, see `phong_number_refuted` and
`phong_evaluates_negative_refuted`. -/
theorem phong_number_partial (kd : V3 ℝ) (ks e : ℝ) (hk : 0 ≤ ks) (he : 0 ≤ e) (wi wo : V3 ℝ) (hi : wi.sqrNorm = 1)
    (ho : wo.sqrNorm = 1) (hd : 0 < wo.dot (reflect wi)) (c : Fin 3) :
    ∃ r, phongEvalF kd ks e wi wo c = .fin r ∧ kd.get c / Real.pi ≤ r ∧
      r ≤ kd.get c / Real.pi + ks * (e + 2) / (2 * Real.pi) := by
  have hpi := Real.pi_pos
  unfold phongEvalF
  simp only
  rw [mirror_eq, powf_pos hd, fin_mul, fin_add]
  refine ⟨_, rfl, ?_, ?_⟩
  · have : 0 ≤ ks * (e + 2) * (1 / (2 * Real.pi)) * wo.dot (reflect wi) ^ e := by positivity
    rw [div_eq_mul_one_div]
    linarith
  · have h1 : wo.dot (reflect wi) ≤ 1 := by
      have hr := reflect_unit hi
      simp only [V3.sqrNorm] at ho hr
      simp only [V3.dot]
      nlinarith [sq_nonneg (wo.x - (reflect wi).x), sq_nonneg (wo.y - (reflect wi).y),
        sq_nonneg (wo.z - (reflect wi).z)]
    have h2 : wo.dot (reflect wi) ^ e ≤ 1 := Real.rpow_le_one hd.le h1 he
    have h3 : 0 ≤ ks * (e + 2) * (1 / (2 * Real.pi)) := by positivity
    have := mul_le_mul_of_nonneg_left h2 h3
    rw [div_eq_mul_one_div (kd.get c), div_eq_mul_one_div (ks * (e + 2))]
    linarith

/-- **C118 is false for Phong**: whatever the shares, even without a specular share, and for every exponent that is not a
whole number, there are directions above the surface for which no channel is a number. -/
theorem phong_number_refuted (kd : V3 ℝ) (ks e : ℝ) (he : ∀ n : ℤ, e ≠ n) :
    ∃ wi wo : V3 ℝ, wi.sqrNorm = 1 ∧ wo.sqrNorm = 1 ∧ 0 < wi.z ∧ 0 < wo.z ∧
      ∀ c, phongEvalF kd ks e wi wo c = .nan := by
  refine ⟨⟨4 / 5, 0, 3 / 5⟩, ⟨4 / 5, 0, 3 / 5⟩, by norm_num [V3.sqrNorm], by norm_num [V3.sqrNorm], by norm_num,
    by norm_num, fun c => ?_⟩
  unfold phongEvalF
  simp only
  have hd : (⟨4 / 5, 0, 3 / 5⟩ : V3 ℝ).dot (⟨0, 0, 2 * (3 / 5)⟩ - ⟨4 / 5, 0, 3 / 5⟩) = -(7 / 25) := by
    norm_num [V3.dot]
  rw [hd]
  have h0 : e ≠ 0 := fun h => he 0 (by simpa using h)
  have : powf (.fin (-(7 / 25))) e = .nan := by
    simp only [powf, if_neg h0]
    rw [if_neg (by norm_num), if_neg (by norm_num), dif_neg (by rintro ⟨n, hn⟩; exact he n hn)]
  rw [this]
  rfl

/-- **C118, Phong samples.** The sampled reflectance and density are numbers for every exponent that is not negative:
no less than the diffuse part, and not negative. Evaluating the material in the sampled direction gives the same
reflectance where that is not within `eps` of a right angle from the mirror direction, or further. -/
theorem phong_sample_number (kd : V3 ℝ) (ks e eps : ℝ) (hk : 0 ≤ ks) (hk1 : ks ≤ 1) (he : 0 ≤ e) (heps : 0 < eps)
    (wi : V3 ℝ) (hi : wi.sqrNorm = 1) (hz : 0 < wi.z) (u : V2 ℝ) :
    ∃ s, phongSampleR kd ks e eps wi u = some s ∧ 0 ≤ s.pdf ∧ ∀ c, kd.get c / Real.pi ≤ s.albedo.get c ∧
      (eps ≤ s.wo.dot (reflect wi) → phongEvalF kd ks e wi s.wo c = .fin (s.albedo.get c)) := by
  have hpi := Real.pi_pos
  obtain ⟨f, hf, -⟩ := Frame.frame_orthonormal (reflect wi) (reflect_unit hi)
  unfold phongSampleR
  rw [if_neg (not_le.2 hz)]
  simp only [mirror_eq, hf, Option.map_some]
  refine ⟨_, rfl, ?_, fun c => ?_⟩
  · have h1 : ∀ v, 0 ≤ cosHemiPdf v := by
      intro v; unfold cosHemiPdf; split_ifs
      · positivity
      · exact le_refl _
    have h2 : ∀ v, 0 ≤ cosPowHemiPdf v e := by
      intro v; unfold cosPowHemiPdf; split_ifs with h
      · have := Real.rpow_nonneg h.le e; positivity
      · exact le_refl _
    exact add_nonneg (mul_nonneg (by linarith) (h1 _)) (mul_nonneg hk (h2 _))
  · simp only
    generalize (if u.x < ks then f.toWorld (cosPowHemi ⟨u.x / ks, u.y⟩ e)
      else cosHemi ⟨(u.x - ks) / (1 - ks), u.y⟩) = wo
    constructor
    · have hm : 0 < max ((reflect wi).dot wo) eps := lt_of_lt_of_le heps (le_max_right _ _)
      have hp := Real.rpow_nonneg hm.le e
      have : 0 ≤ ks * (e + 2) * (1 / (2 * Real.pi)) * max ((reflect wi).dot wo) eps ^ e := by positivity
      fin_cases c <;> simp only [V3.get, V3.add_x, V3.add_y, V3.add_z, V3.smul_x, V3.smul_y, V3.smul_z] <;>
        rw [div_eq_mul_one_div] <;> simpa using this
    · intro hd
      have hcomm : (reflect wi).dot wo = wo.dot (reflect wi) := by simp only [V3.dot]; ring
      unfold phongEvalF
      simp only
      rw [mirror_eq, powf_pos (lt_of_lt_of_le heps hd), hcomm, max_eq_left hd, fin_mul, fin_add]
      congr 1
      fin_cases c <;> simp [V3.get]

/-- The sampler with any exponent is the one of C72 for natural exponents. -/
theorem phong_sample_natural (kd : V3 ℝ) (ks eps : ℝ) (n : ℕ) (wi : V3 ℝ) (u : V2 ℝ) :
    phongSampleR kd ks n eps wi u = (Phong.make kd ks n).sample eps wi u := by
  unfold phongSampleR Phong.sample Phong.make
  simp only [Real.rpow_natCast]

/-! ### Blinn -/

/-- **C118, Blinn.** A channel is a finite number exactly if the material is seen from below (then it is black), or the
exponent is zero, or the two directions are not opposite and either the exponent is positive or the half vector is
above the surface. -/
theorem blinn_number_iff (kd ks : V3 ℝ) (e : ℝ) (wi wo : V3 ℝ) (c : Fin 3) :
    (blinnEvalF kd ks e wi wo c).IsFin ↔
      wi.z ≤ 0 ∨ e = 0 ∨ (wo + wi ≠ 0 ∧ (0 < e ∨ 0 < (wo + wi).z)) := by
  unfold blinnEvalF
  by_cases hz : wi.z ≤ 0
  · simp [hz, IsFin]
  rw [if_neg hz]
  simp only
  rw [sum_fin_iff]
  simp only [hz, false_or]
  by_cases he : e = 0
  · subst he; rw [powf_zero]; simp [IsFin]
  simp only [he, false_or]
  generalize wo + wi = h
  have hn : FV.sqrNorm (FV.ofReal h) = .fin (h.x * h.x + h.y * h.y + h.z * h.z) := rfl
  have hnn : 0 ≤ h.x * h.x + h.y * h.y + h.z * h.z := by
    nlinarith [mul_self_nonneg h.x, mul_self_nonneg h.y, mul_self_nonneg h.z]
  have hnz : (FV.normalized (FV.ofReal h)).z =
      Flt.fin h.z / Flt.fin (Real.sqrt (h.x * h.x + h.y * h.y + h.z * h.z)) := by
    unfold FV.normalized
    rw [hn, fin_sqrt _ hnn]
    rfl
  rw [hnz]
  by_cases h0 : h = 0
  · subst h0
    have : Flt.fin (0 : V3 ℝ).z / Flt.fin (Real.sqrt ((0 : V3 ℝ).x * (0 : V3 ℝ).x + (0 : V3 ℝ).y * (0 : V3 ℝ).y +
        (0 : V3 ℝ).z * (0 : V3 ℝ).z)) = .nan := by
      show (if Real.sqrt ((0 : ℝ) * 0 + 0 * 0 + 0 * 0) = 0 then (if (0 : ℝ) = 0 then Flt.nan else _) else _) = _
      simp
    rw [this, if_neg (by simp [Flt.lt])]
    simp [powf, he, IsFin]
  · have hpos : 0 < h.x * h.x + h.y * h.y + h.z * h.z := by
      rcases hnn.lt_or_eq with h1 | h1
      · exact h1
      · exfalso
        apply h0
        have hx := mul_self_nonneg h.x
        have hy := mul_self_nonneg h.y
        have hz' := mul_self_nonneg h.z
        ext
        · exact mul_self_eq_zero.1 (by linarith)
        · exact mul_self_eq_zero.1 (by linarith)
        · exact mul_self_eq_zero.1 (by linarith)
    have hs := Real.sqrt_pos.2 hpos
    have : Flt.fin h.z / Flt.fin (Real.sqrt (h.x * h.x + h.y * h.y + h.z * h.z)) =
        .fin (h.z / Real.sqrt (h.x * h.x + h.y * h.y + h.z * h.z)) := fin_div _ _ hs.ne'
    rw [this]
    simp only [h0, ne_eq, not_false_iff, true_and]
    by_cases hneg : h.z / Real.sqrt (h.x * h.x + h.y * h.y + h.z * h.z) < 0
    · have hz' : h.z < 0 := by
        by_contra hc
        exact absurd hneg (not_lt.2 (div_nonneg (not_lt.1 hc) hs.le))
      rw [if_pos (show Flt.lt (.fin _) (.fin 0) from hneg), powf_fin_iff]
      simp [he, not_lt.2 hz'.le]
    · have hz' : 0 ≤ h.z := by
        by_contra hc
        exact hneg (div_neg_of_neg_of_pos (not_le.1 hc) hs)
      rw [if_neg (show ¬ Flt.lt (.fin _) (.fin 0) from hneg), powf_fin_iff]
      simp only [he, false_or, hneg, false_and, or_false]
      rcases hz'.lt_or_eq with h1 | h1
      · have := div_pos h1 hs
        simp [this, h1]
      · rw [← h1]; simp

private theorem sq_pos {h : V3 ℝ} (h0 : h ≠ 0) : 0 < h.x * h.x + h.y * h.y + h.z * h.z := by
  have hx := mul_self_nonneg h.x
  have hy := mul_self_nonneg h.y
  have hz := mul_self_nonneg h.z
  by_contra hc
  apply h0
  ext
  · exact mul_self_eq_zero.1 (by linarith)
  · exact mul_self_eq_zero.1 (by linarith)
  · exact mul_self_eq_zero.1 (by linarith)

private theorem half_z {h : V3 ℝ} (h0 : h ≠ 0) :
    (FV.normalized (FV.ofReal h)).z = .fin (h.z / Real.sqrt (h.x * h.x + h.y * h.y + h.z * h.z)) := by
  have hpos := sq_pos h0
  have hn : FV.sqrNorm (FV.ofReal h) = .fin (h.x * h.x + h.y * h.y + h.z * h.z) := rfl
  unfold FV.normalized
  rw [hn, fin_sqrt _ hpos.le]
  exact fin_div _ _ (Real.sqrt_pos.2 hpos).ne'

private theorem exp_val (a : ℝ) [Decidable (Flt.lt (.fin a) (.fin 0))] :
    (if Flt.lt (.fin a) (.fin 0) then Flt.fin 0 else .fin a) = .fin (max a 0) := by
  split_ifs with h
  · rw [max_eq_right (le_of_lt h)]
  · rw [max_eq_left (not_lt.1 h)]

/-- **C118, Blinn, natural exponents.** The value is that of `blinnEval`. -/
theorem blinn_natural (kd ks : V3 ℝ) (n : ℕ) (wi wo v : V3 ℝ) (h : blinnEval kd ks n wi wo = some v) (c : Fin 3) :
    blinnEvalF kd ks n wi wo c = .fin (v.get c) := by
  unfold blinnEval at h
  unfold blinnEvalF
  by_cases hz : wi.z ≤ 0
  · rw [if_pos hz] at h ⊢
    obtain rfl := Option.some.inj h
    fin_cases c <;> rfl
  · rw [if_neg hz] at h ⊢
    simp only
    unfold V3.normalized at h
    by_cases h0 : (wo + wi).norm = 0
    · rw [if_pos h0] at h; simp at h
    rw [if_neg h0] at h
    obtain rfl := Option.some.inj h
    have hne : wo + wi ≠ 0 := by
      intro hc
      rw [hc] at h0
      apply h0
      simp [V3.norm]
    rw [half_z hne, exp_val, powf_nat, fin_mul, fin_add]
    congr 1
    fin_cases c <;>
      simp only [V3.get, V3.add_x, V3.add_y, V3.add_z, V3.smul_x, V3.smul_y, V3.smul_z, V3.norm] <;>
      simp <;> ring

/-- **C118, Blinn, other directions.** With shares that are not negative and an exponent that is not either, the value for
directions that are not opposite is a number between the diffuse part and the diffuse part plus the height of the lobe.
Missing: opposite directions, and negative exponents, see `blinn_number_refuted`. -/
theorem blinn_number_partial (kd ks : V3 ℝ) (e : ℝ) (he : 0 ≤ e) (wi wo : V3 ℝ) (hz : 0 < wi.z) (hne : wo + wi ≠ 0)
    (c : Fin 3) (hk : 0 ≤ ks.get c) :
    ∃ r, blinnEvalF kd ks e wi wo c = .fin r ∧ kd.get c / Real.pi ≤ r ∧
      r ≤ kd.get c / Real.pi + ks.get c * (e + 2) / (2 * Real.pi) := by
  have hpi := Real.pi_pos
  unfold blinnEvalF
  rw [if_neg (not_le.2 hz)]
  simp only
  rw [half_z hne, exp_val]
  have hpos := sq_pos hne
  set h := wo + wi
  have hs := Real.sqrt_pos.2 hpos
  have hle : h.z / Real.sqrt (h.x * h.x + h.y * h.y + h.z * h.z) ≤ 1 := by
    rw [div_le_one hs]
    apply Real.le_sqrt_of_sq_le
    nlinarith [mul_self_nonneg h.x, mul_self_nonneg h.y]
  have h01 : 0 ≤ max (h.z / Real.sqrt (h.x * h.x + h.y * h.y + h.z * h.z)) 0 := le_max_right _ _
  have h11 : max (h.z / Real.sqrt (h.x * h.x + h.y * h.y + h.z * h.z)) 0 ≤ 1 := max_le hle zero_le_one
  generalize max (h.z / Real.sqrt (h.x * h.x + h.y * h.y + h.z * h.z)) 0 = m at h01 h11 ⊢
  have hp : ∃ p, powf (.fin m) e = .fin p ∧ 0 ≤ p ∧ p ≤ 1 := by
    rcases h01.lt_or_eq with hm | hm
    · exact ⟨_, powf_pos hm e, Real.rpow_nonneg h01 e, Real.rpow_le_one h01 h11 he⟩
    · subst hm
      by_cases h0 : e = 0
      · exact ⟨1, by rw [h0, powf_zero], zero_le_one, le_refl _⟩
      · refine ⟨0, ?_, le_refl _, zero_le_one⟩
        simp only [powf, if_neg h0, lt_irrefl, if_false, if_true, if_pos (lt_of_le_of_ne he (Ne.symm h0))]
  obtain ⟨p, hp, hp0, hp1⟩ := hp
  rw [hp, fin_mul, fin_add]
  have h3 : 0 ≤ ks.get c * (e + 2) * (1 / (2 * Real.pi)) := by positivity
  refine ⟨_, rfl, ?_, ?_⟩
  · rw [div_eq_mul_one_div]
    linarith [mul_nonneg h3 hp0]
  · have := mul_le_mul_of_nonneg_left hp1 h3
    rw [div_eq_mul_one_div (kd.get c), div_eq_mul_one_div (ks.get c * (e + 2))]
    linarith

/-- **C118 is false for Blinn**: light that passes straight through the surface, and with a negative exponent every
direction whose half vector is below the surface, gives values that are not finite numbers, whatever the shares. -/
theorem blinn_number_refuted (kd ks : V3 ℝ) (e : ℝ) (he : e ≠ 0) (wi : V3 ℝ) (hz : 0 < wi.z) (c : Fin 3) :
    ¬ (blinnEvalF kd ks e wi (-wi) c).IsFin ∧
    (e < 0 → ∀ wo : V3 ℝ, wo.z < -wi.z → ¬ (blinnEvalF kd ks e wi wo c).IsFin) := by
  constructor
  · rw [blinn_number_iff]
    have h0 : -wi + wi = (0 : V3 ℝ) := by ext <;> simp
    rw [h0]
    simp [he, hz]
  · intro hn wo hw
    rw [blinn_number_iff]
    have : ¬ 0 < (wo + wi).z := by rw [V3.add_z]; linarith
    rintro (h | h | ⟨-, h | h⟩)
    · linarith
    · exact he h
    · linarith
    · exact this h

/-- Non-vacuity: an exponent of two and a half, seen and lit from the two sides of the normal. -/
example : (phongEvalF ⟨1 / 2, 1 / 2, 1 / 2⟩ (1 / 2) (5 / 2) ⟨4 / 5, 0, 3 / 5⟩ ⟨-(4 / 5), 0, 3 / 5⟩ 0).IsFin ∧
    ¬ (phongEvalF ⟨1 / 2, 1 / 2, 1 / 2⟩ (1 / 2) (5 / 2) ⟨4 / 5, 0, 3 / 5⟩ ⟨4 / 5, 0, 3 / 5⟩ 0).IsFin := by
  have hint : ∀ n : ℤ, (5 / 2 : ℝ) ≠ n := by
    intro n h
    have : (5 : ℝ) = ((2 * n : ℤ) : ℝ) := by push_cast; linarith
    have : (5 : ℤ) = 2 * n := by exact_mod_cast this
    omega
  rw [phong_number_iff, phong_number_iff]
  constructor
  · right; left
    norm_num [V3.dot, reflect_eq]
  · rintro (h | h | ⟨h, -⟩ | ⟨-, n, h⟩)
    · norm_num at h
    · norm_num [V3.dot, reflect_eq] at h
    · norm_num [V3.dot, reflect_eq] at h
    · exact hint n h

end Feign.Bsdf
