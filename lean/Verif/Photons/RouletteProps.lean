import Verif.Photons.PowerProps
import Mathlib.MeasureTheory.Integral.IntervalIntegral.Basic

/-!
# C96: the photon roulette keeps the power on average

A photon that hits a surface is stored there (unless the surface is specular) and goes on with what the surface
reflects. The roulette that ends paths early has to leave the mean of the power alone.
-/

set_option linter.unusedSectionVars false
set_option linter.unusedSimpArgs false
set_option linter.unusedVariables false

namespace Feign.Photons

variable {K : Type} [Field K] [LinearOrder K] [IsStrictOrderedRing K]

/-- Specification: the share of a channel that goes on, for the albedo `a` of the channel, the cosine between the new
direction and the normal and the density with which the direction was chosen. A mirror has no cosine. -/
def Reflected (specular : Bool) (a cos pdf : K) : K :=
  match specular with
  | true => a / pdf
  | false => a * cos / pdf

/-- Specification: the photons stored after a hit. -/
def Kept (buf : List (Stored K)) (specular : Bool) (p : Stored K) : List (Stored K) :=
  match specular with
  | true => buf
  | false => buf ++ [p]

private theorem factor (sp : Bool) (a cos pdf : K) : a * cosTerm sp cos / pdf = Reflected sp a cos pdf := by
  cases sp <;> simp [cosTerm, Reflected]

private theorem trace_hit (cap n i : ℕ) (bs : ℕ → Bounce K) (buf : List (Stored K)) (hb : buf.length < cap)
    (pos dir : V3 K) (sp : Bool) (al : V3 K) (cos pdf u : K) (h : bs i = .hit pos dir sp al cos pdf u) (hp : pdf ≠ 0)
    (pw : V3 (Flt K)) :
    trace cap bs (n + 1) i pw buf =
      if Flt.gt (some u) (nextPower pw sp al cos pdf).2 = true then .ok (Kept buf sp ⟨pos, dir, pw⟩)
      else trace cap bs n (i + 1) (divPowerS (nextPower pw sp al cos pdf).1 (nextPower pw sp al cos pdf).2)
        (Kept buf sp ⟨pos, dir, pw⟩) := by
  conv_lhs => unfold trace
  rw [h]
  cases sp with
  | true => simp only [if_true, Res.pure_eq, Res.bind_ok, if_neg hp, Kept]
  | false =>
    have hs : store cap buf ⟨pos, dir, pw⟩ = .ok (buf ++ [⟨pos, dir, pw⟩]) := by unfold store; rw [if_pos hb]
    simp only [Bool.false_eq_true, if_false, hs, Res.pure_eq, Res.bind_ok, if_neg hp, Kept]

private theorem div_mul (x f : K) : Flt.div (some (x * f)) (some x) = if x = 0 then none else some f := by
  by_cases h : x = 0
  · simp [Flt.div, h]
  · simp [Flt.div, h, mul_div_cancel_left₀]

/-- The survival probability, if red is present and some channel that is present is reflected. -/
private theorem survive {x y z a b c : K} (hx : x ≠ 0) (ha : 0 ≤ a)
    (hm : 0 < a ∨ (y ≠ 0 ∧ 0 < b) ∨ (z ≠ 0 ∧ 0 < c)) :
    ∃ s, minOne (maxValueF (divPower (scalePower ⟨some x, some y, some z⟩ ⟨a, b, c⟩) ⟨some x, some y, some z⟩)) =
      some s ∧ 0 < s ∧ s ≤ 1 := by
  have key : ∃ m, maxValueF (divPower (scalePower ⟨some x, some y, some z⟩ ⟨a, b, c⟩) ⟨some x, some y, some z⟩) =
      some m ∧ 0 < m := by
    simp only [scalePower, Flt.mulNum, Option.map_some, divPower, div_mul, if_neg hx]
    unfold maxValueF
    by_cases hy : y = 0 <;> by_cases hz : z = 0
    · refine ⟨a, by simp [hy, hz, Flt.gt], ?_⟩
      rcases hm with h | h | h
      · exact h
      · exact absurd hy h.1
      · exact absurd hz h.1
    · by_cases hc : c > a
      · exact ⟨c, by simp [hy, hz, Flt.gt, hc], lt_of_le_of_lt ha hc⟩
      · refine ⟨a, by simp [hy, hz, Flt.gt, hc], ?_⟩
        rcases hm with h | h | h
        · exact h
        · exact absurd hy h.1
        · exact lt_of_lt_of_le h.2 (not_lt.mp hc)
    · by_cases hb : b > a
      · exact ⟨b, by simp [hy, hz, Flt.gt, hb], lt_of_le_of_lt ha hb⟩
      · refine ⟨a, by simp [hy, hz, Flt.gt, hb], ?_⟩
        rcases hm with h | h | h
        · exact h
        · exact lt_of_lt_of_le h.2 (not_lt.mp hb)
        · exact absurd hz h.1
    · by_cases hb : b > a
      · by_cases hc : c > b
        · exact ⟨c, by simp [hy, hz, Flt.gt, hb, hc], lt_of_le_of_lt ha (lt_trans hb hc)⟩
        · exact ⟨b, by simp [hy, hz, Flt.gt, hb, hc], lt_of_le_of_lt ha hb⟩
      · by_cases hc : c > a
        · exact ⟨c, by simp [hy, hz, Flt.gt, hb, hc], lt_of_le_of_lt ha hc⟩
        · refine ⟨a, by simp [hy, hz, Flt.gt, hb, hc], ?_⟩
          rcases hm with h | h | h
          · exact h
          · exact lt_of_lt_of_le h.2 (not_lt.mp hb)
          · exact lt_of_lt_of_le h.2 (not_lt.mp hc)
  obtain ⟨m, hm, h0⟩ := key
  rw [hm]
  unfold minOne
  by_cases h1 : m > 1
  · exact ⟨1, by simp [Flt.gt, h1], one_pos, le_refl _⟩
  · exact ⟨m, by simp [Flt.gt, h1], h0, not_lt.mp h1⟩

/-- **C96, the part that holds** (photons with a red part that hit a surface that reflects some channel they have; the
full claim is for every photon). There is a survival probability `s` such that the path goes on, with power `q`,
exactly for roulette numbers up to `s`, and `s` times `q` is the reflected power, in every channel. -/
theorem roulette_partial (cap n i : ℕ) (bs : ℕ → Bounce K) (buf : List (Stored K)) (hb : buf.length < cap)
    (p : V3 K) (sp : Bool) (al : V3 K) (cos pdf : K) (hx : p.x ≠ 0) (hcos : 0 < cos) (hpdf : 0 < pdf)
    (hal : 0 ≤ al.x ∧ 0 ≤ al.y ∧ 0 ≤ al.z) (hm : 0 < al.x ∨ (p.y ≠ 0 ∧ 0 < al.y) ∨ (p.z ≠ 0 ∧ 0 < al.z)) :
    ∃ (s : K) (q : V3 K), 0 < s ∧ s ≤ 1 ∧ s * q.x = p.x * Reflected sp al.x cos pdf ∧
      s * q.y = p.y * Reflected sp al.y cos pdf ∧ s * q.z = p.z * Reflected sp al.z cos pdf ∧
      ∀ pos dir u, bs i = .hit pos dir sp al cos pdf u →
        trace cap bs (n + 1) i ⟨some p.x, some p.y, some p.z⟩ buf =
          if u ≤ s then trace cap bs n (i + 1) ⟨some q.x, some q.y, some q.z⟩
            (Kept buf sp ⟨pos, dir, ⟨some p.x, some p.y, some p.z⟩⟩)
          else .ok (Kept buf sp ⟨pos, dir, ⟨some p.x, some p.y, some p.z⟩⟩) := by
  have hr : ∀ a : K, (0 ≤ a → 0 ≤ Reflected sp a cos pdf) ∧ (0 < a → 0 < Reflected sp a cos pdf) := by
    intro a
    cases sp <;> simp only [Reflected] <;> exact ⟨fun h => by positivity, fun h => by positivity⟩
  obtain ⟨s, hs, h0, h1⟩ := survive (x := p.x) (y := p.y) (z := p.z) (a := Reflected sp al.x cos pdf)
    (b := Reflected sp al.y cos pdf) (c := Reflected sp al.z cos pdf) hx ((hr _).1 hal.1)
    (by rcases hm with h | h | h
        · exact Or.inl ((hr _).2 h)
        · exact Or.inr (Or.inl ⟨h.1, (hr _).2 h.2⟩)
        · exact Or.inr (Or.inr ⟨h.1, (hr _).2 h.2⟩))
  refine ⟨s, ⟨p.x * Reflected sp al.x cos pdf / s, p.y * Reflected sp al.y cos pdf / s,
    p.z * Reflected sp al.z cos pdf / s⟩, h0, h1, mul_div_cancel₀ _ h0.ne', mul_div_cancel₀ _ h0.ne',
    mul_div_cancel₀ _ h0.ne', ?_⟩
  intro pos dir u h
  rw [trace_hit cap n i bs buf hb pos dir sp al cos pdf u h hpdf.ne']
  have e2 : (nextPower (⟨some p.x, some p.y, some p.z⟩ : V3 (Flt K)) sp al cos pdf).2 = some s := by
    simp only [nextPower, factor]; exact hs
  have e1 : (nextPower (⟨some p.x, some p.y, some p.z⟩ : V3 (Flt K)) sp al cos pdf).1 =
      ⟨some (p.x * Reflected sp al.x cos pdf), some (p.y * Reflected sp al.y cos pdf),
        some (p.z * Reflected sp al.z cos pdf)⟩ := by
    simp only [nextPower, factor]; rfl
  rw [e1, e2]
  simp only [divPowerS, Flt.div, if_neg h0.ne', Flt.gt, decide_eq_true_eq]
  by_cases hu : u > s
  · rw [if_pos hu, if_neg (not_le.mpr hu)]
  · rw [if_neg hu, if_pos (not_lt.mp hu)]

/-- Averaging over the roulette number: what goes on if the number is at most `s`, and nothing otherwise. -/
theorem roulette_mean (s q : ℝ) (h0 : 0 < s) (h1 : s ≤ 1) :
    ∫ u in (0 : ℝ)..1, (if u ≤ s then q else 0) = s * q := by
  have ha : ∫ u in (0 : ℝ)..s, (if u ≤ s then q else 0) = s * q := by
    rw [intervalIntegral.integral_congr (g := fun _ => q)]
    · simp
    · intro u hu
      rw [Set.uIcc_of_le h0.le] at hu
      simp [hu.2]
  have hae : ∀ᵐ u ∂MeasureTheory.volume, u ∈ Set.uIoc s 1 → (if u ≤ s then q else 0) = (0 : ℝ) := by
    refine Filter.Eventually.of_forall fun u hu => ?_
    rw [Set.uIoc_of_le h1] at hu
    rw [if_neg (not_le.mpr hu.1)]
  have hb : ∫ u in s..(1 : ℝ), (if u ≤ s then q else 0) = 0 := by
    rw [intervalIntegral.integral_congr_ae hae]; simp
  have i1 : IntervalIntegrable (fun u => if u ≤ s then q else 0) MeasureTheory.volume 0 s := by
    refine (intervalIntegrable_const (c := q)).congr_ae ?_
    rw [Filter.EventuallyEq, MeasureTheory.ae_restrict_iff' measurableSet_uIoc]
    refine Filter.Eventually.of_forall fun u hu => ?_
    rw [Set.uIoc_of_le h0.le] at hu
    simp [hu.2]
  have i2 : IntervalIntegrable (fun u => if u ≤ s then q else 0) MeasureTheory.volume s 1 := by
    refine (intervalIntegrable_const (c := (0 : ℝ))).congr_ae ?_
    rw [Filter.EventuallyEq, MeasureTheory.ae_restrict_iff' measurableSet_uIoc]
    filter_upwards [hae] with u hu h
    exact (hu h).symm
  rw [← intervalIntegral.integral_add_adjacent_intervals i1 i2, ha, hb, add_zero]

/-- A surface that reflects nothing ends every path, for all roulette numbers but zero. -/
theorem roulette_absorbs (cap n i : ℕ) (bs : ℕ → Bounce K) (buf : List (Stored K)) (hb : buf.length < cap)
    (p : V3 K) (sp : Bool) (cos pdf : K) (hx : p.x ≠ 0) (hpdf : pdf ≠ 0) (pos dir : V3 K) (u : K) (hu : 0 < u)
    (h : bs i = .hit pos dir sp 0 cos pdf u) :
    trace cap bs (n + 1) i ⟨some p.x, some p.y, some p.z⟩ buf =
      .ok (Kept buf sp ⟨pos, dir, ⟨some p.x, some p.y, some p.z⟩⟩) := by
  rw [trace_hit cap n i bs buf hb pos dir sp 0 cos pdf u h hpdf]
  have e2 : (nextPower (⟨some p.x, some p.y, some p.z⟩ : V3 (Flt K)) sp 0 cos pdf).2 = some 0 := by
    have hz : ∀ a : K, (0 : V3 K).x * a = 0 := fun a => by simp
    simp only [nextPower, factor]
    have hR : Reflected sp (0 : K) cos pdf = 0 := by cases sp <;> simp [Reflected]
    simp only [V3.zero_x, V3.zero_y, V3.zero_z, hR, scalePower, Flt.mulNum, Option.map_some, divPower, div_mul, if_neg hx]
    by_cases hy : p.y = 0 <;> by_cases hz : p.z = 0 <;>
      simp [maxValueF, minOne, Flt.gt, hy, hz]
  rw [e2, if_pos (by simp [Flt.gt, hu])]

/-- **C96 refuted.** A photon without red, on any surface: the roulette never ends the path, and what goes on is
not-a-number in all three channels. -/
theorem roulette_no_red_refuted (cap n i : ℕ) (bs : ℕ → Bounce K) (buf : List (Stored K)) (hb : buf.length < cap)
    (y z : K) (sp : Bool) (al : V3 K) (cos pdf : K) (hpdf : pdf ≠ 0) (pos dir : V3 K) (u : K)
    (h : bs i = .hit pos dir sp al cos pdf u) :
    trace cap bs (n + 1) i ⟨some 0, some y, some z⟩ buf =
      trace cap bs n (i + 1) ⟨none, none, none⟩ (Kept buf sp ⟨pos, dir, ⟨some 0, some y, some z⟩⟩) := by
  rw [trace_hit cap n i bs buf hb pos dir sp al cos pdf u h hpdf]
  have e2 : (nextPower (⟨some 0, some y, some z⟩ : V3 (Flt K)) sp al cos pdf).2 = none := by
    simp only [nextPower, scalePower, Flt.mulNum, Option.map_some, divPower, div_mul, if_true]
    simp [maxValueF, minOne, Flt.gt]
  rw [e2]
  simp [Flt.gt, divPowerS, Flt.div]

/-- Non-vacuity: an orange photon on a surface that reflects half of red and a quarter of the rest. -/
example : ∃ (s : ℚ) (q : V3 ℚ), 0 < s ∧ s ≤ 1 ∧ s * q.x = 2 * (1 / 2 * (1 / 2) / 1) ∧ s * q.y = 1 * (1 / 4 * (1 / 2) / 1) ∧
    trace (K := ℚ) 5 (fun _ => .hit 0 0 false ⟨1 / 2, 1 / 4, 1 / 4⟩ (1 / 2) 1 0) 1 0 ⟨some 2, some 1, some 0⟩ [] =
      .ok [⟨0, 0, ⟨some 2, some 1, some 0⟩⟩] := by
  obtain ⟨s, q, h0, h1, h2, h3, -, -⟩ := roulette_partial (K := ℚ) 5 0 0 (fun _ => .miss) [] (by simp) ⟨2, 1, 0⟩ false
    ⟨1 / 2, 1 / 4, 1 / 4⟩ (1 / 2) 1 (by norm_num) (by norm_num) (by norm_num) ⟨by norm_num, by norm_num, by norm_num⟩
    (Or.inl (by norm_num))
  exact ⟨s, q, h0, h1, h2, h3, by decide +kernel⟩

end Feign.Photons
