import Verif.Integrators.BouncesSpec
import Verif.Integrators.VolProps
import Verif.Integrators.Picture

/-! # What a bounce limit leaves out: lemmas -/

set_option linter.unusedSectionVars false
set_option linter.unusedVariables false
set_option linter.unusedSimpArgs false

namespace Feign.Integrators

open Sampling MeasureTheory
open scoped ENNReal

theorem get_le_add {K : Type} [Field K] [LinearOrder K] [IsStrictOrderedRing K] {a b c : V3 K} (hb : NonNeg b)
    (h : c = a + b) (i : Fin 3) : a.get i ≤ c.get i := by
  subst h
  obtain ⟨h1, h2, h3⟩ := hb
  fin_cases i
  · exact le_add_of_nonneg_right h1
  · exact le_add_of_nonneg_right h2
  · exact le_add_of_nonneg_right h3

variable {R : Type} [MeasurableSpace R]

theorem gather_mono (W : World R) (h : W.Lawful) (n : ℕ) : ∀ β look r ω, NonNeg β → ∀ i,
    (W.gather n β look r ω).get i ≤ (W.gather (n + 1) β look r ω).get i := by
  induction n with
  | zero => intro β look r ω hβ i; rw [World.gather, get_zero]; exact (gather_nonneg W h 1 β look r ω hβ).get i
  | succ n ih =>
    intro β look r ω hβ i
    rw [World.gather.eq_2 W β look r ω n, World.gather.eq_2 W β look r ω (n + 1)]
    by_cases hz : isZero β = true
    · simp only [if_pos hz]; exact le_rfl
    · by_cases he : W.escapes r = true
      · simp only [if_neg hz, if_pos he]; exact le_rfl
      · simp only [if_neg hz, if_neg he]
        split_ifs with hs
        · exact le_rfl
        · rw [get_add, get_add]
          have hn := h.scatter_nonneg r (drop 1 (W.lit (r, ω)).2)
          exact add_le_add le_rfl (ih _ _ _ _ (hβ.step (by simpa using hz) hn.1 hn.2) i)

theorem gather_le (W : World R) (h : W.Lawful) {m n : ℕ} (hmn : m ≤ n) (β : V3 ℝ) (look : Bool) (r : R) (ω : Stream)
    (hβ : NonNeg β) (i : Fin 3) : (W.gather m β look r ω).get i ≤ (W.gather n β look r ω).get i := by
  induction n, hmn using Nat.le_induction with
  | base => exact le_rfl
  | succ n _ ih => exact ih.trans (gather_mono W h n β look r ω hβ i)

theorem factor_measurable (W : World R) (h : W.Lawful) (i : Fin 3) (r : R) :
    Measurable fun ω => ENNReal.ofReal (factor (W.delta r) i (W.scatter r ω).1) :=
  (measurable_factor i measurable_const (measurable_fst.comp (h.scatter_fresh r).1)).ennreal_ofReal

/-- One step of the error estimate. -/
theorem step_error (W : World R) (h : W.Lawful) {i : Fin 3} {ρ : ℝ} (hρ : 0 ≤ ρ) (hs : W.SendsAtMost i ρ) (r : R)
    {f g : Bool → R → ℝ≥0∞} {e : ℝ≥0∞} (hfg : ∀ look r, f look r ≤ g look r + e) :
    ∫⁻ ω, ENNReal.ofReal (factor (W.delta r) i (W.scatter r ω).1) * f (W.delta r) (W.scatter r ω).1.ray ∂uniform ≤
      ∫⁻ ω, ENNReal.ofReal (factor (W.delta r) i (W.scatter r ω).1) * g (W.delta r) (W.scatter r ω).1.ray ∂uniform +
        ENNReal.ofReal ρ * e := by
  have mf := factor_measurable W h i r
  calc _ ≤ ∫⁻ ω, (ENNReal.ofReal (factor (W.delta r) i (W.scatter r ω).1) * g (W.delta r) (W.scatter r ω).1.ray +
          ENNReal.ofReal (factor (W.delta r) i (W.scatter r ω).1) * e) ∂uniform := by
        refine lintegral_mono fun ω => ?_
        rw [← mul_add]
        exact mul_le_mul_right (hfg _ _) _
    _ = _ := lintegral_add_right _ (mf.mul_const e)
    _ ≤ _ := by
        rw [lintegral_mul_const _ mf]
        gcongr
        exact hs r

theorem finds_succ (W : World R) {i : Fin 3} {B : ℝ} (hB : W.FindsAtMost i B) (f : R → ℝ≥0∞) (look : Bool) (r : R) :
    (if W.escapes r = true then ENNReal.ofReal ((W.env r).get i)
      else (if look = true then ENNReal.ofReal ((W.emitted r).get i) else 0) + W.direct i r + f r) ≤
      ENNReal.ofReal B + f r := by
  have := hB r
  by_cases he : W.escapes r = true
  · rw [if_pos he] at this ⊢
    exact le_add_right this
  · rw [if_neg he] at this ⊢
    gcongr
    refine le_trans ?_ this
    gcongr
    cases look <;> simp

theorem carried_bounded (W : World R) (h : W.Lawful) {i : Fin 3} {ρ B : ℝ} (hρ : 0 ≤ ρ) (hρ1 : ρ < 1) (hB0 : 0 ≤ B)
    (hs : W.SendsAtMost i ρ) (hB : W.FindsAtMost i B) (n : ℕ) : ∀ look r,
    W.carried i n look r ≤ ENNReal.ofReal (B / (1 - ρ)) := by
  have h1 : 0 < 1 - ρ := by linarith
  induction n with
  | zero => intro look r; exact zero_le
  | succ n ih =>
    intro look r
    rw [World.carried]
    refine (finds_succ W hB (fun r => ∫⁻ ω, ENNReal.ofReal (factor (W.delta r) i (W.scatter r ω).1) *
        W.carried i n (W.delta r) (W.scatter r ω).1.ray ∂uniform) look r).trans ?_
    have := step_error W h hρ hs r (f := W.carried i n) (g := fun _ _ => 0) (e := ENNReal.ofReal (B / (1 - ρ)))
      (by simpa using ih)
    simp only [mul_zero, lintegral_zero, zero_add] at this
    refine (add_le_add le_rfl this).trans ?_
    rw [← ENNReal.ofReal_mul hρ, ← ENNReal.ofReal_add hB0 (by positivity)]
    refine ENNReal.ofReal_le_ofReal (le_of_eq ?_)
    field_simp
    ring

/-- What satisfies the equation and is at most `M` exceeds the light carried back along at most `n` segments by at most
`ρ^n M`. -/
theorem solution_le (W : World R) (h : W.Lawful) {i : Fin 3} {ρ : ℝ} (hρ : 0 ≤ ρ) (hs : W.SendsAtMost i ρ)
    {L : Bool → R → ℝ≥0∞} (hL : W.Solves i L) {M : ℝ≥0∞} (hM : ∀ look r, L look r ≤ M) (n : ℕ) : ∀ look r,
    L look r ≤ W.carried i n look r + ENNReal.ofReal ρ ^ n * M := by
  induction n with
  | zero => intro look r; simpa [World.carried] using hM look r
  | succ n ih =>
    intro look r
    rw [hL look r, World.carried]
    by_cases he : W.escapes r = true
    · simp only [if_pos he]; exact le_self_add
    · simp only [if_neg he]
      rw [add_assoc (_ + _), pow_succ', mul_assoc]
      exact add_le_add le_rfl (step_error W h hρ hs r ih)

theorem solution_ge (W : World R) {i : Fin 3} {L : Bool → R → ℝ≥0∞} (hL : W.Solves i L) (n : ℕ) : ∀ look r,
    W.carried i n look r ≤ L look r := by
  induction n with
  | zero => intro look r; exact zero_le
  | succ n ih =>
    intro look r
    rw [hL look r, World.carried]
    by_cases he : W.escapes r = true
    · simp only [if_pos he]; exact le_rfl
    · simp only [if_neg he]
      refine add_le_add le_rfl (lintegral_mono fun ω => mul_le_mul_right (ih _ _) _)

/-! ## Surfaces of rooms -/

open Bsdf Warp in
/-- Every sampled direction of a diffuse, mirror or glass surface sends on at most its colour. -/
theorem room_factor (S : Room) (h : S.Lawful) (i : Fin 3) (r : Ray) (ω : Stream) :
    factor (S.material r).isDelta i (S.scatter r ω).1 ≤ (S.albedo r).get i := by
  have ha := (h.albedo_nonneg r).get i
  have ho := h.frame r
  rw [scatter_eq]
  by_cases hg : S.material r = .glass
  · rw [if_pos hg, hg]
    simp only [factor, Room.onward, Bounce.pdf, Bounce.albedo, glass_plain, Material.isDelta]
    simp
  · rw [if_neg hg]
    by_cases hz : (S.wi r).z ≤ 0
    · rw [if_pos hz]
      simpa [factor, Room.black, Bounce.pdf] using ha
    · rw [if_neg hz]
      by_cases hm : S.material r = .mirror
      · rw [if_pos hm, hm]
        simp [factor, Room.onward, Bounce.pdf, Bounce.albedo, mirrored, Material.isDelta]
      · have hd : S.material r = .diffuse := by
          cases hmat : S.material r <;> simp_all
        rw [if_neg hm, hd]
        have h0 : 0 ≤ (cosHemi ⟨(next2 ω).1.1, (next2 ω).1.2⟩).z := Real.sqrt_nonneg _
        have hpi := Real.pi_pos
        simp only [factor, Room.onward, Bounce.pdf, Bounce.albedo, Bounce.cos, lobe, normal_toWorld ho, get_smul,
          Material.isDelta, Bool.false_eq_true, if_false]
        by_cases hq : (cosHemi ⟨(next2 ω).1.1, (next2 ω).1.2⟩).z = 0
        · simp [hq, ha]
        · rw [if_neg (by positivity), abs_of_nonneg h0]
          refine le_of_eq ?_
          field_simp

end Feign.Integrators
