import Verif.Math.Single
import Mathlib.Tactic.Linarith
import Mathlib.Tactic.Positivity
import Mathlib.Tactic.Ring
import Mathlib.Tactic.NormNum
import Mathlib.Tactic.FieldSimp
import Mathlib.Tactic.Push

/-! Facts about `single`: the relative error is at most `2⁻²⁴`, it is monotone and keeps 24 bit numbers. -/

set_option linter.unusedSectionVars false

namespace Feign

variable {K : Type} [Field K] [LinearOrder K] [IsStrictOrderedRing K] [FloorRing K]

theorem nearest_cases (x : K) : nearest x = ⌊x⌋ ∧ x - ⌊x⌋ ≤ 1 / 2 ∨ nearest x = ⌊x⌋ + 1 ∧ 1 / 2 ≤ x - ⌊x⌋ := by
  unfold nearest
  split_ifs with h1 h2 h3
  · exact .inl ⟨rfl, h1.le⟩
  · exact .inr ⟨rfl, h2.le⟩
  · exact .inl ⟨rfl, not_lt.1 h2⟩
  · exact .inr ⟨rfl, not_lt.1 h1⟩

theorem nearest_err (x : K) : |(nearest x : K) - x| ≤ 1 / 2 := by
  have h0 := Int.floor_le x
  have h1 := Int.lt_floor_add_one x
  rcases nearest_cases x with ⟨e, h⟩ | ⟨e, h⟩
  · rw [e, abs_le]; constructor <;> linarith
  · rw [e, abs_le]; push_cast; constructor <;> linarith

theorem nearest_int (n : ℤ) : nearest (n : K) = n := by
  unfold nearest
  rw [Int.floor_intCast, if_pos (by simp)]

theorem nearest_mono : Monotone (nearest : K → ℤ) := by
  intro x y hxy
  have hf := Int.floor_le_floor hxy
  rcases hf.lt_or_eq with h | h
  · have h1 : nearest x ≤ ⌊x⌋ + 1 := by
      rcases nearest_cases x with ⟨e, -⟩ | ⟨e, -⟩ <;> omega
    have h2 : ⌊y⌋ ≤ nearest y := by
      rcases nearest_cases y with ⟨e, -⟩ | ⟨e, -⟩ <;> omega
    omega
  · unfold nearest
    rw [h]
    split_ifs <;> first | omega | (exfalso; linarith)

theorem two_zpow_pos (e : ℤ) : (0 : K) < 2 ^ e := zpow_pos two_pos e

theorem spacing_pos (x : K) : 0 < spacing x := two_zpow_pos _

theorem log_bounds {x : K} (hx : x ≠ 0) : (2 : K) ^ Int.log 2 |x| ≤ |x| ∧ |x| < (2 : K) ^ (Int.log 2 |x| + 1) := by
  have h1 := Int.zpow_log_le_self (R := K) (b := 2) (by norm_num) (abs_pos.2 hx)
  have h2 := Int.lt_zpow_succ_log_self (R := K) (b := 2) (by norm_num) |x|
  push_cast at h1 h2
  exact ⟨h1, h2⟩

/-- `|x|` is between `2²³` and `2²⁴` spacings. -/
theorem spacing_bounds {x : K} (hx : x ≠ 0) : 2 ^ 23 * spacing x ≤ |x| ∧ |x| < 2 ^ 24 * spacing x := by
  obtain ⟨h1, h2⟩ := log_bounds hx
  have e1 : (2 : K) ^ 23 * spacing x = (2 : K) ^ Int.log 2 |x| := by
    unfold spacing
    rw [← zpow_natCast, ← zpow_add₀ (by norm_num)]
    congr 1; push_cast; ring
  have e2 : (2 : K) ^ 24 * spacing x = (2 : K) ^ (Int.log 2 |x| + 1) := by
    unfold spacing
    rw [← zpow_natCast, ← zpow_add₀ (by norm_num)]
    congr 1; push_cast; ring
  rw [e1, e2]
  exact ⟨h1, h2⟩

theorem single_zero : single (0 : K) = 0 := if_pos rfl

/-- The relative error. -/
theorem single_err (x : K) : |single x - x| ≤ 1 / 2 ^ 24 * |x| := by
  unfold single
  split_ifs with h
  · simp [h]
  · have hs := spacing_pos x
    have h1 := nearest_err (x / spacing x)
    have h2 : (nearest (x / spacing x) : K) * spacing x - x =
        ((nearest (x / spacing x) : K) - x / spacing x) * spacing x := by field_simp
    rw [h2, abs_mul, abs_of_pos hs]
    have h3 := (spacing_bounds h).1
    have h4 := mul_le_mul_of_nonneg_right h1 hs.le
    refine h4.trans ?_
    linarith

theorem single_err_spacing (x : K) : |single x - x| ≤ spacing x / 2 := by
  have hs := spacing_pos x
  unfold single
  split_ifs with h
  · rw [h, sub_zero, abs_zero]; have := spacing_pos (0 : K); linarith
  · have h1 := nearest_err (x / spacing x)
    have h2 : (nearest (x / spacing x) : K) * spacing x - x =
        ((nearest (x / spacing x) : K) - x / spacing x) * spacing x := by field_simp
    rw [h2, abs_mul, abs_of_pos hs]
    have h4 := mul_le_mul_of_nonneg_right h1 hs.le
    linarith

theorem single_rep (m e : ℤ) (hm : |m| ≤ 2 ^ 24) : single ((m : K) * 2 ^ e) = (m : K) * 2 ^ e := by
  by_cases h0 : m = 0
  · subst h0; simp [single_zero]
  have h2e : (0 : K) < 2 ^ e := two_zpow_pos e
  have hm0 : (m : K) ≠ 0 := by exact_mod_cast h0
  set x : K := (m : K) * 2 ^ e with hx
  have hx0 : x ≠ 0 := mul_ne_zero hm0 h2e.ne'
  have habs : |x| = |(m : K)| * 2 ^ e := by rw [hx, abs_mul, abs_of_pos h2e]
  have hmK : |(m : K)| ≤ 2 ^ 24 := by
    rw [← Int.cast_abs]
    exact_mod_cast hm
  obtain ⟨l1, l2⟩ := log_bounds hx0
  have hint : ∃ n : ℤ, x / spacing x = n := by
    have hs := spacing_pos x
    set L := Int.log 2 |x| with hL
    have hle : L ≤ 24 + e := by
      by_contra hc
      have h1 : (2 : K) ^ (24 + e) < 2 ^ L := zpow_lt_zpow_right₀ (by norm_num) (by omega)
      have h2 : |x| ≤ 2 ^ (24 + e) := by
        rw [habs, zpow_add₀ (by norm_num)]
        exact mul_le_mul_of_nonneg_right (by exact_mod_cast hmK) h2e.le
      linarith
    rcases hle.lt_or_eq with hlt | heq
    · refine ⟨m * 2 ^ (e + 23 - L).toNat, ?_⟩
      rw [div_eq_iff hs.ne']
      unfold spacing
      rw [← hL]
      push_cast
      rw [← zpow_natCast, Int.toNat_of_nonneg (by omega), mul_assoc, ← zpow_add₀ (by norm_num), hx]
      congr 2; ring
    · have hm24 : |(m : K)| = 2 ^ 24 := by
        refine le_antisymm hmK ?_
        rw [heq, zpow_add₀ (by norm_num), habs] at l1
        have := le_of_mul_le_mul_right l1 h2e
        exact_mod_cast this
      have hm' : |m| = 2 ^ 24 := by
        rw [← Int.cast_abs] at hm24
        exact_mod_cast hm24
      have hsp : spacing x = 2 * 2 ^ e := by
        unfold spacing
        rw [← hL, heq, show (24 + e - 23 : ℤ) = 1 + e by ring, zpow_add₀ (by norm_num), zpow_one]
      rcases abs_choice m with hc | hc
      · refine ⟨2 ^ 23, ?_⟩
        rw [hsp, div_eq_iff (by positivity), hx]
        have : m = 2 ^ 24 := by rw [← hc]; exact hm'
        rw [this]; push_cast; ring
      · refine ⟨-2 ^ 23, ?_⟩
        rw [hsp, div_eq_iff (by positivity), hx]
        have : m = -2 ^ 24 := by linarith
        rw [this]; push_cast; ring
  obtain ⟨n, hn⟩ := hint
  unfold single
  rw [if_neg hx0, hn, nearest_int, ← hn, div_mul_cancel₀ _ (spacing_pos x).ne']

theorem single_int (n : ℤ) (hn : |n| ≤ 2 ^ 24) : single (n : K) = n := by
  have := single_rep (K := K) n 0 hn
  simpa using this

theorem single_nat (n : ℕ) (hn : n ≤ 2 ^ 24) : single (n : K) = n := by
  have := single_int (K := K) n (by rw [abs_of_nonneg (by omega)]; exact_mod_cast hn)
  simpa using this

private theorem lower {x : K} (hx : 0 < x) : (2 : K) ^ Int.log 2 |x| ≤ single x ∧ single x ≤ 2 ^ (Int.log 2 |x| + 1) := by
  have h0 : x ≠ 0 := hx.ne'
  have hs := spacing_pos x
  obtain ⟨b1, b2⟩ := spacing_bounds h0
  rw [abs_of_pos hx] at b1 b2
  have e1 : (2 : K) ^ 23 * spacing x = (2 : K) ^ Int.log 2 |x| := by
    unfold spacing
    rw [← zpow_natCast, ← zpow_add₀ (by norm_num)]
    congr 1; push_cast; ring
  have e2 : (2 : K) ^ 24 * spacing x = (2 : K) ^ (Int.log 2 |x| + 1) := by
    unfold spacing
    rw [← zpow_natCast, ← zpow_add₀ (by norm_num)]
    congr 1; push_cast; ring
  rw [← e1, ← e2]
  unfold single
  rw [if_neg h0]
  have n1 : ((2 ^ 23 : ℤ) : K) ≤ x / spacing x := by rw [le_div_iff₀ hs]; push_cast; linarith
  have n2 : x / spacing x ≤ ((2 ^ 24 : ℤ) : K) := by rw [div_le_iff₀ hs]; push_cast; linarith
  have m1 := nearest_mono n1
  have m2 := nearest_mono n2
  rw [nearest_int] at m1 m2
  have m1' : ((2 ^ 23 : ℤ) : K) ≤ (nearest (x / spacing x) : K) := Int.cast_le.2 m1
  have m2' : (nearest (x / spacing x) : K) ≤ ((2 ^ 24 : ℤ) : K) := Int.cast_le.2 m2
  push_cast at m1' m2'
  have k1 := mul_le_mul_of_nonneg_right m1' hs.le
  have k2 := mul_le_mul_of_nonneg_right m2' hs.le
  constructor <;> linarith

private theorem upper {x : K} (hx : x < 0) : -(2 : K) ^ (Int.log 2 |x| + 1) ≤ single x ∧ single x ≤ -2 ^ Int.log 2 |x| := by
  have h0 : x ≠ 0 := hx.ne
  have hs := spacing_pos x
  obtain ⟨b1, b2⟩ := spacing_bounds h0
  rw [abs_of_neg hx] at b1 b2
  have e1 : (2 : K) ^ 23 * spacing x = (2 : K) ^ Int.log 2 |x| := by
    unfold spacing
    rw [← zpow_natCast, ← zpow_add₀ (by norm_num)]
    congr 1; push_cast; ring
  have e2 : (2 : K) ^ 24 * spacing x = (2 : K) ^ (Int.log 2 |x| + 1) := by
    unfold spacing
    rw [← zpow_natCast, ← zpow_add₀ (by norm_num)]
    congr 1; push_cast; ring
  rw [← e1, ← e2]
  unfold single
  rw [if_neg h0]
  have n1 : x / spacing x ≤ ((-2 ^ 23 : ℤ) : K) := by rw [div_le_iff₀ hs]; push_cast; linarith
  have n2 : ((-2 ^ 24 : ℤ) : K) ≤ x / spacing x := by rw [le_div_iff₀ hs]; push_cast; linarith
  have m1 := nearest_mono n1
  have m2 := nearest_mono n2
  rw [nearest_int] at m1 m2
  have m1' : (nearest (x / spacing x) : K) ≤ ((-2 ^ 23 : ℤ) : K) := Int.cast_le.2 m1
  have m2' : ((-2 ^ 24 : ℤ) : K) ≤ (nearest (x / spacing x) : K) := Int.cast_le.2 m2
  push_cast at m1' m2'
  have k1 := mul_le_mul_of_nonneg_right m1' hs.le
  have k2 := mul_le_mul_of_nonneg_right m2' hs.le
  constructor <;> linarith

private theorem same_log {x y : K} (hx : x ≠ 0) (hy : y ≠ 0) (h : Int.log 2 |x| = Int.log 2 |y|) (hxy : x ≤ y) :
    single x ≤ single y := by
  have hs : spacing x = spacing y := by unfold spacing; rw [h]
  have hp := spacing_pos y
  unfold single
  rw [if_neg hx, if_neg hy, hs]
  have : nearest (x / spacing y) ≤ nearest (y / spacing y) := nearest_mono (div_le_div_of_nonneg_right hxy hp.le)
  exact mul_le_mul_of_nonneg_right (Int.cast_le.2 this) hp.le

theorem single_nonneg {x : K} (hx : 0 ≤ x) : 0 ≤ single x := by
  rcases hx.lt_or_eq with h | h
  · exact le_trans (two_zpow_pos _).le (lower h).1
  · rw [← h, single_zero]

theorem single_nonpos {x : K} (hx : x ≤ 0) : single x ≤ 0 := by
  rcases hx.lt_or_eq with h | h
  · refine le_trans (upper h).2 ?_
    have : (0 : K) < 2 ^ Int.log 2 |x| := two_zpow_pos _
    linarith
  · rw [h, single_zero]

theorem single_mono : Monotone (single : K → K) := by
  intro x y hxy
  rcases lt_trichotomy x 0 with hx | hx | hx
  · rcases lt_or_ge y 0 with hy | hy
    · have hl : Int.log 2 |y| ≤ Int.log 2 |x| :=
        Int.log_mono_right (abs_pos.2 hy.ne) (by rw [abs_of_neg hx, abs_of_neg hy]; linarith)
      rcases hl.lt_or_eq with h | h
      · refine (upper hx).2.trans (le_trans ?_ (upper hy).1)
        have : (2 : K) ^ (Int.log 2 |y| + 1) ≤ 2 ^ Int.log 2 |x| := zpow_le_zpow_right₀ (by norm_num) (by omega)
        linarith
      · exact same_log hx.ne hy.ne h.symm hxy
    · exact (single_nonpos hx.le).trans (single_nonneg hy)
  · subst hx
    rw [single_zero]
    exact single_nonneg hxy
  · have hy : 0 < y := lt_of_lt_of_le hx hxy
    have hl : Int.log 2 |x| ≤ Int.log 2 |y| :=
      Int.log_mono_right (abs_pos.2 hx.ne') (by rw [abs_of_pos hx, abs_of_pos hy]; exact hxy)
    rcases hl.lt_or_eq with h | h
    · refine (lower hx).2.trans (le_trans ?_ (lower hy).1)
      exact zpow_le_zpow_right₀ (by norm_num) (by omega)
    · exact same_log hx.ne' hy.ne' h hxy

end Feign
