import Verif.Sampling.DiscretePdf
import Mathlib.Tactic.Linarith
import Mathlib.Tactic.Ring
import Mathlib.Tactic.FieldSimp
import Mathlib.Algebra.BigOperators.Group.List.Basic
import Mathlib.Algebra.Order.BigOperators.Group.List
import Mathlib.Data.List.Basic

/-! Helper lemmas for `Verif/Sampling/DiscretePdfProps.lean`. -/

set_option linter.unusedSectionVars false

namespace Feign.Sampling

variable {K : Type} [Field K] [LinearOrder K] [IsStrictOrderedRing K] [FloorRing K]

theorem getAt_nat {α : Type} (l : List α) (i : Nat) (h : i < l.length) :
    getAt l (i : Int) = .ok l[i] := by
  unfold getAt
  rw [if_neg (by omega)]
  simp [h]

theorem runningSums_length (acc : K) (l : List K) : (runningSums acc l).length = l.length + 1 := by
  induction l generalizing acc with
  | nil => rfl
  | cons x xs ih => simp [runningSums, ih]

theorem runningSums_getElem (acc : K) (l : List K) (i : Nat) (h : i < (runningSums acc l).length) :
    (runningSums acc l)[i] = acc + (l.take i).sum := by
  induction l generalizing acc i with
  | nil =>
    have : i = 0 := by simp [runningSums] at h; omega
    subst this; simp [runningSums]
  | cons x xs ih =>
    cases i with
    | zero => simp [runningSums]
    | succ i =>
      simp only [runningSums, List.getElem_cons_succ, List.take_succ_cons, List.sum_cons]
      rw [ih]; ring

theorem runningSums_getLast (acc : K) (l : List K) :
    (runningSums acc l).getLast? = some (acc + l.sum) := by
  induction l generalizing acc with
  | nil => simp [runningSums]
  | cons x xs ih =>
    simp only [runningSums]
    rw [List.getLast?_cons, ih]
    simp; ring

theorem areaTable_eq (areas : List K) (h : areas.sum ≠ 0) :
    areaTable areas = .ok ((runningSums 0 areas).map (· * (1 / areas.sum))) := by
  unfold areaTable normalizeCdf
  rw [runningSums_getLast]
  simp only [zero_add]
  rw [if_neg h]

theorem sum_take_le (l : List K) (hl : ∀ x ∈ l, 0 ≤ x) (i j : Nat) (h : i ≤ j) :
    (l.take i).sum ≤ (l.take j).sum := by
  induction l generalizing i j with
  | nil => simp
  | cons x xs ih =>
    cases i with
    | zero =>
      simp only [List.take_zero, List.sum_nil]
      exact List.sum_nonneg (fun y hy => hl y (List.mem_of_mem_take hy))
    | succ i =>
      cases j with
      | zero => omega
      | succ j =>
        simp only [List.take_succ_cons, List.sum_cons]
        have := ih (fun y hy => hl y (by simp [hy])) i j (by omega)
        linarith

theorem sum_take_succ (l : List K) (i : Nat) (h : i < l.length) :
    (l.take (i + 1)).sum = (l.take i).sum + l[i] := by
  rw [List.take_add_one]
  simp [h]

/-- Where the search of `sample` stops. -/
theorem scan_spec (value : K) (l : List K) (i : Nat) (hl : l ≠ []) :
    i ≤ scan value l i ∧ scan value l i < i + l.length ∧
    (∀ k (hk : k < l.length), i + k < scan value l i → l[k] < value) ∧
    (∀ (hk : scan value l i - i < l.length), scan value l i < i + l.length - 1 →
      ¬ l[scan value l i - i] < value) := by
  induction l generalizing i with
  | nil => exact absurd rfl hl
  | cons x t ih =>
    cases t with
    | nil => simp [scan]
    | cons y t =>
      simp only [scan]
      split
      · rename_i hx
        obtain ⟨h1, h2, h3, h4⟩ := ih (i + 1) (by simp)
        refine ⟨by omega, by simp only [List.length_cons] at *; omega, ?_, ?_⟩
        · intro k hk hlt
          cases k with
          | zero => exact hx
          | succ k =>
            simp only [List.getElem_cons_succ]
            exact h3 k (by simpa using hk) (by omega)
        · intro hk hlt
          have e : scan value (y :: t) (i + 1) - i = (scan value (y :: t) (i + 1) - (i + 1)) + 1 := by
            omega
          have h4' := h4 (by simp only [List.length_cons] at *; omega)
            (by simp only [List.length_cons] at *; omega)
          simp only [e, List.getElem_cons_succ]
          exact h4'
      · rename_i hx
        refine ⟨Nat.le_refl _, by simp, ?_, ?_⟩
        · intro k _ hlt; omega
        · intro hk hlt
          simpa using hx

omit [IsStrictOrderedRing K] in
theorem truncInt_zero [IsStrictOrderedRing K] (x : K) (h0 : 0 ≤ x) (h1 : x < 1) : truncInt x = 0 := by
  unfold truncInt
  rw [if_pos h0, Int.floor_eq_zero_iff]
  exact ⟨h0, h1⟩

/-- On any table with entries `≥ 0` whose first entry is `< 1`, every value `≤ 1` gives index 0. -/
theorem sample_eq_zero (cdf : List K) (hne : cdf ≠ []) (hnn : ∀ x ∈ cdf, 0 ≤ x)
    (h0 : ∀ h : 0 < cdf.length, cdf[0] < 1) (u : K) (hu : u ≤ 1) : sample cdf u = .ok 0 := by
  obtain ⟨h1, h2, h3, -⟩ := scan_spec u cdf 0 hne
  unfold sample
  have hlen : 0 < cdf.length := List.length_pos_iff.mpr hne
  by_cases hz : scan u cdf 0 = 0
  · rw [hz]
    have : (max (((0 : Nat) : Int) - 1) 0) = ((0 : Nat) : Int) := by decide
    rw [this, getAt_nat _ _ hlen, Res.bind_ok, truncInt_zero _ (hnn _ (by simp)) (h0 hlen)]
    rfl
  · have e : (max (((scan u cdf 0 : Nat) : Int) - 1) 0) = ((scan u cdf 0 - 1 : Nat) : Int) := by omega
    have hlt : scan u cdf 0 - 1 < cdf.length := by omega
    rw [e, getAt_nat _ _ hlt, Res.bind_ok]
    have := h3 (scan u cdf 0 - 1) hlt (by omega)
    rw [truncInt_zero _ (hnn _ (by simp)) (lt_of_lt_of_le this hu)]
    rfl

end Feign.Sampling
