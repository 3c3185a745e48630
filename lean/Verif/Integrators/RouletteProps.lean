import Verif.Integrators.PathProps
import Mathlib.MeasureTheory.Measure.Lebesgue.Basic

/-!
# C71: random termination, as a probability

The random numbers of a path are independent and uniform on `[0, 1]`: a point of a unit cube.
-/

set_option linter.unusedSectionVars false

namespace Feign.Integrators

open MeasureTheory

section general
variable {K : Type} [Field K] [LinearOrder K] [IsStrictOrderedRing K]

/-- The same answers with the random numbers `u`. -/
def withRandom (ans : ℕ → Answer K) (u : ℕ → K) (k : ℕ) : Answer K :=
  match ans k with
  | .escape q e => .escape q e
  | .surface q s => .surface q { s with u := u k }

theorem densityBefore_withRandom (ans : ℕ → Answer K) (u : ℕ → K) (k : ℕ) :
    densityBefore (withRandom ans u) k = densityBefore ans k := by
  induction k with
  | zero => rfl
  | succ k ih =>
    simp only [densityBefore, withRandom, ih]
    cases ans k with
    | escape q e => rfl
    | surface q s =>
      obtain ⟨_, _, _, _, _, sc, _, _⟩ := s
      cases sc <;> rfl

/-- The throughput of a vertex does not depend on the random numbers used for termination. -/
theorem throughput_withRandom (quot : K → K → K) (ans : ℕ → Answer K) (u : ℕ → K) (k : ℕ) :
    throughput quot (withRandom ans u) k = throughput quot ans k := by
  induction k with
  | zero => rfl
  | succ k ih =>
    have hd := densityBefore_withRandom ans u (k + 1)
    rw [throughput, throughput, hd, ih]
    simp only [withRandom]
    cases ans k <;> rfl

end general

/-- The random numbers `u` of the first `k` vertices, `0` afterwards. -/
noncomputable def extend {k : ℕ} (u : Fin k → ℝ) (j : ℕ) : ℝ := if h : j < k then u ⟨j, h⟩ else 0

/-- C71. The probability that a path gets as far as vertex `k` is the product of the probabilities of going on at
the vertices before it. (Vertex `k` must not be cut off for another reason: the vertices before it are surfaces
with a sampled direction, and no throughput is treated as zero.) -/
theorem survival_probability (quot : ℝ → ℝ → ℝ) (hq : IsQuot quot) (ans : ℕ → Answer ℝ)
    (h : ∀ k, NonNegAnswer (ans k)) (k : ℕ) (hs : ∀ j < k, ∃ q s, ans j = .surface q s)
    (hd : ∀ j < k, densityBefore ans (j + 1) ≠ 0) (hz : ∀ j ≤ k, ¬ Negligible (throughput quot ans j)) :
    volume {u : Fin k → ℝ | (∀ j, u j ∈ Set.Icc (0 : ℝ) 1) ∧ Reached quot (withRandom ans (extend u)) k} =
      ENNReal.ofReal (∏ j ∈ Finset.range k, goOn quot ans j) := by
  have hz' := hz
  replace hz : ∀ j ≤ k, isZero (throughput quot ans j) = false := fun j hj => (not_negligible_iff _).1 (hz j hj)
  have hgo : ∀ (u : ℕ → ℝ) j, goOn quot (withRandom ans u) j = goOn quot ans j := fun u j => by
    unfold goOn; rw [throughput_withRandom]
  have hnn : ∀ j ≤ k, NonNeg (throughput quot ans j) := by
    intro j hj
    have := throughput_nonneg hq (ans := withRandom ans fun _ => 0) (fun m => by
      have hm := h m
      unfold withRandom
      cases ha : ans m with
      | escape q e => rw [ha] at hm; exact hm
      | surface q s => rw [ha] at hm; exact hm) j ?_ ?_
    · rwa [throughput_withRandom] at this
    · induction j with
      | zero => intro m hm; omega
      | succ j ih =>
        intro m hm
        have ihj := ih (by omega)
        obtain ⟨q, s, ha⟩ := hs m (by omega)
        refine ⟨q, { s with u := 0 }, by simp only [withRandom, ha], ?_, ?_⟩
        · rw [hgo]
          rcases Nat.lt_or_eq_of_le (Nat.lt_succ_iff.1 hm) with hm' | rfl
          · obtain ⟨q', s', ha', hu, _⟩ := ihj m hm'
            simp only [withRandom, ha] at ha'
            cases ha'
            rw [hgo] at hu
            exact hu
          · have hn := throughput_nonneg hq (ans := withRandom ans fun _ => 0) (fun m => by
              have hm := h m
              unfold withRandom
              cases ha : ans m with
              | escape q e => rw [ha] at hm; exact hm
              | surface q s => rw [ha] at hm; exact hm) m ihj (fun m' hm' => by
                rw [throughput_withRandom]; exact hz m' (by omega))
            rw [throughput_withRandom] at hn
            exact (goOn_pos hn (hz m (by omega))).le
        · rw [densityBefore_withRandom]
          exact hd m (by omega)
    · intro m hm
      rw [throughput_withRandom]
      exact hz m (by omega)
  have hpos : ∀ j ≤ k, 0 < goOn quot ans j := fun j hj => goOn_pos (hnn j hj) (hz j hj)
  have hset : {u : Fin k → ℝ | (∀ j, u j ∈ Set.Icc (0 : ℝ) 1) ∧ Reached quot (withRandom ans (extend u)) k} =
      Set.Icc (fun _ => (0 : ℝ)) (fun j : Fin k => goOn quot ans j) := by
    ext u
    simp only [Set.mem_ofPred_eq, Set.mem_Icc, Pi.le_def]
    constructor
    · rintro ⟨h1, h2, _⟩
      refine ⟨fun j => (h1 j).1, fun j => ?_⟩
      obtain ⟨q, s, ha, hu, _⟩ := h2 j j.2
      rw [hgo] at hu
      obtain ⟨q', s', ha'⟩ := hs j j.2
      simp only [withRandom, ha'] at ha
      cases ha
      simpa [extend] using hu
    · rintro ⟨h1, h2⟩
      refine ⟨fun j => ⟨h1 j, (h2 j).trans (min_le_right _ _)⟩, fun j hj => ?_, fun j hj => ?_⟩
      · obtain ⟨q, s, ha⟩ := hs j hj
        refine ⟨q, { s with u := extend u j }, by simp only [withRandom, ha], ?_, ?_⟩
        · rw [hgo]
          simpa [extend, hj] using h2 ⟨j, hj⟩
        · rw [densityBefore_withRandom]
          exact hd j hj
      · rw [throughput_withRandom]
        exact hz' j hj
  rw [hset, Real.volume_Icc_pi, ENNReal.ofReal_prod_of_nonneg]
  · simp only [sub_zero]
    exact Fin.prod_univ_eq_prod_range (fun j => ENNReal.ofReal (goOn quot ans j)) k
  · intro j hj
    exact (hpos j (Finset.mem_range.1 hj).le).le

/-- A grey wall everywhere: half of the light goes on at each vertex, so the second vertex is always reached and
the third with probability one half. -/
noncomputable def greyWall (_ : ℕ) : Answer ℝ :=
  .surface 1 ⟨.simple, true, 0, [], 0, .bsdf ⟨1 / 2, 1 / 2, 1 / 2⟩ 1, 1, 0⟩

theorem greyWall_throughput :
    throughput (fun a b : ℝ => a / b) greyWall 1 = ⟨1 / 2, 1 / 2, 1 / 2⟩ ∧
      throughput (fun a b : ℝ => a / b) greyWall 2 = ⟨1 / 2, 1 / 2, 1 / 2⟩ := by
  have h1 : throughput (fun a b : ℝ => a / b) greyWall 1 = ⟨1 / 2, 1 / 2, 1 / 2⟩ := by
    simp only [throughput, greyWall, densityBefore, divBy, albedo, cosine, white, V3.maxValue]
    ext <;> norm_num
  refine ⟨h1, ?_⟩
  rw [throughput, h1]
  simp only [greyWall, densityBefore, divBy, albedo, cosine, V3.maxValue]
  ext <;> norm_num

example : volume {u : Fin 2 → ℝ | (∀ j, u j ∈ Set.Icc (0 : ℝ) 1) ∧
    Reached (fun a b => a / b) (withRandom greyWall (extend u)) 2} = ENNReal.ofReal (1 / 2) := by
  obtain ⟨t1, t2⟩ := greyWall_throughput
  rw [survival_probability _ (fun a b _ => rfl)]
  · congr 1
    rw [Finset.prod_range_succ, Finset.prod_range_one, goOn, goOn, t1]
    simp only [throughput, white, V3.maxValue]
    norm_num
  · intro k
    refine ⟨by simp [NonNeg], by simp, ?_⟩
    intro a p h
    cases h
    norm_num [NonNeg]
  · intro j _
    exact ⟨_, _, rfl⟩
  · intro j _
    simp [densityBefore, greyWall]
  · intro j hj
    have : j = 0 ∨ j = 1 ∨ j = 2 := by omega
    rcases this with rfl | rfl | rfl
    · simp only [throughput, white, Negligible]; norm_num
    · rw [t1]; simp only [Negligible]; norm_num
    · rw [t2]; simp only [Negligible]; norm_num

end Feign.Integrators
