import Verif.Integrators.Lemmas
import Verif.Integrators.Spec

/-! # The path loop against its specification -/

set_option linter.unusedSectionVars false
set_option linter.unusedSimpArgs false

namespace Feign.Integrators

variable {K : Type} [Field K] [LinearOrder K]

theorem accumulate_eq (rays : List (ShadowRay K)) (c : Closure K) :
    accumulate rays c =
      { c with nee := c.nee + (rays.filter (·.valid)).foldr (fun r v => r.throughput * r.albedo + v) 0 } := by
  induction rays generalizing c with
  | nil => simp [accumulate]
  | cons r rs ih =>
    rw [accumulate, List.foldl_cons, ← accumulate, ih]
    by_cases h : r.valid
    · simp [h, List.filter_cons, add_assoc]
    · simp [h, List.filter_cons]

/-- The closure agrees with the history of the path up to vertex `i`. -/
structure Agrees (ans : ℕ → Answer K) (i : ℕ) (c : Closure K) : Prop where
  look : c.lastSpec = looksAt ans i
  shadow : c.acceptsShadows = samplesLights ans i
  pdf : c.pdf = densityBefore ans i

theorem shaded_eq {ans : ℕ → Answer K} {i q : ℕ} {s : Surface K} {c : Closure K} (h : Agrees ans i c)
    (_ha : ans i = .surface q s) :
    (shaded s c).emission = emissionAt ans i s ∧ (shaded s c).nee = directAt ans i s ∧
      (shaded s c).isSpecular = s.delta ∧ (shaded s c).pdf = densityBefore ans i := by
  obtain ⟨h1, h2, h3⟩ := h
  unfold shaded
  rw [accumulate_eq]
  unfold evaluate emissionAt directAt directLight
  cases hd : s.delta <;> cases hl : looksAt ans i <;> cases hs : samplesLights ans i <;> cases s.shader <;>
    simp [h1, h2, h3, hl, hs]

theorem sampled_agrees {ans : ℕ → Answer K} {i q : ℕ} {s : Surface K} {c : Closure K} (h : Agrees ans i c)
    (ha : ans i = .surface q s) : Agrees ans (i + 1) (sample s (shaded s c)) := by
  obtain ⟨h1, h2, h3⟩ := h
  unfold shaded
  rw [accumulate_eq]
  obtain ⟨sh, de, em, sr, sq, sc, co, u⟩ := s
  constructor <;> unfold sample evaluate <;> simp only [looksAt, samplesLights, densityBefore, ha] <;>
    cases de <;> cases sh <;> cases sc <;> cases hl : looksAt ans i <;> cases hs : samplesLights ans i <;>
    simp [h1, h2, h3, hl, hs]

theorem sample_albedo (s : Surface K) (c : Closure K) : (sample s c).albedo = albedo s := by
  unfold sample albedo
  cases s.scatter <;> rfl

variable [IsStrictOrderedRing K]

theorem nextState_eq {quot : K → K → K} {ans : ℕ → Answer K} {i q : ℕ} {s : Surface K} {st : PathState K}
    (h : Agrees ans i st.closure) (hb : st.beta = throughput quot ans i) (ha : ans i = .surface q s) :
    (nextState quot s st).Li = st.Li + throughput quot ans i * lightAt ans i ∧
      (nextState quot s st).beta = throughput quot ans (i + 1) ∧
      Agrees ans (i + 1) (nextState quot s st).closure := by
  obtain ⟨e1, e2, e3, e4⟩ := shaded_eq h ha
  refine ⟨?_, ?_, sampled_agrees h ha⟩
  · simp only [nextState, lightAt, ha, e1, e2, hb]
    rw [add_comm (directAt ans i s)]
  · have hp := (sampled_agrees h ha).pdf
    simp only [nextState, hp, sample_albedo, (sample_emission s _).2.2, e3, throughput, ha, hb]
    have hcos : (if s.delta = true then 1 else if s.cos < 0 then -s.cos else s.cos) = cosine s := by
      unfold cosine
      cases s.delta with
      | true => simp
      | false =>
        simp only [Bool.false_eq_true, if_false]
        by_cases hc : s.cos < 0
        · rw [if_pos hc, abs_of_neg hc]
        · rw [if_neg hc, abs_of_nonneg (not_lt.1 hc)]
    rw [hcos]

theorem contribution_zero_of_not_survives {quot : K → K → K} {ans : ℕ → Answer K} {i : ℕ}
    (h : ¬ Survives quot ans i) (k : ℕ) (hk : i < k) : contribution quot ans k = 0 := by
  unfold contribution
  rw [if_neg]
  rintro ⟨h1, _⟩
  exact h (h1 i hk)

theorem contribution_zero_of_isZero {quot : K → K → K} {ans : ℕ → Answer K} {i : ℕ}
    (h : isZero (throughput quot ans i) = true) (k : ℕ) (hk : i ≤ k) : contribution quot ans k = 0 := by
  unfold contribution
  rw [if_neg]
  rintro ⟨_, h2⟩
  rw [(not_negligible_iff _).1 (h2 i hk)] at h
  exact absurd h (by simp)

theorem pathPure_eq (quot : K → K → K) (ans : ℕ → Answer K) (n : ℕ) : ∀ (i : ℕ) (st : PathState K),
    (∀ j < i, Survives quot ans j ∧ isZero (throughput quot ans j) = false) →
    st.beta = throughput quot ans i → Agrees ans i st.closure →
    pathPure quot ans n i st = st.Li + ∑ k ∈ Finset.range n, contribution quot ans (i + k) := by
  induction n with
  | zero => intro i st _ _ _; simp [pathPure]
  | succ n ih =>
    intro i st hpre hb hag
    rw [pathPure]
    by_cases hz : isZero st.beta = true
    · rw [if_pos hz, Finset.sum_eq_zero, add_zero]
      intro k _
      exact contribution_zero_of_isZero (by rw [← hb]; exact hz) _ (Nat.le_add_right _ _)
    · rw [if_neg hz]
      have hre : Reached quot ans i := by
        refine ⟨fun j hj => (hpre j hj).1, fun j hj => ?_⟩
        rcases Nat.lt_or_eq_of_le hj with hj | rfl
        · exact (not_negligible_iff _).2 (hpre j hj).2
        · rw [← hb]; exact (not_negligible_iff _).2 (by simpa using hz)
      have hci : contribution quot ans i = throughput quot ans i * lightAt ans i := by
        unfold contribution; rw [if_pos hre]
      have hlast : ¬ Survives quot ans i →
          (∑ k ∈ Finset.range (n + 1), contribution quot ans (i + k)) = throughput quot ans i * lightAt ans i := by
        intro hs
        rw [Finset.sum_range_succ', Finset.sum_eq_zero, zero_add, Nat.add_zero, hci]
        intro k _
        exact contribution_zero_of_not_survives hs _ (by omega)
      cases ha : ans i with
      | escape q env =>
        have hs : ¬ Survives quot ans i := by
          rintro ⟨q', s', h, _⟩
          rw [ha] at h
          cases h
        rw [hlast hs, hb]
        simp only [lightAt, ha]
      | surface q s =>
        obtain ⟨e1, e2, e3, e4⟩ := shaded_eq hag ha
        have hp := (sampled_agrees hag ha).pdf
        by_cases hstop : s.u > min st.beta.maxValue 1 ∨ (sample s (shaded s st.closure)).pdf = 0
        · have hs : ¬ Survives quot ans i := by
            rintro ⟨q', s', h, hu, hpd⟩
            rw [ha] at h
            cases h
            rcases hstop with hstop | hstop
            · rw [hb] at hstop
              exact absurd hu (not_le.2 hstop)
            · exact hpd (by rw [← hp]; exact hstop)
          rw [hlast hs, hb]
          simp only [if_pos hstop, lightAt, ha, e1, e2, hb]
          rw [← hb, if_pos hstop]
        · have hs : Survives quot ans i := by
            refine ⟨q, s, ha, ?_, ?_⟩
            · unfold goOn
              rw [← hb]
              exact not_lt.1 fun h => hstop (Or.inl h)
            · rw [← hp]
              exact fun h => hstop (Or.inr h)
          simp only [if_neg hstop]
          obtain ⟨n1, n2, n3⟩ := nextState_eq hag hb ha
          rw [ih (i + 1) _ ?_ n2 n3, n1, Finset.sum_range_succ', show i + 0 = i from rfl, hci, add_assoc]
          · congr 1
            rw [add_comm]
            congr 1
            refine Finset.sum_congr rfl fun k _ => ?_
            rw [Nat.add_right_comm, ← Nat.add_assoc]
          · intro j hj
            rcases Nat.lt_or_eq_of_le (Nat.lt_succ_iff.1 hj) with hj | rfl
            · exact hpre j hj
            · exact ⟨hs, (not_negligible_iff _).1 (hre.2 _ le_rfl)⟩

end Feign.Integrators
