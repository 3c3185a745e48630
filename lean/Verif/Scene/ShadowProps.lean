import Verif.Scene.SegmentProps

/-! # Shadow rays are blocked exactly by visible surfaces -/

set_option linter.unusedSectionVars false
set_option linter.unusedVariables false
set_option linter.unusedSimpArgs false

namespace Feign.Scene

variable {K M : Type} [Field K] [LinearOrder K] [IsStrictOrderedRing K]

/-- **C69**, partial (every null surface has a boundary record and no visible surface lies within `eps` behind a null
one; the full claim has neither condition and is refuted below): the query ends after at most one step per surface
and one more, and the answer is "blocked" exactly if there is a visible surface on the ray. -/
theorem shadow_exact_partial (eps : K) (he : 0 < eps) (hits : List (Hit K M)) (far near : K)
    (accel : K → Option (Hit K M)) (H : IsFirst hits far accel) (B : Bounded hits) (S : Separated eps hits)
    (initial : Option M) (trans : Segment K M → K) (beta : K) :
    ∃ blocked beta', intersectTransmittance eps far accel initial trans (hits.length + 1) near beta =
        some (.ok (blocked, beta')) ∧ (blocked = true ↔ ∃ h, Visible hits near far h) := by
  obtain ⟨r, hr⟩ := shadow_terminates eps he hits far near accel H initial
  obtain ⟨s, rfl⟩ := shadow_safe eps far near hits accel H B initial _ r hr
  have ⟨h1, h2⟩ := shadow_visibility eps he hits far near accel H initial _ _ hr
  cases s with
  | blocked =>
    exact ⟨true, beta, by simp only [intersectTransmittance, hr]; rfl, fun _ => h1 rfl, fun _ => rfl⟩
  | clear segs =>
    refine ⟨false, applyTransmittance trans segs beta, by simp only [intersectTransmittance, hr]; rfl, ?_⟩
    constructor
    · intro h; cases h
    · rintro ⟨h, hv⟩; exact absurd hv (h2 S segs rfl h)

/-- A wall half of `Epsilon` behind a null surface does not stop a shadow ray: the light behind it shines through. -/
theorem shadow_exact_refuted : ∃ (hits : List (Hit ℚ Unit)) (h : Hit ℚ Unit), Bounded hits ∧ Visible hits 0 10 h ∧
    ∀ trans beta, intersectTransmittance (1 / 1000) 10 (firstOf hits 10) none trans (hits.length + 1) 0 beta =
      some (.ok (false, beta)) := by
  refine ⟨[⟨1, true, some none⟩, ⟨1 + 1 / 2000, false, none⟩], ⟨1 + 1 / 2000, false, none⟩, ?_,
    ⟨by simp, rfl, by norm_num, by norm_num⟩, fun trans beta => ?_⟩
  · intro h hm hn
    simp only [List.mem_cons, List.not_mem_nil, or_false] at hm
    rcases hm with rfl | rfl
    · rfl
    · cases hn
  · have h0 : firstOf ([⟨1, true, some none⟩, ⟨1 + 1 / 2000, false, none⟩] : List (Hit ℚ Unit)) 10 0 =
        some ⟨1, true, some none⟩ := by norm_num [firstOf]
    have h1 : firstOf ([⟨1, true, some none⟩, ⟨1 + 1 / 2000, false, none⟩] : List (Hit ℚ Unit)) 10 (1 + 1 / 1000) =
        none := by norm_num [firstOf]
    simp only [intersectTransmittance, shadowWalk, List.length_cons, List.length_nil, shadowLoop, h0, h1, if_true]
    rfl

/-- A single null surface declared without media: the query dereferences a null pointer instead of answering. -/
theorem shadow_null_surface_refuted : ∃ hits : List (Hit ℚ Unit), Separated (1 / 1000) hits ∧
    ∀ trans beta, intersectTransmittance (1 / 1000) 10 (firstOf hits 10) none trans (hits.length + 1) 0 beta =
      some (.ub "null pointer") := by
  refine ⟨[⟨1, true, none⟩], ?_, fun trans beta => ?_⟩
  · intro n hn _ h hh hv
    simp only [List.mem_cons, List.not_mem_nil, or_false] at hh
    subst hh
    cases hv
  · have h0 : firstOf ([⟨1, true, none⟩] : List (Hit ℚ Unit)) 10 0 = some ⟨1, true, none⟩ := by norm_num [firstOf]
    simp only [intersectTransmittance, shadowWalk, List.length_cons, List.length_nil, shadowLoop, h0, if_true]
    rfl

/-- Two null surfaces around a medium in front of a wall: blocked; without the wall: clear. -/
example (trans : Segment ℚ ℕ → ℚ) (beta : ℚ) :
    ∃ blocked beta', intersectTransmittance (1 / 1000) 10
      (firstOf [⟨1, true, some (some 7)⟩, ⟨2, true, some (some 7)⟩, ⟨3, false, none⟩] 10) none trans 4 0 beta =
        some (.ok (blocked, beta')) ∧ blocked = true := by
  have H := shadow_exact_partial (1 / 1000 : ℚ) (by norm_num)
    [⟨1, true, some (some 7)⟩, ⟨2, true, some (some 7)⟩, ⟨3, false, none⟩] 10 0 _ (firstOf_isFirst _ 10)
    (by
      intro h hm hn
      simp only [List.mem_cons, List.not_mem_nil, or_false] at hm
      rcases hm with rfl | rfl | rfl
      · rfl
      · rfl
      · cases hn)
    (by
      intro n hn hnull h hh hv hle
      simp only [List.mem_cons, List.not_mem_nil, or_false] at hn hh
      rcases hh with rfl | rfl | rfl
      · cases hv
      · cases hv
      · rcases hn with rfl | rfl | rfl
        · norm_num
        · norm_num
        · cases hnull) none trans beta
  obtain ⟨b, be, e, iff⟩ := H
  exact ⟨b, be, e, iff.mpr ⟨⟨3, false, none⟩, by simp, rfl, by norm_num, by norm_num⟩⟩

end Feign.Scene
