import Verif.Scene.VisibilityProps
import Mathlib.Tactic.Linarith
import Mathlib.Tactic.Ring
import Mathlib.Tactic.NormNum
import Mathlib.Data.List.Basic

/-! # What a shadow ray answers, and which stretches it attenuates

The theorems of `VisibilityProps` about the traversal are lifted here to the Boolean and the throughput that
`intersect_transmittance` hands back, and the list of stretches is computed outright for a ray that meets any
number of media boundaries. -/

set_option linter.unusedSectionVars false
set_option linter.unusedVariables false
set_option linter.unusedSimpArgs false

namespace Feign.Scene

variable {K M : Type} [Field K] [LinearOrder K] [IsStrictOrderedRing K]

/-- The answer of the shadow query. A ray reported as blocked meets a visible surface and its throughput is
left alone. With visible surfaces not closely behind null ones, a ray reported as clear meets none. -/
theorem shadow_answer (eps : K) (he : 0 < eps) (hits : List (Hit K M)) (far near : K)
    (accel : K → Option (Hit K M)) (H : IsFirst hits far accel) (initial : Option M) (trans : Segment K M → K)
    (fuel : ℕ) (beta : K) (blocked : Bool) (beta' : K)
    (hr : intersectTransmittance eps far accel initial trans fuel near beta = some (.ok (blocked, beta'))) :
    (blocked = true → (∃ h, Visible hits near far h) ∧ beta' = beta) ∧
    (Separated eps hits → blocked = false → ∀ h, ¬ Visible hits near far h) := by
  unfold intersectTransmittance at hr
  cases e : shadowWalk eps far accel initial fuel near with
  | none => rw [e] at hr; simp at hr
  | some r =>
    rw [e] at hr
    obtain ⟨p, q⟩ := shadow_visibility eps he hits far near accel H initial fuel r e
    cases r with
    | ub _ => simp [Bind.bind, Res.bind] at hr
    | «throw» _ => simp [Bind.bind, Res.bind] at hr
    | ok s =>
      cases s with
      | blocked =>
        simp [Bind.bind, Res.bind, pure] at hr
        obtain ⟨rfl, rfl⟩ := hr
        exact ⟨fun _ => ⟨p rfl, rfl⟩, by simp⟩
      | clear segs =>
        simp [Bind.bind, Res.bind, pure] at hr
        obtain ⟨rfl, -⟩ := hr
        exact ⟨by simp, fun S _ => q S segs rfl⟩

/-- Specification: the stretches the query attenuates, read off the boundaries in order. Behind a boundary whose
inside holds a medium, everything up to the next boundary (from `eps` on) counts as filled with it, whether the
ray enters or leaves the medium there. -/
def fills (eps : K) : List (Hit K M) → List (Segment K M)
  | a :: b :: rest =>
    (match a.boundary with
      | some (some m) => [⟨a.t + eps, b.t, m⟩]
      | _ => []) ++ fills eps (b :: rest)
  | _ => []

/-- Specification: media boundaries along a ray, each with a boundary record, in order and at least `eps`
apart. -/
structure Ordered (eps far : K) (hits : List (Hit K M)) : Prop where
  apart : hits.Pairwise fun a b => a.t + eps ≤ b.t
  null : ∀ h ∈ hits, h.isNull = true
  bounded : ∀ h ∈ hits, h.boundary ≠ none
  reach : ∀ h ∈ hits, h.t ≤ far

private theorem accel_head {eps far : K} (he : 0 < eps) {hits : List (Hit K M)} (O : Ordered eps far hits)
    {accel : K → Option (Hit K M)} (H : IsFirst hits far accel) (pre rest : List (Hit K M))
    (hsplit : hits = pre ++ rest) (near : K) (h1 : ∀ h ∈ pre, h.t < near) (h2 : ∀ h ∈ rest, near ≤ h.t) :
    accel near = rest.head? := by
  have hn := H near
  cases e : accel near with
  | none =>
    rw [e] at hn
    cases rest with
    | nil => rfl
    | cons a l =>
      exact absurd (hn a (by simp [hsplit]) (h2 a (by simp))) (not_lt.mpr (O.reach a (by simp [hsplit])))
  | some h =>
    rw [e] at hn
    obtain ⟨m, n1, n2, n3⟩ := hn
    have hm : h ∈ rest := by
      rw [hsplit, List.mem_append] at m
      rcases m with m | m
      · exact absurd (h1 h m) (not_lt.mpr n1)
      · exact m
    cases rest with
    | nil => simp at hm
    | cons a l =>
      rcases List.mem_cons.mp hm with rfl | hl
      · rfl
      · have hp : (a :: l).Pairwise fun a b => a.t + eps ≤ b.t := by
          have := O.apart; rw [hsplit] at this; exact (List.pairwise_append.mp this).2.1
        have := (List.pairwise_cons.mp hp).1 h hl
        have := n3 a (by simp [hsplit]) (h2 a (by simp)) (O.reach a (by simp [hsplit]))
        linarith

private theorem loop_fills {eps far : K} (he : 0 < eps) {hits : List (Hit K M)} (O : Ordered eps far hits)
    {accel : K → Option (Hit K M)} (H : IsFirst hits far accel) : ∀ (rest pre : List (Hit K M)) (near : K)
    (segs : List (Segment K M)) (fuel : ℕ), hits = pre ++ rest → (∀ h ∈ pre, h.t < near) →
      (∀ h ∈ rest, near ≤ h.t) → rest.length < fuel →
      shadowLoop eps far accel fuel near segs = some (.ok (.clear (segs ++ fills eps rest))) := by
  intro rest
  induction rest with
  | nil =>
    intro pre near segs fuel hs h1 h2 hf
    obtain ⟨f, rfl⟩ : ∃ f, fuel = f + 1 := ⟨fuel - 1, by simp at hf; omega⟩
    have e := accel_head he O H pre [] hs near h1 h2
    simp [shadowLoop, e, fills]
  | cons a l ih =>
    intro pre near segs fuel hs h1 h2 hf
    obtain ⟨f, rfl⟩ : ∃ f, fuel = f + 1 := ⟨fuel - 1, by simp at hf; omega⟩
    have hp : (a :: l).Pairwise fun a b => a.t + eps ≤ b.t := by
      have := O.apart; rw [hs] at this; exact (List.pairwise_append.mp this).2.1
    have e := accel_head he O H pre (a :: l) hs near h1 h2
    have hs' : hits = (pre ++ [a]) ++ l := by simp [hs]
    have g1 : ∀ h ∈ pre ++ [a], h.t < a.t + eps := by
      intro h hh
      rcases List.mem_append.mp hh with hh | hh
      · have := h1 h hh; have := h2 a (by simp); linarith
      · rw [List.mem_singleton] at hh; subst hh; linarith
    have g2 : ∀ h ∈ l, a.t + eps ≤ h.t := (List.pairwise_cons.mp hp).1
    have e' := accel_head he O H (pre ++ [a]) l hs' (a.t + eps) g1 g2
    have hnull := O.null a (by simp [hs])
    have hbd := O.bounded a (by simp [hs])
    have hlen : l.length < f := by simp at hf; omega
    have step := fun segs' => ih (pre ++ [a]) (a.t + eps) segs' f hs' g1 g2 hlen
    unfold shadowLoop
    rw [e]
    simp only [List.head?_cons]
    rw [if_pos hnull]
    cases hb : a.boundary with
    | none => exact absurd hb hbd
    | some b =>
      cases b with
      | none =>
        simp only
        rw [step]
        cases l with
        | nil => simp [fills]
        | cons b l => simp [fills, hb]
      | some m =>
        simp only
        rw [e']
        cases l with
        | nil => simp only [List.head?_nil]; rw [step]; simp [fills]
        | cons b l =>
          simp only [List.head?_cons]
          have hbn := O.null b (by simp [hs])
          rw [if_neg (by simp [hbn])]
          by_cases hfar : b.t ≥ far
          · rw [if_pos hfar]
            have hl : l = [] := by
              cases l with
              | nil => rfl
              | cons c l =>
                have hp' := (List.pairwise_cons.mp (List.pairwise_cons.mp hp).2).1 c (by simp)
                have := O.reach c (by simp [hs])
                linarith
            subst hl
            simp [fills, hb]
          · rw [if_neg hfar, step]
            simp [fills, hb]

/-- A ray starting in empty space that meets only media boundaries: the throughput is multiplied by the
transmittance of every stretch of `fills`, and by nothing else. -/
theorem transmittance_boundaries (eps : K) (he : 0 < eps) (far near : K) (hits : List (Hit K M))
    (O : Ordered eps far hits) (hn : ∀ h ∈ hits, near ≤ h.t) (accel : K → Option (Hit K M))
    (H : IsFirst hits far accel) (trans : Segment K M → K) (beta : K) :
    intersectTransmittance eps far accel none trans (hits.length + 1) near beta =
      some (.ok (false, beta * ((fills eps hits).map trans).prod)) := by
  have := loop_fills he O H hits [] near [] (hits.length + 1) (by simp) (by simp) hn (Nat.lt_succ_self _)
  simp only [intersectTransmittance, shadowWalk, this, Option.map_some, Bind.bind, Res.bind, pure, List.nil_append,
    transmittance_product]

/-- A ray starting inside the medium `m`: it is attenuated by `m` up to the first boundary, and then by the
stretches of `fills` for the boundaries that follow. -/
theorem transmittance_start_inside (eps : K) (he : 0 < eps) (far near : K) (m : M) (b : Hit K M)
    (rest : List (Hit K M)) (O : Ordered eps far (b :: rest)) (hn : near ≤ b.t) (accel : K → Option (Hit K M))
    (H : IsFirst (b :: rest) far accel) (trans : Segment K M → K) (beta : K) :
    intersectTransmittance eps far accel (some m) trans (rest.length + 1) near beta =
      some (.ok (false, beta * trans ⟨near, b.t, m⟩ * ((fills eps rest).map trans).prod)) := by
  have hp := List.pairwise_cons.mp O.apart
  have e := accel_head he O H [] (b :: rest) rfl near (by simp) (by
    intro h hh
    rcases List.mem_cons.mp hh with rfl | hh
    · exact hn
    · have := hp.1 h hh; linarith)
  have := loop_fills he O H rest [b] (b.t + eps) [⟨near, b.t, m⟩] (rest.length + 1) (by simp)
    (by simp [he]) hp.1 (Nat.lt_succ_self _)
  have hb := O.null b (by simp)
  simp only [intersectTransmittance, shadowWalk, e, List.head?_cons, hb, if_true, this, Option.map_some, Bind.bind,
    Res.bind, pure, transmittance_product, List.map_append, List.map_cons, List.map_nil, List.prod_append,
    List.prod_cons, List.prod_nil, mul_one, mul_assoc]

/-- Specification: the stretches of a ray from outside that really lie in a medium, for convex media met one
after the other: the boundaries come in pairs, in at `a` and out at `b` (from `eps` on). -/
def between (eps : K) : List (K × K × M) → List (Segment K M)
  | [] => []
  | (a, b, m) :: rest => ⟨a + eps, b, m⟩ :: between eps rest

/-- The boundaries of such media. -/
def boundaries : List (K × K × M) → List (Hit K M)
  | [] => []
  | (a, b, m) :: rest => ⟨a, true, some (some m)⟩ :: ⟨b, true, some (some m)⟩ :: boundaries rest

/-- Specification: the empty stretches between consecutive media, each with the medium in front of it. -/
def gaps (eps : K) : List (K × K × M) → List (Segment K M)
  | (_, b, m) :: (a', b', m') :: rest => ⟨b + eps, a', m⟩ :: gaps eps ((a', b', m') :: rest)
  | _ => []

/-- Convex media met one after the other. Besides the stretches inside them, the query also attenuates every
empty stretch between two of them, as if the medium in front filled it. So the answer is right exactly when the
extra factor is 1 (in particular for a single medium), or the throughput is lost anyway. -/
theorem transmittance_gaps (eps : K) (he : 0 < eps) (far near : K) (media : List (K × K × M))
    (O : Ordered eps far (boundaries media)) (hn : ∀ h ∈ boundaries media, near ≤ h.t)
    (accel : K → Option (Hit K M)) (H : IsFirst (boundaries media) far accel) (trans : Segment K M → K) (beta : K) :
    intersectTransmittance eps far accel none trans (2 * media.length + 1) near beta =
      some (.ok (false, beta * ((between eps media).map trans).prod * ((gaps eps media).map trans).prod)) := by
  have hlen : ∀ l : List (K × K × M), (boundaries l).length = 2 * l.length := by
    intro l
    induction l with
    | nil => rfl
    | cons x l ih => simp [boundaries, ih]; omega
  have hprod : ∀ l : List (K × K × M), ((fills eps (boundaries l)).map trans).prod =
      ((between eps l).map trans).prod * ((gaps eps l).map trans).prod := by
    intro l
    induction l with
    | nil => simp [fills, boundaries, between, gaps]
    | cons x l ih =>
      cases l with
      | nil => simp [fills, boundaries, between, gaps]
      | cons y l =>
        have e : fills eps (boundaries (x :: y :: l)) =
            ⟨x.1 + eps, x.2.1, x.2.2⟩ :: ⟨x.2.1 + eps, y.1, x.2.2⟩ :: fills eps (boundaries (y :: l)) := by
          simp [boundaries, fills]
        rw [e]
        simp only [List.map_cons, List.prod_cons, ih, between, gaps]
        ring
  have := transmittance_boundaries eps he far near (boundaries media) O hn accel H trans beta
  rw [hlen, hprod] at this
  rw [this, mul_assoc]

/-- When the throughput is the one the media on the ray call for. -/
theorem transmittance_right_iff (eps : K) (he : 0 < eps) (far near : K) (media : List (K × K × M))
    (O : Ordered eps far (boundaries media)) (hn : ∀ h ∈ boundaries media, near ≤ h.t)
    (accel : K → Option (Hit K M)) (H : IsFirst (boundaries media) far accel) (trans : Segment K M → K) (beta : K) :
    intersectTransmittance eps far accel none trans (2 * media.length + 1) near beta =
        some (.ok (false, beta * ((between eps media).map trans).prod)) ↔
      ((gaps eps media).map trans).prod = 1 ∨ beta * ((between eps media).map trans).prod = 0 := by
  rw [transmittance_gaps eps he far near media O hn accel H trans beta]
  simp only [Option.some.injEq, Res.ok.injEq, Prod.mk.injEq, true_and]
  constructor
  · intro h
    by_cases z : beta * ((between eps media).map trans).prod = 0
    · exact Or.inr z
    · exact Or.inl (mul_left_cancel₀ z (by rw [h, mul_one]))
  · rintro (h | h)
    · rw [h, mul_one]
    · rw [h, zero_mul]

/-- A blocked ray and a clear one, behind a medium boundary at 1. -/
example : intersectTransmittance (1 / 10) 100
      (firstOf ([⟨1, true, some (some 1)⟩, ⟨3, false, none⟩] : List (Hit ℚ ℕ)) 100) none (fun _ => 1 / 2) 3 0 7 =
        some (.ok (true, 7)) ∧
    intersectTransmittance (1 / 10) 100
      (firstOf ([⟨1, true, some (some 1)⟩, ⟨3, true, some none⟩] : List (Hit ℚ ℕ)) 100) none (fun _ => 1 / 2) 3 0 7 =
        some (.ok (false, 7 / 2)) := by
  constructor <;> norm_num [intersectTransmittance, shadowWalk, shadowLoop, firstOf, applyTransmittance, Bind.bind,
    Res.bind, pure]

/-- One medium, any throughput: right. -/
example (eps : K) (a b : K) (m : M) : gaps eps [(a, b, m)] = [] := rfl

/-- A ray through three boundaries, with every hypothesis met: in at 1, out at 2, in again at 5. -/
example : Ordered (1 / 10 : ℚ) 100 ([⟨1, true, some (some 1)⟩, ⟨2, true, some (some 1)⟩, ⟨5, true, some none⟩] :
      List (Hit ℚ ℕ)) ∧
    fills (1 / 10 : ℚ) ([⟨1, true, some (some 1)⟩, ⟨2, true, some (some 1)⟩, ⟨5, true, some none⟩] :
      List (Hit ℚ ℕ)) = [⟨1 + 1 / 10, 2, 1⟩, ⟨2 + 1 / 10, 5, 1⟩] := by
  refine ⟨⟨?_, ?_, ?_, ?_⟩, by simp [fills]⟩
  · norm_num
  · simp
  · simp
  · norm_num

end Feign.Scene
