import Verif.Integrators.VolSpec
import Mathlib.Tactic.Ring
import Mathlib.Tactic.NormNum

/-! # The volumetric path loop against its specification -/

set_option linter.unusedSectionVars false
set_option linter.unusedSimpArgs false

namespace Feign.Integrators.Vol

variable {K M : Type} [Field K] [LinearOrder K]

theorem mul_white (v : V3 K) : v * white = v := by
  ext <;> simp [white]

theorem add_assoc3 (a b c : V3 K) : a + b + c = a + (b + c) := add_assoc a b c

theorem mul_add3 (a b c : V3 K) : a * (b + c) = a * b + a * c := by
  ext <;> simp [mul_add]

theorem mul_zero3 (a : V3 K) : a * 0 = 0 := by
  ext <;> simp

/-- The pass of the loop that handles an event. -/
def eventStep (quot : K → K → K) (st : VolState K M) : Event K M → VolStep K M
  | .escape env => .done (st.Li + st.beta * env)
  | .scatter w v => scatterStep quot (st.beta * w) v st
  | .null w b => nullStep (st.beta * w) b st
  | .surface w s => surfaceStep quot (st.beta * w) s st

theorem volStep_eq (quot : K → K → K) (maxBounces : ℕ) (a : VolAnswer K M) (st : VolState K M)
    (h1 : st.bounces < maxBounces) (h2 : isZero st.beta = false) :
    volStep quot maxBounces a st = eventStep quot st (happens a st.media) := by
  unfold volStep
  rw [if_pos h1, if_neg (by simp [h2])]
  cases a with
  | escape env => rfl
  | hit medium b t =>
    unfold throughMedium
    cases hm : st.media with
    | none =>
      cases t <;> simp only [happens, arrive, eventStep, mul_white]
    | some m =>
      cases hs : (medium m).scatter with
      | none => cases t <;> simp only [happens, arrive, eventStep, hs]
      | some v => cases t <;> simp only [happens, arrive, eventStep, hs]

theorem total_cons (f : V3 K → V3 K) (r : VRay K) (rs : List (VRay K)) :
    total f (r :: rs) = if r.valid then r.throughput * f r.dir + total f rs else total f rs := by
  by_cases h : r.valid <;> simp [total, List.filter_cons, h]

theorem mediumNee_eq (beta : V3 K) (v : MediumVertex K) :
    mediumNee beta v = beta * total (fun _ => ⟨v.phase v.wi, v.phase v.wi, v.phase v.wi⟩) v.rays := by
  have key : ∀ (l : List (VRay K)) (acc : V3 K),
      l.foldl (fun nee r => if r.valid then nee + beta.smul (v.phase v.wi) * r.throughput else nee) acc =
        acc + beta * total (fun _ => ⟨v.phase v.wi, v.phase v.wi, v.phase v.wi⟩) l := by
    intro l
    induction l with
    | nil => intro acc; simp [total, mul_zero3]
    | cons r rs ih =>
      intro acc
      rw [List.foldl_cons, ih]
      by_cases h : r.valid
      · rw [if_pos h, total_cons, if_pos h, mul_add3, add_assoc3]
        congr 2
        ext <;> simp <;> ring
      · rw [if_neg h, total_cons, if_neg h]
  rw [mediumNee, key, zero_add]

theorem vAccumulate_eq (s : VSurface K) (rays : List (VRay K)) (c : Closure K) :
    vAccumulate s rays c = { c with nee := c.nee + total s.mat rays } := by
  induction rays generalizing c with
  | nil => simp [vAccumulate, total]
  | cons r rs ih =>
    rw [vAccumulate, List.foldl_cons, ← vAccumulate, ih]
    by_cases h : r.valid
    · simp [h, total, List.filter_cons, add_assoc]
    · simp [h, total, List.filter_cons]

/-- The closure of the surface at which the loop is, after shading. -/
def vShaded (s : VSurface K) (st : VolState K M) : Closure K :=
  vAccumulate s (vEvaluate s { st.closure with emission := 0, nee := 0, albedo := 0 } st.rays).2
    (vEvaluate s { st.closure with emission := 0, nee := 0, albedo := 0 } st.rays).1

/-- The state of the loop agrees with the history of the path. -/
structure Agrees (quot : K → K → K) (ev : ℕ → Event K M) (i : ℕ) (st : VolState K M) : Prop where
  beta : st.beta = thr quot ev i
  spec : st.closure.isSpecular = fromSpecular ev i
  look : st.closure.lastSpec = looks ev i
  shadow : st.closure.acceptsShadows = samples ev i
  pdf : st.closure.pdf = density ev i
  rays : st.rays = leftover ev i
  bounces : st.bounces = vertices ev i

theorem vShaded_eq {quot : K → K → K} {ev : ℕ → Event K M} {i : ℕ} {s : VSurface K} {st : VolState K M}
    (h : Agrees quot ev i st) :
    (vShaded s st).emission = (if looks ev i then s.emitted else 0) ∧
      (vShaded s st).nee = total s.mat (raysAt ev i s) ∧ (vShaded s st).isSpecular = s.delta ∧
      (vShaded s st).pdf = density ev i := by
  obtain ⟨_, _, h1, h2, h3, h4, _⟩ := h
  unfold vShaded
  rw [vAccumulate_eq]
  unfold vEvaluate raysAt
  cases hd : s.delta <;> cases hl : looks ev i <;> cases hs : samples ev i <;> cases s.shader <;>
    simp [h1, h2, h3, h4, hl, hs]

theorem vSample_fields (s : VSurface K) (c : Closure K) :
    (vSample s c).emission = c.emission ∧ (vSample s c).nee = c.nee ∧ (vSample s c).isSpecular = c.isSpecular ∧
      (vSample s c).albedo = albedo s ∧ (vSample s c).lastSpec = c.lastSpec := by
  unfold vSample albedo
  cases s.scatter <;> simp

theorem vSampled {quot : K → K → K} {ev : ℕ → Event K M} {i : ℕ} {w : V3 K} {s : VSurface K} {st : VolState K M}
    (h : Agrees quot ev i st) (ha : ev i = .surface w s) :
    (vSample s (vShaded s st)).isSpecular = fromSpecular ev (i + 1) ∧
    (vSample s (vShaded s st)).lastSpec = looks ev (i + 1) ∧
    (vSample s (vShaded s st)).acceptsShadows = samples ev (i + 1) ∧
    (vSample s (vShaded s st)).pdf = density ev (i + 1) := by
  obtain ⟨_, _, h1, h2, h3, h4, _⟩ := h
  unfold vShaded
  rw [vAccumulate_eq]
  obtain ⟨sh, de, em, sr, ma, sc, co, u⟩ := s
  refine ⟨?_, ?_, ?_, ?_⟩ <;> unfold vSample vEvaluate <;>
    simp only [fromSpecular, looks, samples, density, ha] <;>
    cases de <;> cases sh <;> cases sc <;> cases hl : looks ev i <;> cases hs : samples ev i <;>
    simp [h1, h2, h3, hl, hs]

variable [IsStrictOrderedRing K]

theorem cosine_eq (s : VSurface K) (b : Bool) (hb : b = s.delta) :
    (if b = true then 1 else if s.cos < 0 then -s.cos else s.cos) = cosine s := by
  subst hb
  unfold cosine
  cases s.delta with
  | true => simp
  | false =>
    simp only [Bool.false_eq_true, if_false]
    by_cases hc : s.cos < 0
    · rw [if_pos hc, abs_of_neg hc]
    · rw [if_neg hc, abs_of_nonneg (not_lt.1 hc)]

/-- One pass: either the path ends there and what is returned is `Li` plus the light found, or it goes on in a state
that agrees with the history. -/
theorem eventStep_spec {quot : K → K → K} {ev : ℕ → Event K M} {i : ℕ} {st : VolState K M}
    (h : Agrees quot ev i st) :
    (¬ Survives quot ev i → eventStep quot st (ev i) = .done (st.Li + thrAt quot ev i * light ev i)) ∧
    (Survives quot ev i → ∃ st', eventStep quot st (ev i) = .next st' ∧
      st'.Li = st.Li + thrAt quot ev i * light ev i ∧ Agrees quot ev (i + 1) st' ∧
      st'.media = (match ev i with
        | .null _ (some b) => Boundary.beyond b
        | _ => st.media)) := by
  have hb := h.beta
  cases ha : ev i with
  | escape env =>
    constructor
    · intro _
      simp only [eventStep, thrAt, light, ha, mediumWeight, mul_white, hb]
    · intro hs
      simp only [Survives, ha] at hs
  | scatter w v =>
    have e1 : thrAt quot ev i = st.beta * w := by simp only [thrAt, ha, mediumWeight, hb]
    have e2 : thrAt quot ev i * light ev i = mediumNee (st.beta * w) v := by
      rw [mediumNee_eq, e1]; simp only [light, ha]
    constructor
    · intro hs
      simp only [Survives, ha, e1, not_le] at hs
      simp only [eventStep, scatterStep, gt_iff_lt, if_pos hs, e2]
    · intro hs
      simp only [Survives, ha, e1] at hs
      simp only [eventStep, scatterStep, gt_iff_lt, if_neg (not_lt.2 hs), e2]
      refine ⟨_, rfl, rfl, ⟨?_, ?_, ?_, ?_, ?_, ?_, ?_⟩, rfl⟩
      · simp only [thr, ha, hb]
      · simp only [fromSpecular, ha]
      · simp only [looks, ha, h.spec]
      · simp only [samples, ha, h.shadow]
      · simp only [density, ha, h.pdf]
      · simp only [leftover, ha]
      · simp only [vertices, ha, h.bounces]
  | null w b =>
    constructor
    · intro hs
      simp only [Survives, ha, not_true_eq_false] at hs
    · intro _
      simp only [eventStep, nullStep, light, ha, mul_zero3, add_zero]
      refine ⟨_, rfl, rfl, ⟨?_, ?_, ?_, ?_, ?_, ?_, ?_⟩, ?_⟩
      · simp only [thr, ha, hb]
      · simp only [fromSpecular, ha, h.spec]
      · simp only [looks, ha, h.look]
      · simp only [samples, ha, h.shadow]
      · simp only [density, ha, h.pdf]
      · simp only [leftover, ha, h.rays]
      · simp only [vertices, ha, h.bounces]
      · cases b <;> rfl
  | surface w s =>
    have e1 : thrAt quot ev i = st.beta * w := by simp only [thrAt, ha, mediumWeight, hb]
    obtain ⟨s1, s2, s3, s4⟩ := vShaded_eq (s := s) h
    obtain ⟨f1, f2, f3, f4, f5⟩ := vSample_fields s (vShaded s st)
    obtain ⟨g1, g2, g3, g4⟩ := vSampled h ha
    have e2 : light ev i = (vShaded s st).emission + (vShaded s st).nee := by
      simp only [light, ha, s1, s2]
    have hstep : eventStep quot st (.surface w s) =
        (if s.u > min (st.beta * w).maxValue 1 then .done (st.Li + st.beta * w * ((vShaded s st).emission + (vShaded s st).nee))
        else if (vSample s (vShaded s st)).pdf = 0 then
          .done (st.Li + st.beta * w * ((vSample s (vShaded s st)).emission + (vSample s (vShaded s st)).nee))
        else .next { st with
          Li := st.Li + st.beta * w * ((vSample s (vShaded s st)).nee + (vSample s (vShaded s st)).emission)
          beta := st.beta * w * divBy quot ((vSample s (vShaded s st)).albedo.smul
            (if (vSample s (vShaded s st)).isSpecular then 1 else if s.cos < 0 then -s.cos else s.cos))
              ((vSample s (vShaded s st)).pdf * min (st.beta * w).maxValue 1)
          closure := vSample s (vShaded s st)
          rays := []
          bounces := st.bounces + 1 }) := rfl
    rw [hstep]
    constructor
    · intro hs
      simp only [Survives, ha, e1, not_and_or, not_le, not_not] at hs
      by_cases hu : s.u > min (st.beta * w).maxValue 1
      · rw [if_pos hu, e1, e2]
      · rw [if_neg hu, if_pos, f1, f2, e1, e2]
        rw [g4]
        exact hs.resolve_left hu
    · intro hs
      simp only [Survives, ha, e1] at hs
      rw [if_neg (not_lt.2 hs.1), if_neg (by rw [g4]; exact hs.2)]
      refine ⟨_, rfl, ?_, ⟨?_, g1, g2, g3, g4, ?_, ?_⟩, rfl⟩
      · show st.Li + st.beta * w * _ = _
        rw [e1, e2, f1, f2, add_comm (vShaded s st).nee]
      · show st.beta * w * _ = _
        rw [f4, cosine_eq s _ (f3.trans s3), g4]
        simp only [thr, ha, hb]
      · simp only [leftover, ha]
      · simp only [vertices, ha, h.bounces]

theorem vertices_mono (ev : ℕ → Event K M) {i j : ℕ} (h : i ≤ j) : vertices ev i ≤ vertices ev j := by
  induction j with
  | zero => simp [Nat.le_zero.1 h]
  | succ j ih =>
    rcases Nat.lt_or_eq_of_le h with h | rfl
    · refine (ih (by omega)).trans ?_
      rw [vertices]
      cases ev j <;> simp
    · exact le_rfl

/-- The path goes on before pass `i`. -/
def Alive (quot : K → K → K) (maxBounces : ℕ) (ev : ℕ → Event K M) (i : ℕ) : Prop :=
  ∀ j < i, ¬ Ends quot maxBounces ev j

theorem Alive.reached {quot : K → K → K} {maxBounces : ℕ} {ev : ℕ → Event K M} {i : ℕ}
    (h : Alive quot maxBounces ev i) :
    Reached quot maxBounces ev i ↔ isZero (thr quot ev i) = false ∧ vertices ev i < maxBounces := by
  constructor
  · rintro ⟨_, h2, h3⟩
    exact ⟨(not_negligible_iff _).1 (h2 i le_rfl), h3⟩
  · rintro ⟨h2, h3⟩
    refine ⟨fun j hj => (not_not.1 (h j hj)).2, fun j hj => ?_, h3⟩
    rcases Nat.lt_or_eq_of_le hj with hj | rfl
    · exact (not_not.1 (h j hj)).1.2.1 j le_rfl
    · exact (not_negligible_iff _).2 h2

theorem not_reached_of_ends {quot : K → K → K} {maxBounces : ℕ} {ev : ℕ → Event K M} {i k : ℕ}
    (h : Ends quot maxBounces ev i) (hk : i < k) : ¬ Reached quot maxBounces ev k := by
  rintro ⟨h1, h2, h3⟩
  refine h ⟨⟨fun j hj => h1 j (by omega), fun j hj => h2 j (by omega), ?_⟩, h1 i hk⟩
  exact lt_of_le_of_lt (vertices_mono ev hk.le) h3

theorem contribution_eq_zero {quot : K → K → K} {maxBounces : ℕ} {ev : ℕ → Event K M} {k : ℕ}
    (h : ¬ Reached quot maxBounces ev k) : contribution quot maxBounces ev k = 0 := by
  unfold contribution; rw [if_neg h]

theorem volLoop_spec (quot : K → K → K) (maxBounces : ℕ) (env : Option M) (ans : ℕ → VolAnswer K M) (fuel : ℕ) :
    ∀ (i : ℕ) (st : VolState K M), Agrees quot (eventAt env ans) i st → st.media = mediumAt env ans i →
      Alive quot maxBounces (eventAt env ans) i →
      ((∃ k < fuel, Ends quot maxBounces (eventAt env ans) (i + k)) →
        volLoop quot maxBounces ans fuel i st =
          some (st.Li + ∑ k ∈ Finset.range fuel, contribution quot maxBounces (eventAt env ans) (i + k))) ∧
      ((∀ k < fuel, ¬ Ends quot maxBounces (eventAt env ans) (i + k)) →
        volLoop quot maxBounces ans fuel i st = none) := by
  induction fuel with
  | zero =>
    intro i st _ _ _
    refine ⟨?_, fun _ => rfl⟩
    rintro ⟨k, hk, _⟩
    omega
  | succ fuel ih =>
    intro i st hag hmed hal
    have hlast : Ends quot maxBounces (eventAt env ans) i →
        (∑ k ∈ Finset.range (fuel + 1), contribution quot maxBounces (eventAt env ans) (i + k)) =
          contribution quot maxBounces (eventAt env ans) i := by
      intro hs
      rw [Finset.sum_range_succ', Finset.sum_eq_zero, zero_add, Nat.add_zero]
      intro k _
      exact contribution_eq_zero (not_reached_of_ends hs (by omega))
    rw [volLoop]
    by_cases hre : Reached quot maxBounces (eventAt env ans) i
    · have hre' := hal.reached.1 hre
      rw [volStep_eq quot maxBounces (ans i) st (by rw [hag.bounces]; exact hre'.2) (by rw [hag.beta]; exact hre'.1),
        show happens (ans i) st.media = eventAt env ans i by rw [eventAt, hmed]]
      obtain ⟨hd, hn⟩ := eventStep_spec hag
      have hci : contribution quot maxBounces (eventAt env ans) i =
          thrAt quot (eventAt env ans) i * light (eventAt env ans) i := by
        unfold contribution; rw [if_pos hre]
      by_cases hs : Survives quot (eventAt env ans) i
      · obtain ⟨st', e1, e2, e3, e4⟩ := hn hs
        have hne : ¬ Ends quot maxBounces (eventAt env ans) i := not_not.2 ⟨hre, hs⟩
        have hal' : Alive quot maxBounces (eventAt env ans) (i + 1) := by
          intro j hj
          rcases Nat.lt_or_eq_of_le (Nat.lt_succ_iff.1 hj) with hj | rfl
          · exact hal j hj
          · exact hne
        have hmed' : st'.media = mediumAt env ans (i + 1) := by
          rw [e4, mediumAt, ← eventAt, hmed]
          cases hev : eventAt env ans i with
          | null w b => cases b <;> simp only
          | _ => simp only
        obtain ⟨i1, i2⟩ := ih (i + 1) st' e3 hmed' hal'
        simp only [e1]
        constructor
        · rintro ⟨k, hk, hek⟩
          have hk0 : k ≠ 0 := by rintro rfl; exact hne hek
          rw [i1 ⟨k - 1, by omega, by rwa [show i + 1 + (k - 1) = i + k by omega]⟩, e2, Finset.sum_range_succ',
            show i + 0 = i from rfl, hci, add_assoc3]
          congr 2
          rw [add_comm]
          congr 1
          refine Finset.sum_congr rfl fun k _ => ?_
          rw [Nat.add_right_comm, ← Nat.add_assoc]
        · intro hk
          refine i2 fun k hk' => ?_
          have := hk (k + 1) (by omega)
          rwa [show i + 1 + k = i + (k + 1) by omega]
      · have hen : Ends quot maxBounces (eventAt env ans) i := fun h => hs h.2
        simp only [hd hs]
        refine ⟨fun _ => ?_, fun h => absurd hen (h 0 (by omega))⟩
        rw [hlast hen, hci]
    · have hen : Ends quot maxBounces (eventAt env ans) i := fun h => hre h.1
      refine ⟨fun _ => ?_, fun h => absurd hen (h 0 (by omega))⟩
      rw [hlast hen, contribution_eq_zero hre, add_zero]
      rw [hal.reached] at hre
      unfold volStep
      by_cases hb : st.bounces < maxBounces
      · rw [if_pos hb, if_pos]
        rw [hag.bounces] at hb
        by_contra hz
        exact hre ⟨by rw [← hag.beta]; simpa using hz, hb⟩
      · rw [if_neg hb]

end Feign.Integrators.Vol
