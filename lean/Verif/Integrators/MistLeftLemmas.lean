import Verif.Integrators.MistLeft
import Verif.Integrators.MistProps
import Verif.Integrators.LeftLemmas
import Verif.Sampling.Limit

/-! # What the volumetric path integrator leaves of the stream: lemmas -/

set_option linter.unusedSectionVars false
set_option linter.unusedSimpArgs false
set_option linter.unusedVariables false

namespace Feign.Integrators

open Sampling MeasureTheory Warp
open scoped ENNReal

variable {R M : Type}

/-! ## Radiance and stream together -/

/-- A scattering point, if `K` is what comes after it. -/
noncomputable def Mist.fogT (W : Mist R M) (K : V3 ℝ → Option M → R → Stream → V3 ℝ × Stream) (β : V3 ℝ) (m : Option M)
    (r : R) (t : ℝ) (a : V3 ℝ × ℝ × V3 ℝ) (u : ℝ) (ω : Stream) : V3 ℝ × Stream :=
  if u > min β.maxValue 1 then ((β.smul a.2.1) * a.1, ω)
  else ((β.smul a.2.1) * a.1 + (K (cut β) m (W.onward r t a.2.2) ω).1, (K (cut β) m (W.onward r t a.2.2) ω).2)

/-- The material of a surface, if `K` is what comes after it. -/
noncomputable def Mist.bounceT (W : Mist R M) (K : V3 ℝ → Option M → R → Stream → V3 ℝ × Stream) (β : V3 ℝ) (m : Option M)
    (d : V3 ℝ) (b : Bounce R) (ω : Stream) : V3 ℝ × Stream :=
  if b.pdf = 0 then (β * d, ω)
  else (β * d + (K (step false β b) m b.ray ω).1, (K (step false β b) m b.ray ω).2)

/-- A surface, if `K` is what comes after it. -/
noncomputable def Mist.surfT (W : Mist R M) (K : V3 ℝ → Option M → R → Stream → V3 ℝ × Stream) (β : V3 ℝ) (m : Option M)
    (r : R) (d : V3 ℝ) (u : ℝ) (ω : Stream) : V3 ℝ × Stream :=
  if u > min β.maxValue 1 then (β * d, ω) else W.bounceT K β m d (W.scatter r ω).1 (W.scatter r ω).2

/-- Radiance and stream after at most `k` passes. -/
noncomputable def Mist.trace (W : Mist R M) : ℕ → ℕ → V3 ℝ → Option M → R → Stream → V3 ℝ × Stream
  | 0, _, _, _, _, ω => (0, ω)
  | _ + 1, 0, _, _, _, ω => (0, ω)
  | k + 1, n + 1, β, m, r, ω =>
    if isZero β = true then (0, ω)
    else if W.escapes r = true then (β * W.env r, ω)
    else if (W.fly m r ω).1.scatters = true then
      W.fogT (W.trace k n) (β * (W.fly m r ω).1.weight) m r (W.fly m r ω).1.t
        (W.both m r (W.fly m r ω).1.t (W.fly m r ω).2).1 ((W.both m r (W.fly m r ω).1.t (W.fly m r ω).2).2 0)
        (drop 1 (W.both m r (W.fly m r ω).1.t (W.fly m r ω).2).2)
    else if W.null r = true then
      W.trace k (n + 1) (β * (W.fly m r ω).1.weight) (W.beyond m r) (W.past r) (W.fly m r ω).2
    else W.surfT (W.trace k n) (β * (W.fly m r ω).1.weight) m r (W.bulbs m r (W.fly m r ω).2).1
      ((W.bulbs m r (W.fly m r ω).2).2 0) (drop 1 (W.bulbs m r (W.fly m r ω).2).2)

theorem mist_trace_fst (W : Mist R M) (k : ℕ) : ∀ n β m r ω, (W.trace k n β m r ω).1 = W.gather k n β m r ω := by
  induction k with
  | zero => intro n β m r ω; rfl
  | succ k ih =>
    intro n β m r ω
    cases n with
    | zero => rfl
    | succ n =>
      rw [Mist.trace, Mist.gather]
      by_cases hz : isZero β = true
      · rw [if_pos hz, if_pos hz]
      rw [if_neg hz, if_neg hz]
      by_cases he : W.escapes r = true
      · rw [if_pos he, if_pos he]
      rw [if_neg he, if_neg he]
      by_cases hs : (W.fly m r ω).1.scatters = true
      · rw [if_pos hs, if_pos hs, Mist.fogT, Mist.fog]
        split_ifs
        · rw [add_zero]
        · rw [ih]
      rw [if_neg hs, if_neg hs]
      by_cases hn : W.null r = true
      · rw [if_pos hn, if_pos hn, ih]
      rw [if_neg hn, if_neg hn, Mist.surfT, Mist.surf, Mist.bounceT]
      by_cases hu : (W.bulbs m r (W.fly m r ω).2).2 0 > min (β * (W.fly m r ω).1.weight).maxValue 1
      · rw [if_pos hu, if_pos (Or.inl hu), add_zero]
      rw [if_neg hu]
      by_cases hp : (W.scatter r (drop 1 (W.bulbs m r (W.fly m r ω).2).2)).1.pdf = 0
      · rw [if_pos hp, if_pos (Or.inr hp), add_zero]
      · rw [if_neg hp, if_neg (not_or.2 ⟨hu, hp⟩), ih]

/-! ## The remaining stream -/

theorem left_hit (W : Mist R M) (quot : ℝ → ℝ → ℝ) (fuel n : ℕ) (β : V3 ℝ) (m : Option M) (r : R) (ω : Stream)
    (hz : ¬ isZero β = true) (he : ¬ W.escapes r = true) (hs : ¬ (W.fly m r ω).1.scatters = true) :
    W.left quot (fuel + 1) (n + 1) β m r ω =
      if W.null r then W.left quot fuel (n + 1) (β * (W.fly m r ω).1.weight) (W.beyond m r) (W.past r) (W.fly m r ω).2
      else
        let l := W.samples m r (W.fly m r ω).2
        if l.2 0 > min (β * (W.fly m r ω).1.weight).maxValue 1 then some (drop 1 l.2)
        else
          let b := W.scatter r (drop 1 l.2)
          if b.1.pdf = 0 then some b.2
          else W.left quot fuel n (bounceBeta quot (W.delta r) (β * (W.fly m r ω).1.weight) b.1) m b.1.ray b.2 := by
  rw [Mist.left, if_neg hz, if_neg he]
  cases m with
  | none =>
    have e : β * (W.fly none r ω).1.weight = β := mul_white' β
    simp only [e]
    rfl
  | some m =>
    have hs' : ¬ (W.free m r ω).1.scatters = true := hs
    simp only [hs', if_false]
    rfl

theorem left_scatter (W : Mist R M) (quot : ℝ → ℝ → ℝ) (fuel n : ℕ) (β : V3 ℝ) (m : M) (r : R) (ω : Stream)
    (hz : ¬ isZero β = true) (he : ¬ W.escapes r = true) (hs : (W.fly (some m) r ω).1.scatters = true) :
    W.left quot (fuel + 1) (n + 1) β (some m) r ω =
      let b := W.both (some m) r (W.fly (some m) r ω).1.t (W.fly (some m) r ω).2
      let β' := β * (W.fly (some m) r ω).1.weight
      if b.2 0 > min β'.maxValue 1 then some (drop 1 b.2)
      else W.left quot fuel n (divBy quot β' (min β'.maxValue 1)) (some m)
        (W.onward r (W.fly (some m) r ω).1.t b.1.2.2) (drop 1 b.2) := by
  rw [Mist.left, if_neg hz, if_neg he]
  have hs' : (W.free m r ω).1.scatters = true := hs
  simp only [hs', if_true]
  rfl

theorem bounceBeta_step {quot : ℝ → ℝ → ℝ} (hq : IsQuot quot) {β : V3 ℝ} {b : Bounce R} (hm : 0 < min β.maxValue 1)
    (hp : b.pdf ≠ 0) : bounceBeta quot false β b = step false β b := by
  have hm' : b.pdf * min β.maxValue 1 ≠ 0 := mul_ne_zero hp hm.ne'
  have hcos : (if b.cos < 0 then -b.cos else b.cos) = |b.cos| := by
    split_ifs with hc
    · rw [abs_of_neg hc]
    · rw [abs_of_nonneg (not_lt.1 hc)]
  simp only [bounceBeta, step, Bool.false_eq_true, if_false, hcos, divBy, hq _ _ hm']
  congr 1
  ext <;> simp only [V3.smul_x, V3.smul_y, V3.smul_z] <;> ring

theorem mist_trace_snd [MeasurableSpace R] (W : Mist R M) (h : W.Lawful) (hmat : W.Matte) {quot : ℝ → ℝ → ℝ}
    (hq : IsQuot quot) (k : ℕ) : ∀ n β m r ω σ, NonNeg β → W.left quot k n β m r ω = some σ →
      (W.trace k n β m r ω).2 = σ := by
  induction k with
  | zero => intro n β m r ω σ _ hl; cases hl
  | succ k ih =>
    intro n β m r ω σ hβ hl
    cases n with
    | zero => injection hl
    | succ n =>
      rw [Mist.trace]
      by_cases hz : isZero β = true
      · rw [if_pos hz]
        rw [Mist.left, if_pos hz] at hl
        injection hl
      rw [if_neg hz]
      by_cases he : W.escapes r = true
      · rw [if_pos he]
        rw [Mist.left, if_neg hz, if_pos he] at hl
        injection hl
      rw [if_neg he]
      obtain ⟨hβw, hpos⟩ := weighed_pos hβ (by simpa using hz) (fly_pos W h m r ω)
      by_cases hs : (W.fly m r ω).1.scatters = true
      · rw [if_pos hs, Mist.fogT]
        cases m with
        | none => cases hs
        | some m =>
          rw [left_scatter W quot k n β m r ω hz he hs] at hl
          simp only at hl
          split_ifs at hl ⊢ with hu
          · injection hl
          · rw [divBy_cut hq hpos] at hl
            exact ih _ _ _ _ _ _ (hβw.cut hpos) hl
      rw [if_neg hs]
      rw [left_hit W quot k n β m r ω hz he hs] at hl
      by_cases hn : W.null r = true
      · rw [if_pos hn] at hl ⊢
        exact ih _ _ _ _ _ _ hβw hl
      rw [if_neg hn] at hl ⊢
      have hsam : (W.samples m r (W.fly m r ω).2).2 = (W.bulbs m r (W.fly m r ω).2).2 := by
        simp only [Mist.samples, hmat.plain r, Bool.false_eq_true, if_false, Mist.bulbs]
      simp only [hsam, hmat.plain r] at hl
      rw [Mist.surfT, Mist.bounceT]
      split_ifs at hl ⊢ with hu hp
      · injection hl
      · injection hl
      · rw [bounceBeta_step hq hpos hp] at hl
        have := h.scatter_nonneg r (drop 1 (W.bulbs m r (W.fly m r ω).2).2)
        exact ih _ _ _ _ _ _ (nonNeg_step hβw hpos this.1 this.2) hl

theorem left_fuel (W : Mist R M) (quot : ℝ → ℝ → ℝ) (k : ℕ) : ∀ k' n β m r ω σ, k ≤ k' →
    W.left quot k n β m r ω = some σ → W.left quot k' n β m r ω = some σ := by
  induction k with
  | zero => intro k' n β m r ω σ _ hl; cases hl
  | succ k ih =>
    intro k' n β m r ω σ hk hl
    obtain ⟨j, rfl⟩ : ∃ j, k' = j + 1 := ⟨k' - 1, by omega⟩
    have hj : k ≤ j := by omega
    cases n with
    | zero => exact hl
    | succ n =>
      by_cases hz : isZero β = true
      · rw [Mist.left, if_pos hz] at hl ⊢
        exact hl
      by_cases he : W.escapes r = true
      · rw [Mist.left, if_neg hz, if_pos he] at hl ⊢
        exact hl
      by_cases hs : (W.fly m r ω).1.scatters = true
      · cases m with
        | none => cases hs
        | some m =>
          rw [left_scatter W quot _ n β m r ω hz he hs] at hl ⊢
          simp only at hl ⊢
          split_ifs at hl ⊢
          · exact hl
          · exact ih _ _ _ _ _ _ _ hj hl
      rw [left_hit W quot _ n β m r ω hz he hs] at hl ⊢
      simp only at hl ⊢
      split_ifs at hl ⊢
      · exact ih _ _ _ _ _ _ _ hj hl
      · exact hl
      · exact hl
      · exact ih _ _ _ _ _ _ _ hj hl

/-- If no ray crosses more than `N` null surfaces in a row, the loop ends. -/
theorem left_returns (W : Mist R M) (N : ℕ) (rank : R → ℕ) (hN : ∀ r, rank r ≤ N)
    (hp : ∀ r, W.escapes r = false → W.null r = true → rank (W.past r) < rank r) (quot : ℝ → ℝ → ℝ) (k : ℕ) :
    ∀ n β m r ω, n * (N + 1) + rank r < k → ∃ σ, W.left quot k n β m r ω = some σ := by
  induction k with
  | zero => intro n β m r ω hk; omega
  | succ k ih =>
    intro n β m r ω hk
    cases n with
    | zero => exact ⟨_, rfl⟩
    | succ n =>
      have hnext : ∀ r', n * (N + 1) + rank r' < k := by
        intro r'
        have := hN r'
        have e : (n + 1) * (N + 1) = n * (N + 1) + N + 1 := by ring
        omega
      by_cases hz : isZero β = true
      · exact ⟨ω, by rw [Mist.left, if_pos hz]⟩
      by_cases he : W.escapes r = true
      · exact ⟨ω, by rw [Mist.left, if_neg hz, if_pos he]⟩
      by_cases hs : (W.fly m r ω).1.scatters = true
      · cases m with
        | none => cases hs
        | some m =>
          rw [left_scatter W quot _ n β m r ω hz he hs]
          simp only
          split_ifs
          · exact ⟨_, rfl⟩
          · exact ih _ _ _ _ _ (hnext _)
      rw [left_hit W quot _ n β m r ω hz he hs]
      simp only
      split_ifs with hn
      · have := hp r (by simpa using he) hn
        exact ih _ _ _ _ _ (by omega)
      · exact ⟨_, rfl⟩
      · exact ⟨_, rfl⟩
      · exact ih _ _ _ _ _ (hnext _)

/-! ## Measurability -/

variable [MeasurableSpace R]

theorem measurable_fogT (W : Mist R M) (h : W.Lawful) (m : Option M)
    {K : V3 ℝ → Option M → R → Stream → V3 ℝ × Stream} (hK : Measurable fun q : MState R => K q.1 m q.2.1 q.2.2) :
    Measurable fun q : (V3 ℝ × R × ℝ) × (V3 ℝ × ℝ × V3 ℝ) × ℝ × Stream =>
      W.fogT K q.1.1 m q.1.2.1 q.1.2.2 q.2.1 q.2.2.1 q.2.2.2 := by
  have m0 : Measurable fun q : (V3 ℝ × R × ℝ) × (V3 ℝ × ℝ × V3 ℝ) × ℝ × Stream => q.1 := measurable_fst
  have mβ := measurable_fst.comp m0
  have mrt := measurable_snd.comp m0
  have m2 : Measurable fun q : (V3 ℝ × R × ℝ) × (V3 ℝ × ℝ × V3 ℝ) × ℝ × Stream => q.2 := measurable_snd
  have ma := measurable_fst.comp m2
  have mu : Measurable fun q : (V3 ℝ × R × ℝ) × (V3 ℝ × ℝ × V3 ℝ) × ℝ × Stream => q.2.2.1 :=
    measurable_fst.comp (measurable_snd.comp m2)
  have mω := measurable_snd.comp (measurable_snd.comp m2)
  have ma2 := measurable_snd.comp ma
  have mhere := measurable_V3mul (measurable_V3smul mβ (measurable_fst.comp ma2)) (measurable_fst.comp ma)
  have mray : Measurable fun q : (V3 ℝ × R × ℝ) × (V3 ℝ × ℝ × V3 ℝ) × ℝ × Stream => W.onward q.1.2.1 q.1.2.2 q.2.1.2.2 :=
    h.onward.comp ((measurable_fst.comp mrt).prodMk ((measurable_snd.comp mrt).prodMk (measurable_snd.comp ma2)))
  have mrest := hK.comp ((measurable_cut.comp mβ).prodMk (mray.prodMk mω))
  unfold Mist.fogT
  refine Measurable.ite ?_ (mhere.prodMk mω)
    ((measurable_V3add mhere (measurable_fst.comp mrest)).prodMk (measurable_snd.comp mrest))
  exact measurableSet_lt ((measurable_maxValue.comp mβ).min measurable_const) mu

theorem measurable_bounceT (W : Mist R M) (h : W.Lawful) (m : Option M)
    {K : V3 ℝ → Option M → R → Stream → V3 ℝ × Stream} (hK : Measurable fun q : MState R => K q.1 m q.2.1 q.2.2) :
    Measurable fun q : (V3 ℝ × V3 ℝ) × Bounce R × Stream => W.bounceT K q.1.1 m q.1.2 q.2.1 q.2.2 := by
  have m0 : Measurable fun q : (V3 ℝ × V3 ℝ) × Bounce R × Stream => q.1 := measurable_fst
  have mβ := measurable_fst.comp m0
  have md := measurable_snd.comp m0
  have mb : Measurable fun q : (V3 ℝ × V3 ℝ) × Bounce R × Stream => q.2.1 := measurable_fst.comp measurable_snd
  have mω : Measurable fun q : (V3 ℝ × V3 ℝ) × Bounce R × Stream => q.2.2 := measurable_snd.comp measurable_snd
  have mpdf : Measurable fun q : (V3 ℝ × V3 ℝ) × Bounce R × Stream => q.2.1.pdf :=
    measurable_fst.comp (measurable_snd.comp mb)
  have mhere := measurable_V3mul mβ md
  have mfalse : Measurable fun _ : (V3 ℝ × V3 ℝ) × Bounce R × Stream => false := measurable_const
  have mrest := hK.comp ((measurable_step mfalse mβ mb).prodMk
    ((measurable_snd.comp (measurable_snd.comp (measurable_snd.comp mb))).prodMk mω))
  unfold Mist.bounceT
  exact Measurable.ite (mpdf (measurableSet_singleton 0)) (mhere.prodMk mω)
    ((measurable_V3add mhere (measurable_fst.comp mrest)).prodMk (measurable_snd.comp mrest))

theorem measurable_surfT (W : Mist R M) (h : W.Lawful) (m : Option M)
    {K : V3 ℝ → Option M → R → Stream → V3 ℝ × Stream} (hK : Measurable fun q : MState R => K q.1 m q.2.1 q.2.2) :
    Measurable fun q : (V3 ℝ × R) × V3 ℝ × ℝ × Stream => W.surfT K q.1.1 m q.1.2 q.2.1 q.2.2.1 q.2.2.2 := by
  have m0 : Measurable fun q : (V3 ℝ × R) × V3 ℝ × ℝ × Stream => q.1 := measurable_fst
  have mβ := measurable_fst.comp m0
  have mr := measurable_snd.comp m0
  have m2 : Measurable fun q : (V3 ℝ × R) × V3 ℝ × ℝ × Stream => q.2 := measurable_snd
  have md := measurable_fst.comp m2
  have mu : Measurable fun q : (V3 ℝ × R) × V3 ℝ × ℝ × Stream => q.2.2.1 := measurable_fst.comp (measurable_snd.comp m2)
  have mω := measurable_snd.comp (measurable_snd.comp m2)
  have mb : Measurable fun q : (V3 ℝ × R) × V3 ℝ × ℝ × Stream => W.scatter q.1.2 q.2.2.2 :=
    h.scatter.comp (mr.prodMk mω)
  have mrest := (measurable_bounceT W h m hK).comp ((mβ.prodMk md).prodMk mb)
  unfold Mist.surfT
  refine Measurable.ite ?_ ((measurable_V3mul mβ md).prodMk mω) mrest
  exact measurableSet_lt ((measurable_maxValue.comp mβ).min measurable_const) mu

theorem measurable_mistTrace [Countable M] (W : Mist R M) (h : W.Lawful) (k : ℕ) : ∀ n m,
    Measurable fun q : MState R => W.trace k n q.1 m q.2.1 q.2.2 := by
  have mω : Measurable fun q : MState R => q.2.2 := measurable_snd.comp measurable_snd
  induction k with
  | zero => intro n m; simp only [Mist.trace]; exact measurable_const.prodMk mω
  | succ k ih =>
    intro n m
    cases n with
    | zero => simp only [Mist.trace]; exact measurable_const.prodMk mω
    | succ n =>
      simp only [Mist.trace]
      have mβ : Measurable fun q : MState R => q.1 := measurable_fst
      have mr : Measurable fun q : MState R => q.2.1 := measurable_fst.comp measurable_snd
      have mf : Measurable fun q : MState R => W.fly m q.2.1 q.2.2 := (measurable_fly W h m).comp measurable_snd
      have mf1 := measurable_fst.comp mf
      have mf2 := measurable_snd.comp mf
      have mw : Measurable fun q : MState R => (W.fly m q.2.1 q.2.2).1.weight := measurable_fst.comp mf1
      have ms : Measurable fun q : MState R => (W.fly m q.2.1 q.2.2).1.scatters :=
        measurable_fst.comp (measurable_snd.comp mf1)
      have mt : Measurable fun q : MState R => (W.fly m q.2.1 q.2.2).1.t := measurable_snd.comp (measurable_snd.comp mf1)
      have mβw := measurable_V3mul mβ mw
      have mb : Measurable fun q : MState R => W.both m q.2.1 (W.fly m q.2.1 q.2.2).1.t (W.fly m q.2.1 q.2.2).2 :=
        (measurable_both W h m).comp ((mr.prodMk mt).prodMk mf2)
      have ml : Measurable fun q : MState R => W.bulbs m q.2.1 (W.fly m q.2.1 q.2.2).2 :=
        (measurable_bulbs W h m).comp (mr.prodMk mf2)
      refine Measurable.ite (mβ measurableSet_isZero) (measurable_const.prodMk mω) (measurable_bool_ite (h.escapes.comp mr)
        ((measurable_V3mul mβ (h.env.comp mr)).prodMk mω)
        (measurable_bool_ite ms ?_ (measurable_bool_ite (h.null.comp mr) ?_ ?_)))
      · exact (measurable_fogT W h m (ih n m)).comp ((mβw.prodMk (mr.prodMk mt)).prodMk ((measurable_fst.comp mb).prodMk
          (((measurable_pi_apply 0).comp (measurable_snd.comp mb)).prodMk
            ((measurable_drop 1).comp (measurable_snd.comp mb)))))
      · refine measurable_select (g := fun m' (q : MState R) => W.trace k (n + 1)
          (q.1 * (W.fly m q.2.1 q.2.2).1.weight) m' (W.past q.2.1) (W.fly m q.2.1 q.2.2).2)
          (b := fun q : MState R => W.beyond m q.2.1) ?_ ?_
        · intro m'
          exact (ih (n + 1) m').comp (mβw.prodMk ((h.past.comp mr).prodMk mf2))
        · intro m'
          exact mr (h.beyond m m')
      · exact (measurable_surfT W h m (ih n m)).comp ((mβw.prodMk mr).prodMk ((measurable_fst.comp ml).prodMk
          (((measurable_pi_apply 0).comp (measurable_snd.comp ml)).prodMk
            ((measurable_drop 1).comp (measurable_snd.comp ml)))))

/-! ## Freshness -/

theorem fresh_ite {A : Type} [MeasurableSpace A] {c : Prop} [Decidable c] {f g : Stream → A × Stream} (hf : Fresh f)
    (hg : Fresh g) : Fresh fun ω => if c then f ω else g ω := by
  by_cases hc : c
  · simpa only [if_pos hc] using hf
  · simpa only [if_neg hc] using hg

theorem fogT_fresh (W : Mist R M) (h : W.Lawful) (m : Option M)
    {K : V3 ℝ → Option M → R → Stream → V3 ℝ × Stream} (mK : Measurable fun q : MState R => K q.1 m q.2.1 q.2.2)
    (hK : ∀ β r, Fresh (K β m r)) (β : V3 ℝ) (r : R) (t : ℝ) :
    Fresh fun ω => W.fogT K β m r t (W.both m r t ω).1 ((W.both m r t ω).2 0) (drop 1 (W.both m r t ω).2) := by
  refine fresh_draw (P := W.both m r t) (both_fresh W h m r t)
    (k := fun q : (V3 ℝ × ℝ × V3 ℝ) × ℝ × Stream => W.fogT K β m r t q.1 q.2.1 q.2.2)
    ((measurable_fogT W h m mK).comp (g := fun q : (V3 ℝ × R × ℝ) × (V3 ℝ × ℝ × V3 ℝ) × ℝ × Stream =>
      W.fogT K q.1.1 m q.1.2.1 q.1.2.2 q.2.1 q.2.2.1 q.2.2.2) (f := fun q => ((β, r, t), q))
      (measurable_const.prodMk measurable_id)) fun a u => ?_
  simp only [Mist.fogT]
  exact fresh_ite (fresh_pure _) (fresh_map (hK _ _) (measurable_V3add measurable_const measurable_id))

theorem surfT_fresh (W : Mist R M) (h : W.Lawful) (m : Option M)
    {K : V3 ℝ → Option M → R → Stream → V3 ℝ × Stream} (mK : Measurable fun q : MState R => K q.1 m q.2.1 q.2.2)
    (hK : ∀ β r, Fresh (K β m r)) (β : V3 ℝ) (r : R) :
    Fresh fun ω => W.surfT K β m r (W.bulbs m r ω).1 ((W.bulbs m r ω).2 0) (drop 1 (W.bulbs m r ω).2) := by
  refine fresh_draw (P := W.bulbs m r) (h.lights_fresh m r)
    (k := fun q : V3 ℝ × ℝ × Stream => W.surfT K β m r q.1 q.2.1 q.2.2)
    ((measurable_surfT W h m mK).comp (g := fun q : (V3 ℝ × R) × V3 ℝ × ℝ × Stream =>
      W.surfT K q.1.1 m q.1.2 q.2.1 q.2.2.1 q.2.2.2) (f := fun q => ((β, r), q))
      (measurable_const.prodMk measurable_id)) fun d u => ?_
  simp only [Mist.surfT]
  refine fresh_ite (fresh_pure _) ?_
  refine fresh_bind (f := W.scatter r) (k := fun q : Bounce R × Stream => W.bounceT K β m d q.1 q.2) (h.scatter_fresh r)
    ((measurable_bounceT W h m mK).comp (g := fun q : (V3 ℝ × V3 ℝ) × Bounce R × Stream =>
      W.bounceT K q.1.1 m q.1.2 q.2.1 q.2.2) (f := fun q => ((β, d), q))
      (measurable_const.prodMk measurable_id)) fun b => ?_
  simp only [Mist.bounceT]
  exact fresh_ite (fresh_pure _) (fresh_map (hK _ _) (measurable_V3add measurable_const measurable_id))

theorem mist_trace_fresh [Countable M] (W : Mist R M) (h : W.Lawful) (k : ℕ) : ∀ n β m r, Fresh (W.trace k n β m r) := by
  induction k with
  | zero => intro n β m r; exact fresh_pure 0
  | succ k ih =>
    intro n β m r
    cases n with
    | zero => exact fresh_pure 0
    | succ n =>
      by_cases hz : isZero β = true
      · have : W.trace (k + 1) (n + 1) β m r = fun ω => (0, ω) := by ext1 ω; rw [Mist.trace, if_pos hz]
        rw [this]; exact fresh_pure 0
      by_cases he : W.escapes r = true
      · have : W.trace (k + 1) (n + 1) β m r = fun ω => (β * W.env r, ω) := by
          ext1 ω; rw [Mist.trace, if_neg hz, if_pos he]
        rw [this]; exact fresh_pure _
      let g : Flight × Stream → V3 ℝ × Stream := fun q =>
        if q.1.scatters = true then W.fogT (W.trace k n) (β * q.1.weight) m r q.1.t (W.both m r q.1.t q.2).1
          ((W.both m r q.1.t q.2).2 0) (drop 1 (W.both m r q.1.t q.2).2)
        else if W.null r = true then W.trace k (n + 1) (β * q.1.weight) (W.beyond m r) (W.past r) q.2
        else W.surfT (W.trace k n) (β * q.1.weight) m r (W.bulbs m r q.2).1 ((W.bulbs m r q.2).2 0)
          (drop 1 (W.bulbs m r q.2).2)
      have mw : Measurable fun q : Flight × Stream => q.1.weight := measurable_fst.comp measurable_fst
      have ms : Measurable fun q : Flight × Stream => q.1.scatters :=
        measurable_fst.comp (measurable_snd.comp measurable_fst)
      have mt : Measurable fun q : Flight × Stream => q.1.t := measurable_snd.comp (measurable_snd.comp measurable_fst)
      have mβw : Measurable fun q : Flight × Stream => β * q.1.weight := measurable_V3mul measurable_const mw
      have mr : Measurable fun q : Flight × Stream => r := measurable_const
      have mω : Measurable fun q : Flight × Stream => q.2 := measurable_snd
      have mb : Measurable fun q : Flight × Stream => W.both m r q.1.t q.2 :=
        (measurable_both W h m).comp ((mr.prodMk mt).prodMk mω)
      have ml : Measurable fun q : Flight × Stream => W.bulbs m r q.2 := (measurable_bulbs W h m).comp (mr.prodMk mω)
      have mg : Measurable g := by
        refine measurable_bool_ite ms ?_ (measurable_bool_ite measurable_const ?_ ?_)
        · exact (measurable_fogT W h m (measurable_mistTrace W h k n m)).comp ((mβw.prodMk (mr.prodMk mt)).prodMk
            ((measurable_fst.comp mb).prodMk (((measurable_pi_apply 0).comp (measurable_snd.comp mb)).prodMk
              ((measurable_drop 1).comp (measurable_snd.comp mb)))))
        · exact (measurable_mistTrace W h k (n + 1) (W.beyond m r)).comp (mβw.prodMk (measurable_const.prodMk mω))
        · exact (measurable_surfT W h m (measurable_mistTrace W h k n m)).comp ((mβw.prodMk mr).prodMk
            ((measurable_fst.comp ml).prodMk (((measurable_pi_apply 0).comp (measurable_snd.comp ml)).prodMk
              ((measurable_drop 1).comp (measurable_snd.comp ml)))))
      have : W.trace (k + 1) (n + 1) β m r = fun ω => g (W.fly m r ω) := by
        ext1 ω
        rw [Mist.trace, if_neg hz, if_neg he]
      rw [this]
      refine fresh_bind (f := W.fly m r) (k := g) (fly_fresh W h m r) mg fun f => ?_
      simp only [g]
      exact fresh_ite (fogT_fresh W h m (measurable_mistTrace W h k n m) (fun β r => ih n β m r) _ r f.t)
        (fresh_ite (ih _ _ _ _)
          (surfT_fresh W h m (measurable_mistTrace W h k n m) (fun β r => ih n β m r) _ r))

/-! ## The program -/

/-- A program that is the integrator agrees with enough passes. -/
theorem Mist.Traces.eventually {W : Mist R M} (h : W.Lawful) (hm : W.Matte) {quot : ℝ → ℝ → ℝ} (hq : IsQuot quot) {n : ℕ}
    {env : Option M} {Li : R → Stream → V3 ℝ × Stream} (hLi : W.Traces quot n env Li) (r : R) (ω : Stream) :
    ∃ K, ∀ k ≥ K, W.trace k n white env r ω = Li r ω := by
  obtain ⟨fuel, h1, h2⟩ := hLi r ω
  refine ⟨fuel, fun k hk => Prod.ext ?_ ?_⟩
  · rw [mist_trace_fst]
    exact (Li_gather W h hm quot hq n env r ω k _ (Vol.vol_fuel quot n env _ fuel k hk _ h1)).symm
  · exact mist_trace_snd W h hm hq k n white env r ω _ white_nonneg (left_fuel W quot fuel k n white env r ω _ hk h2)

theorem Mist.Traces.measurable [Countable M] {W : Mist R M} (h : W.Lawful) (hm : W.Matte) {quot : ℝ → ℝ → ℝ}
    (hq : IsQuot quot) {n : ℕ} {env : Option M} {Li : R → Stream → V3 ℝ × Stream} (hLi : W.Traces quot n env Li) :
    Measurable fun p : R × Stream => Li p.1 p.2 := by
  refine measurable_limit (g := fun k (p : R × Stream) => W.trace k n white env p.1 p.2) (fun k => ?_) fun p =>
    hLi.eventually h hm hq p.1 p.2
  exact (measurable_mistTrace W h k n env).comp (measurable_const.prodMk measurable_id)

theorem Mist.Traces.fresh [Countable M] {W : Mist R M} (h : W.Lawful) (hm : W.Matte) {quot : ℝ → ℝ → ℝ}
    (hq : IsQuot quot) {n : ℕ} {env : Option M} {Li : R → Stream → V3 ℝ × Stream} (hLi : W.Traces quot n env Li) (r : R) :
    Fresh (Li r) :=
  fresh_limit (g := fun k => W.trace k n white env r) (fun k => mist_trace_fresh W h k n white env r)
    fun ω => hLi.eventually h hm hq r ω

theorem Mist.Traces.renders {W : Mist R M} {quot : ℝ → ℝ → ℝ} {n : ℕ} {env : Option M}
    {Li : R → Stream → V3 ℝ × Stream} (hLi : W.Traces quot n env Li) (r : R) :
    W.Renders quot n env r fun ω => (Li r ω).1 :=
  Filter.Eventually.of_forall fun ω => (hLi r ω).imp fun _ h => h.1

/-- If no ray crosses more than `N` null surfaces in a row, there is such a program. -/
theorem mist_traces (W : Mist R M) (N : ℕ) (rank : R → ℕ) (hN : ∀ r, rank r ≤ N)
    (hp : ∀ r, W.escapes r = false → W.null r = true → rank (W.past r) < rank r) (quot : ℝ → ℝ → ℝ) (n : ℕ)
    (env : Option M) : ∃ Li, W.Traces quot n env Li := by
  have key : ∀ r ω, ∃ p : V3 ℝ × Stream, ∃ fuel, W.Li quot n env r ω fuel = some p.1 ∧
      W.left quot fuel n white env r ω = some p.2 := by
    intro r ω
    obtain ⟨v, hv⟩ := few_returns W N rank hN hp quot n env r ω
    obtain ⟨σ, hσ⟩ := left_returns W N rank hN hp quot (n * (N + 1) + N + 1) n white env r ω (by have := hN r; omega)
    refine ⟨(v, σ), max (n + N * n + 1) (n * (N + 1) + N + 1), ?_, ?_⟩
    · exact Vol.vol_fuel quot n env _ _ _ (le_max_left _ _) _ hv
    · exact left_fuel W quot _ _ n white env r ω _ (le_max_right _ _) hσ
  choose Li hLi using key
  exact ⟨Li, hLi⟩

end Feign.Integrators
