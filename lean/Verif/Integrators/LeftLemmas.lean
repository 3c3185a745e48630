import Verif.Integrators.Left
import Verif.Integrators.WalkProps

/-! # What the path integrator leaves of the stream: lemmas -/

set_option linter.unusedSectionVars false
set_option linter.unusedVariables false

namespace Feign.Integrators

open Sampling MeasureTheory Warp
open scoped ENNReal

variable {R : Type}

theorem bounceBeta_eq {quot : ℝ → ℝ → ℝ} (hq : IsQuot quot) (delta : Bool) {β : V3 ℝ} {b : Bounce R} (hβ : NonNeg β)
    (hz : isZero β = false) (hp : b.pdf ≠ 0) : bounceBeta quot delta β b = step delta β b := by
  have hm : b.pdf * min β.maxValue 1 ≠ 0 := mul_ne_zero hp (goOn_pos hβ hz).ne'
  have hcos : (if delta = true then 1 else if b.cos < 0 then -b.cos else b.cos) = (if delta then 1 else |b.cos| : ℝ) := by
    cases delta with
    | true => rfl
    | false =>
      simp only [Bool.false_eq_true, if_false]
      by_cases hc : b.cos < 0
      · rw [if_pos hc, abs_of_neg hc]
      · rw [if_neg hc, abs_of_nonneg (not_lt.1 hc)]
  simp only [bounceBeta, step, hcos, divBy, hq _ _ hm]
  congr 1
  ext <;> simp only [V3.smul_x, V3.smul_y, V3.smul_z] <;> ring

/-- Radiance and stream together. -/
noncomputable def World.trace (W : World R) : ℕ → V3 ℝ → Bool → R → Stream → V3 ℝ × Stream
  | 0, _, _, _, ω => (0, ω)
  | n + 1, β, look, r, ω =>
    if isZero β = true then (0, ω)
    else if W.escapes r = true then (β * W.env r, ω)
    else
      if (W.lit (r, ω)).2 0 > min β.maxValue 1 then
        (β * (W.own look r + (W.lit (r, ω)).1), drop 1 (W.lit (r, ω)).2)
      else
        if (W.scatter r (drop 1 (W.lit (r, ω)).2)).1.pdf = 0 then
          (β * (W.own look r + (W.lit (r, ω)).1), (W.scatter r (drop 1 (W.lit (r, ω)).2)).2)
        else
          (β * (W.own look r + (W.lit (r, ω)).1) +
            (W.trace n (step (W.delta r) β (W.scatter r (drop 1 (W.lit (r, ω)).2)).1) (W.delta r)
              (W.scatter r (drop 1 (W.lit (r, ω)).2)).1.ray (W.scatter r (drop 1 (W.lit (r, ω)).2)).2).1,
            (W.trace n (step (W.delta r) β (W.scatter r (drop 1 (W.lit (r, ω)).2)).1) (W.delta r)
              (W.scatter r (drop 1 (W.lit (r, ω)).2)).1.ray (W.scatter r (drop 1 (W.lit (r, ω)).2)).2).2)

theorem trace_fst (W : World R) (n : ℕ) : ∀ β look r ω, (W.trace n β look r ω).1 = W.gather n β look r ω := by
  induction n with
  | zero => intro β look r ω; rfl
  | succ n ih =>
    intro β look r ω
    rw [World.trace, World.gather]
    by_cases hz : isZero β = true
    · rw [if_pos hz, if_pos hz]
    · rw [if_neg hz, if_neg hz]
      by_cases he : W.escapes r = true
      · rw [if_pos he, if_pos he]
      · rw [if_neg he, if_neg he]
        by_cases hu : (W.lit (r, ω)).2 0 > min β.maxValue 1
        · rw [if_pos hu, if_pos (Or.inl hu), add_zero]
        · rw [if_neg hu]
          by_cases hp : (W.scatter r (drop 1 (W.lit (r, ω)).2)).1.pdf = 0
          · rw [if_pos hp, if_pos (Or.inr hp), add_zero]
          · rw [if_neg hp, if_neg (not_or.2 ⟨hu, hp⟩), ih]

theorem trace_snd (W : World R) {quot : ℝ → ℝ → ℝ} (hq : IsQuot quot)
    (hn : ∀ r ω, NonNeg (W.scatter r ω).1.albedo ∧ 0 ≤ (W.scatter r ω).1.pdf) (n : ℕ) :
    ∀ β look r ω, NonNeg β → (W.trace n β look r ω).2 = W.left quot n β (r, ω) := by
  induction n with
  | zero => intro β look r ω _; rfl
  | succ n ih =>
    intro β look r ω hβ
    have hl : (W.samples r ω).2 = (W.lit (r, ω)).2 := by rw [← samples_lit W (r, ω)]
    rw [World.trace, World.left]
    by_cases hz : isZero β = true
    · rw [if_pos hz, if_pos hz]
    · have hz' : isZero β = false := by simpa using hz
      rw [if_neg hz, if_neg hz]
      by_cases he : W.escapes r = true
      · rw [if_pos he, if_pos he]
      · rw [if_neg he, if_neg he]
        simp only [hl]
        by_cases hu : (W.lit (r, ω)).2 0 > min β.maxValue 1
        · rw [if_pos hu, if_pos hu]
        · rw [if_neg hu, if_neg hu]
          have := hn r (drop 1 (W.lit (r, ω)).2)
          by_cases hp : (W.scatter r (drop 1 (W.lit (r, ω)).2)).1.pdf = 0
          · rw [if_pos hp, if_pos hp]
          · rw [if_neg hp, if_neg hp, ih _ _ _ _ (hβ.step hz' this.1 this.2), bounceBeta_eq hq _ hβ hz' hp]

variable [MeasurableSpace R]

theorem measurable_trace (W : World R) (h : W.Lawful) (n : ℕ) :
    Measurable fun p : State R => W.trace n p.1 p.2.1 p.2.2.1 p.2.2.2 := by
  induction n with
  | zero =>
    simp only [World.trace]
    exact measurable_const.prodMk (measurable_snd.comp (measurable_snd.comp measurable_snd))
  | succ n ih =>
    simp only [World.trace]
    have mβ : Measurable fun p : State R => p.1 := measurable_fst
    have ml : Measurable fun p : State R => p.2.1 := measurable_fst.comp measurable_snd
    have mr : Measurable fun p : State R => p.2.2.1 := measurable_fst.comp (measurable_snd.comp measurable_snd)
    have mω : Measurable fun p : State R => p.2.2.2 := measurable_snd.comp (measurable_snd.comp measurable_snd)
    have mlit : Measurable fun p : State R => W.lit (p.2.2.1, p.2.2.2) := (measurable_lit W h).comp (mr.prodMk mω)
    have mlit2 : Measurable fun p : State R => (W.lit (p.2.2.1, p.2.2.2)).2 := measurable_snd.comp mlit
    have mb : Measurable fun p : State R => W.scatter p.2.2.1 (drop 1 (W.lit (p.2.2.1, p.2.2.2)).2) :=
      h.scatter.comp (mr.prodMk ((measurable_drop 1).comp mlit2))
    have mb1 := measurable_fst.comp mb
    have mpdf : Measurable fun p : State R => (W.scatter p.2.2.1 (drop 1 (W.lit (p.2.2.1, p.2.2.2)).2)).1.pdf :=
      measurable_fst.comp (measurable_snd.comp mb1)
    have md : Measurable fun p : State R => W.delta p.2.2.1 := h.delta.comp mr
    have mown : Measurable fun p : State R => W.own p.2.1 p.2.2.1 :=
      measurable_bool_ite ml (h.emitted.comp mr) measurable_const
    have mhere : Measurable fun p : State R => p.1 * (W.own p.2.1 p.2.2.1 + (W.lit (p.2.2.1, p.2.2.2)).1) :=
      measurable_V3mul mβ (measurable_V3add mown (measurable_fst.comp mlit))
    have mrest : Measurable fun p : State R =>
        W.trace n (step (W.delta p.2.2.1) p.1 (W.scatter p.2.2.1 (drop 1 (W.lit (p.2.2.1, p.2.2.2)).2)).1)
          (W.delta p.2.2.1) (W.scatter p.2.2.1 (drop 1 (W.lit (p.2.2.1, p.2.2.2)).2)).1.ray
          (W.scatter p.2.2.1 (drop 1 (W.lit (p.2.2.1, p.2.2.2)).2)).2 :=
      ih.comp ((measurable_step md mβ mb1).prodMk (md.prodMk
        ((measurable_snd.comp (measurable_snd.comp (measurable_snd.comp mb1))).prodMk (measurable_snd.comp mb))))
    refine Measurable.ite (mβ measurableSet_isZero) (measurable_const.prodMk mω) (measurable_bool_ite (h.escapes.comp mr)
      ((measurable_V3mul mβ (h.env.comp mr)).prodMk mω) (Measurable.ite ?_ (mhere.prodMk ((measurable_drop 1).comp mlit2))
        (Measurable.ite (mpdf (measurableSet_singleton 0)) (mhere.prodMk (measurable_snd.comp mb))
          ((measurable_V3add mhere (measurable_fst.comp mrest)).prodMk (measurable_snd.comp mrest)))))
    exact measurableSet_lt ((measurable_maxValue.comp mβ).min measurable_const) ((measurable_pi_apply 0).comp mlit2)

theorem trace_fresh (W : World R) (h : W.Lawful) (n : ℕ) : ∀ β look r, Fresh (W.trace n β look r) := by
  induction n with
  | zero => intro β look r; exact fresh_pure 0
  | succ n ih =>
    intro β look r
    by_cases hz : isZero β = true
    · have : W.trace (n + 1) β look r = fun ω => (0, ω) := by ext1 ω; rw [World.trace, if_pos hz]
      rw [this]; exact fresh_pure 0
    by_cases he : W.escapes r = true
    · have : W.trace (n + 1) β look r = fun ω => (β * W.env r, ω) := by
        ext1 ω; rw [World.trace, if_neg hz, if_pos he]
      rw [this]; exact fresh_pure _
    -- after the material's numbers
    let k3 : V3 ℝ → Bounce R × Stream → V3 ℝ × Stream := fun d q =>
      if q.1.pdf = 0 then (β * (W.own look r + d), q.2)
      else (β * (W.own look r + d) + (W.trace n (step (W.delta r) β q.1) (W.delta r) q.1.ray q.2).1,
        (W.trace n (step (W.delta r) β q.1) (W.delta r) q.1.ray q.2).2)
    have mk3 : Measurable fun q : V3 ℝ × (Bounce R × Stream) => k3 q.1 q.2 := by
      have mb : Measurable fun q : V3 ℝ × (Bounce R × Stream) => q.2.1 := measurable_fst.comp measurable_snd
      have mω : Measurable fun q : V3 ℝ × (Bounce R × Stream) => q.2.2 := measurable_snd.comp measurable_snd
      have mpdf : Measurable fun q : V3 ℝ × (Bounce R × Stream) => q.2.1.pdf :=
        measurable_fst.comp (measurable_snd.comp mb)
      have mhere : Measurable fun q : V3 ℝ × (Bounce R × Stream) => β * (W.own look r + q.1) :=
        measurable_V3mul measurable_const (measurable_V3add measurable_const measurable_fst)
      have mrest : Measurable fun q : V3 ℝ × (Bounce R × Stream) =>
          W.trace n (step (W.delta r) β q.2.1) (W.delta r) q.2.1.ray q.2.2 :=
        (measurable_trace W h n).comp ((measurable_step measurable_const measurable_const mb).prodMk
          (measurable_const.prodMk ((measurable_snd.comp (measurable_snd.comp (measurable_snd.comp mb))).prodMk mω)))
      exact Measurable.ite (mpdf (measurableSet_singleton 0)) (mhere.prodMk mω)
        ((measurable_V3add mhere (measurable_fst.comp mrest)).prodMk (measurable_snd.comp mrest))
    have f3 : ∀ d, Fresh fun ω => k3 d (W.scatter r ω) := by
      intro d
      refine fresh_bind (k := k3 d) (h.scatter_fresh r) (mk3.comp (measurable_const.prodMk measurable_id)) fun b => ?_
      by_cases hp : b.pdf = 0
      · have : (fun ω => k3 d (b, ω)) = fun ω => (β * (W.own look r + d), ω) := by
          ext1 ω; exact if_pos hp
        rw [this]; exact fresh_pure _
      · have : (fun ω => k3 d (b, ω)) = fun ω =>
            (β * (W.own look r + d) + (W.trace n (step (W.delta r) β b) (W.delta r) b.ray ω).1,
              (W.trace n (step (W.delta r) β b) (W.delta r) b.ray ω).2) := by
          ext1 ω; exact if_neg hp
        rw [this]
        exact fresh_map (ih _ _ _) (measurable_V3add measurable_const measurable_id)
    -- after the number for the termination
    let k2 : V3 ℝ → ℝ × Stream → V3 ℝ × Stream := fun d q =>
      if q.1 > min β.maxValue 1 then (β * (W.own look r + d), q.2) else k3 d (W.scatter r q.2)
    have mk2 : Measurable fun q : V3 ℝ × (ℝ × Stream) => k2 q.1 q.2 := by
      have mω : Measurable fun q : V3 ℝ × (ℝ × Stream) => q.2.2 := measurable_snd.comp measurable_snd
      have mhere : Measurable fun q : V3 ℝ × (ℝ × Stream) => β * (W.own look r + q.1) :=
        measurable_V3mul measurable_const (measurable_V3add measurable_const measurable_fst)
      exact Measurable.ite (measurableSet_lt measurable_const (measurable_fst.comp measurable_snd)) (mhere.prodMk mω)
        (mk3.comp (measurable_fst.prodMk (h.scatter.comp (measurable_const.prodMk mω))))
    have f2 : ∀ d, Fresh fun ω => k2 d (next ω) := by
      intro d
      refine fresh_bind (k := k2 d) fresh_next (mk2.comp (measurable_const.prodMk measurable_id)) fun u => ?_
      by_cases hu : u > min β.maxValue 1
      · have : (fun ω => k2 d (u, ω)) = fun ω => (β * (W.own look r + d), ω) := by
          ext1 ω; exact if_pos hu
        rw [this]; exact fresh_pure _
      · have : (fun ω => k2 d (u, ω)) = fun ω => k3 d (W.scatter r ω) := by
          ext1 ω; exact if_neg hu
        rw [this]; exact f3 d
    have : W.trace (n + 1) β look r =
        fun ω => (fun q : V3 ℝ × Stream => k2 q.1 (next q.2)) (W.lit (r, ω)) := by
      ext1 ω
      rw [World.trace, if_neg hz, if_neg he]
      rfl
    rw [this]
    exact fresh_bind (k := fun q : V3 ℝ × Stream => k2 q.1 (next q.2)) (lit_fresh W h r)
      (mk2.comp (measurable_fst.prodMk (measurable_next.comp measurable_snd))) fun d => f2 d

/-- A program that traces is the pair of radiance and remaining stream. -/
theorem Traces.eq {W : World R} (h : W.Lawful) {quot : ℝ → ℝ → ℝ} (hq : IsQuot quot) {n : ℕ}
    {Li : R → Stream → V3 ℝ × Stream} (hLi : W.Traces quot n Li) : Li = W.trace n white true := by
  funext r ω
  obtain ⟨h1, h2⟩ := hLi r ω
  have hi : Idle (fun _ => false) := fun _ _ => rfl
  have e := h1 _ hi
  rw [Li_eq W h quot hq n r ω _ hi] at e
  injection e with e
  refine Prod.ext ?_ ?_
  · rw [trace_fst]; exact (congrArg Prod.fst e).symm
  · rw [h2, trace_snd W hq h.scatter_nonneg n _ _ _ _ NonNeg.white]

/-- There is such a program. -/
theorem traces_trace (W : World R) (h : W.Lawful) {quot : ℝ → ℝ → ℝ} (hq : IsQuot quot) (n : ℕ) :
    W.Traces quot n (W.trace n white true) := fun r ω =>
  ⟨fun t ht => by rw [trace_fst]; exact Li_eq W h quot hq n r ω t ht,
    trace_snd W hq h.scatter_nonneg n _ _ _ _ NonNeg.white⟩

end Feign.Integrators
