import Verif.Integrators.WhittedSpec
import Verif.Integrators.WalkProps
import Verif.Integrators.TimerProps
import Verif.Integrators.Carried

/-! # The mean of Whitted's integrator: lemmas -/

set_option linter.unusedSectionVars false
set_option linter.unusedSimpArgs false
set_option linter.unusedVariables false

namespace Feign.Integrators

open Sampling MeasureTheory Warp
open scoped ENNReal

variable {R : Type}

/-- The weight of the recursive call. -/
noncomputable def chainBeta (b : Bounce R) : V3 ℝ := b.albedo.smul (1 / (19 / 20))

/-- The call ends within `n` levels. -/
noncomputable def World.chainDone (W : World R) : ℕ → R → Stream → Bool
  | 0, _, _ => false
  | n + 1, r, ω =>
    if W.escapes r then true
    else if W.delta r then
      if (W.scatter r ω).2 0 > 19 / 20 then true
      else if isZero (chainBeta (W.scatter r ω).1) then true
      else W.chainDone n (W.scatter r ω).1.ray (drop 1 (W.scatter r ω).2)
    else true

/-- The value, with black for what lies more than `n` levels down. -/
noncomputable def World.chain (W : World R) : ℕ → R → Stream → V3 ℝ
  | 0, _, _ => 0
  | n + 1, r, ω =>
    if W.escapes r then W.env r
    else if W.delta r then
      if (W.scatter r ω).2 0 > 19 / 20 then 0
      else (if isZero (chainBeta (W.scatter r ω).1) then 0
        else chainBeta (W.scatter r ω).1 * W.chain n (W.scatter r ω).1.ray (drop 1 (W.scatter r ω).2)) + W.emitted r
    else W.emitted r + (W.lit (r, ω)).1 + W.emitted r

theorem whittedPure_chain (W : World R) (p : R × Stream) (n : ℕ) : ∀ i : ℕ,
    whittedPure (fun k => W.whittedAnswer (W.whittedWalk p k)) n i =
      if W.chainDone n (W.whittedWalk p i).1 (W.whittedWalk p i).2 then
        some (W.chain n (W.whittedWalk p i).1 (W.whittedWalk p i).2) else none := by
  induction n with
  | zero => intro i; simp [whittedPure, World.chainDone]
  | succ n ih =>
    intro i
    rw [whittedPure]
    set q := W.whittedWalk p i with hq
    by_cases he : W.escapes q.1 = true
    · have ha : W.whittedAnswer q = .escape 0 (W.env q.1) := by rw [World.whittedAnswer, if_pos he]
      simp [ha, World.chainDone, World.chain, he]
    · have ha : W.whittedAnswer q = .surface 0 ⟨.simple, W.delta q.1, W.emitted q.1, (W.samples q.1 q.2).1, 0,
          .bsdf (W.scatter q.1 (W.samples q.1 q.2).2).1.albedo (W.scatter q.1 (W.samples q.1 q.2).2).1.pdf,
          (W.scatter q.1 (W.samples q.1 q.2).2).1.cos, (W.scatter q.1 (W.samples q.1 q.2).2).2 0⟩ := by
        rw [World.whittedAnswer, if_neg he]
      simp only [ha, World.chainDone, World.chain, if_neg he]
      cases hd : W.delta q.1 with
      | true =>
        have hs : W.samples q.1 q.2 = ([], q.2) := by simp [World.samples, hd]
        have hw : W.whittedWalk p (i + 1) = ((W.scatter q.1 q.2).1.ray, drop 1 (W.scatter q.1 q.2).2) := by
          rw [World.whittedWalk, ← hq, World.whittedAdvance, hs]
        have ih' := ih (i + 1)
        rw [hw] at ih'
        simp only [hs, evaluate, Closure.fresh, accumulate, List.foldl_nil, if_true, ih', sample, chainBeta]
        by_cases hu : (W.scatter q.1 q.2).2 0 > 19 / 20
        · simp [hu]
        · simp only [hu, if_false]
          by_cases hz : isZero ((W.scatter q.1 q.2).1.albedo.smul (1 / (19 / 20))) = true
          · simp only [hz, if_true]
          · simp only [hz, if_false, Bool.false_eq_true]
            cases hdn : W.chainDone n (W.scatter q.1 q.2).1.ray (drop 1 (W.scatter q.1 q.2).2) <;> simp
      | false =>
        have hl := samples_lit W q
        have hl1 : total (W.samples q.1 q.2).1 = (W.lit (q.1, q.2)).1 := by rw [← hl]
        rw [← hl1]
        simp only [accumulate_eq, evaluate, Closure.fresh]
        simp [total]

theorem whitted_eq (W : World R) (fuel : ℕ) (r : R) (ω : Stream) (t : Running) (ht : Idle t) :
    W.whitted fuel r ω t = .ok (if W.chainDone fuel r ω then some (W.chain fuel r ω) else none, t) := by
  rw [World.whitted, whittedLi_eq ht, whittedPure_chain]
  rfl

/-- Once ended, more levels change nothing. -/
theorem chain_stable (W : World R) (n : ℕ) : ∀ r ω, W.chainDone n r ω = true →
    W.chainDone (n + 1) r ω = true ∧ W.chain (n + 1) r ω = W.chain n r ω := by
  induction n with
  | zero => intro r ω h; simp [World.chainDone] at h
  | succ n ih =>
    intro r ω h
    rw [World.chainDone] at h
    rw [World.chainDone]
    conv => rhs; lhs; rw [World.chain]
    conv => rhs; rhs; rw [World.chain]
    by_cases he : W.escapes r = true
    · simp [he]
    · by_cases hd : W.delta r = true
      · by_cases hu : (W.scatter r ω).2 0 > 19 / 20
        · simp [he, hd, hu]
        · by_cases hz : isZero (chainBeta (W.scatter r ω).1) = true
          · simp [he, hd, hu, hz]
          · simp only [he, hd, hu, hz, if_false, if_true, Bool.false_eq_true] at h ⊢
            obtain ⟨h1, h2⟩ := ih _ _ h
            rw [h2]
            exact ⟨h1, rfl⟩
      · simp [he, hd]

theorem chain_stable_le (W : World R) {n m : ℕ} (hnm : n ≤ m) (r : R) (ω : Stream) (h : W.chainDone n r ω = true) :
    W.chainDone m r ω = true ∧ W.chain m r ω = W.chain n r ω := by
  induction m, hnm using Nat.le_induction with
  | base => exact ⟨h, rfl⟩
  | succ m hm ih =>
    obtain ⟨h1, h2⟩ := ih
    obtain ⟨h3, h4⟩ := chain_stable W m r ω h1
    exact ⟨h3, h4.trans h2⟩

variable [MeasurableSpace R]

theorem chainBeta_nonneg (W : World R) (h : W.Lawful) (r : R) (ω : Stream) : NonNeg (chainBeta (W.scatter r ω).1) :=
  (h.scatter_nonneg r ω).1.smul (by norm_num)

theorem chain_nonneg (W : World R) (h : W.Lawful) (n : ℕ) : ∀ r ω, NonNeg (W.chain n r ω) := by
  induction n with
  | zero => intro r ω; exact NonNeg.zero
  | succ n ih =>
    intro r ω
    rw [World.chain]
    have hl := lit_nonneg W h.lights_nonneg (r, ω)
    split_ifs
    · exact h.env_nonneg r
    · exact NonNeg.zero
    · exact NonNeg.zero.add (h.emitted_nonneg r)
    · exact ((chainBeta_nonneg W h r ω).mul (ih _ _)).add (h.emitted_nonneg r)
    · exact ((h.emitted_nonneg r).add hl).add (h.emitted_nonneg r)

/-- More levels show more. -/
theorem chain_mono (W : World R) (h : W.Lawful) (i : Fin 3) (n : ℕ) :
    ∀ r ω, (W.chain n r ω).get i ≤ (W.chain (n + 1) r ω).get i := by
  induction n with
  | zero => intro r ω; rw [World.chain, get_zero]; exact (chain_nonneg W h 1 r ω).get i
  | succ n ih =>
    intro r ω
    conv_lhs => rw [World.chain]
    conv_rhs => rw [World.chain]
    split_ifs
    · exact le_rfl
    · exact le_rfl
    · exact le_rfl
    · rw [get_add, get_add, get_mul, get_mul]
      have := (chainBeta_nonneg W h r ω).get i
      gcongr
      exact ih _ _
    · exact le_rfl

theorem measurable_chainBeta {α : Type} [MeasurableSpace α] {b : α → Bounce R} (hb : Measurable b) :
    Measurable fun a => chainBeta (b a) :=
  measurable_V3smul (measurable_fst.comp hb) measurable_const

theorem measurable_chain (W : World R) (h : W.Lawful) (n : ℕ) : Measurable fun p : R × Stream => W.chain n p.1 p.2 := by
  induction n with
  | zero => simp only [World.chain]; exact measurable_const
  | succ n ih =>
    simp only [World.chain]
    have mr : Measurable fun p : R × Stream => p.1 := measurable_fst
    have mb : Measurable fun p : R × Stream => W.scatter p.1 p.2 := h.scatter
    have mb1 : Measurable fun p : R × Stream => (W.scatter p.1 p.2).1 := measurable_fst.comp mb
    have mb2 : Measurable fun p : R × Stream => (W.scatter p.1 p.2).2 := measurable_snd.comp mb
    have mβ := measurable_chainBeta mb1
    have me : Measurable fun p : R × Stream => W.emitted p.1 := h.emitted.comp mr
    have mu : Measurable fun p : R × Stream => (W.scatter p.1 p.2).2 0 := (measurable_pi_apply 0).comp mb2
    have mn : Measurable fun p : R × Stream => W.chain n (W.scatter p.1 p.2).1.ray (drop 1 (W.scatter p.1 p.2).2) :=
      ih.comp ((measurable_snd.comp (measurable_snd.comp (measurable_snd.comp mb1))).prodMk ((measurable_drop 1).comp mb2))
    have ml : Measurable fun p : R × Stream => (W.lit (p.1, p.2)).1 := measurable_fst.comp (measurable_lit W h)
    refine measurable_bool_ite (h.escapes.comp mr) (h.env.comp mr) (measurable_bool_ite (h.delta.comp mr)
      (Measurable.ite (measurableSet_lt measurable_const mu) measurable_const (measurable_V3add
        (Measurable.ite (mβ measurableSet_isZero) measurable_const (measurable_V3mul mβ mn)) me))
      (measurable_V3add (measurable_V3add me ml) me))

theorem measurableSet_chainDone (W : World R) (h : W.Lawful) (n : ℕ) :
    MeasurableSet {p : R × Stream | W.chainDone n p.1 p.2 = true} := by
  suffices hm : Measurable fun p : R × Stream => W.chainDone n p.1 p.2 from hm (t := {true}) MeasurableSpace.measurableSet_top
  induction n with
  | zero => simp only [World.chainDone]; exact measurable_const
  | succ n ih =>
    simp only [World.chainDone]
    have mr : Measurable fun p : R × Stream => p.1 := measurable_fst
    have mb : Measurable fun p : R × Stream => W.scatter p.1 p.2 := h.scatter
    have mb1 : Measurable fun p : R × Stream => (W.scatter p.1 p.2).1 := measurable_fst.comp mb
    have mb2 : Measurable fun p : R × Stream => (W.scatter p.1 p.2).2 := measurable_snd.comp mb
    have mu : Measurable fun p : R × Stream => (W.scatter p.1 p.2).2 0 := (measurable_pi_apply 0).comp mb2
    have mn : Measurable fun p : R × Stream => W.chainDone n (W.scatter p.1 p.2).1.ray (drop 1 (W.scatter p.1 p.2).2) :=
      ih.comp ((measurable_snd.comp (measurable_snd.comp (measurable_snd.comp mb1))).prodMk ((measurable_drop 1).comp mb2))
    exact measurable_bool_ite (h.escapes.comp mr) measurable_const (measurable_bool_ite (h.delta.comp mr)
      (Measurable.ite (measurableSet_lt measurable_const mu) measurable_const
        (Measurable.ite ((measurable_chainBeta mb1) measurableSet_isZero) measurable_const mn)) measurable_const)

/-- A number above `c` ends the path, otherwise the rest of the stream decides. -/
theorem roulette {F : Stream → ℝ≥0∞} (hF : Measurable F) {c : ℝ} (h0 : 0 ≤ c) (h1 : c ≤ 1) :
    ∫⁻ ω, (if ω 0 > c then 0 else F (drop 1 ω)) ∂uniform = ENNReal.ofReal c * ∫⁻ ω, F ω ∂uniform := by
  have m : Measurable fun ω : Stream => if ω 0 > c then (0 : ℝ≥0∞) else F (drop 1 ω) :=
    Measurable.ite (measurableSet_lt measurable_const (measurable_pi_apply 0)) measurable_const
      (hF.comp (measurable_drop 1))
  rw [lintegral_cons _ m]
  have s2 : ∀ u, ∫⁻ ω, (if (cons (u, ω)) 0 > c then (0 : ℝ≥0∞) else F (drop 1 (cons (u, ω)))) ∂uniform =
      (Set.Iic c).indicator (fun _ => ∫⁻ ω, F ω ∂uniform) u := by
    intro u
    simp only [cons, Set.indicator, Set.mem_Iic]
    by_cases hu : u > c
    · simp [hu, not_le.2 hu]
    · simp only [hu, if_false, not_lt.1 hu, if_true]
      rfl
  simp only [s2]
  rw [lintegral_indicator measurableSet_Iic, lintegral_const, Measure.restrict_apply MeasurableSet.univ,
    Set.univ_inter, unit_Iic h0 h1, mul_comm]

/-- One vertex of the termination. -/
theorem running_le (W : World R) (h : W.Lawful) (n : ℕ) : ∀ r,
    uniform {ω | W.chainDone n r ω = false} ≤ ENNReal.ofReal (19 / 20) ^ n := by
  induction n with
  | zero => intro r; simpa using prob_le_one
  | succ n ih =>
    intro r
    have ms : ∀ (n : ℕ) (r : R), MeasurableSet {ω | W.chainDone n r ω = false} := by
      intro n r
      have : {ω | W.chainDone n r ω = false} = (fun ω => ((r, ω) : R × Stream)) ⁻¹' {p | W.chainDone n p.1 p.2 = true}ᶜ := by
        ext ω
        simp
      rw [this]
      exact measurable_const.prodMk measurable_id (measurableSet_chainDone W h n).compl
    let run : R × Stream → ℝ≥0∞ := fun p => if W.chainDone n p.1 p.2 = true then 0 else 1
    have mrun : Measurable run := Measurable.ite (measurableSet_chainDone W h n) measurable_const measurable_const
    let G : Bounce R × Stream → ℝ≥0∞ := fun q => if q.2 0 > 19 / 20 then 0 else run (q.1.ray, drop 1 q.2)
    have mray : Measurable fun q : Bounce R × Stream => q.1.ray :=
      measurable_snd.comp (measurable_snd.comp (measurable_snd.comp measurable_fst))
    have mG : Measurable G :=
      Measurable.ite (measurableSet_lt measurable_const ((measurable_pi_apply 0).comp measurable_snd))
        measurable_const (mrun.comp (mray.prodMk ((measurable_drop 1).comp measurable_snd)))
    have hle : ∀ ω, {ω | W.chainDone (n + 1) r ω = false}.indicator (1 : Stream → ℝ≥0∞) ω ≤ G (W.scatter r ω) := by
      intro ω
      by_cases hω : W.chainDone (n + 1) r ω = false
      · rw [Set.indicator_of_mem (show ω ∈ {ω | W.chainDone (n + 1) r ω = false} from hω)]
        rw [World.chainDone] at hω
        by_cases he : W.escapes r = true
        · simp [he] at hω
        · by_cases hd : W.delta r = true
          · by_cases hu : (W.scatter r ω).2 0 > 19 / 20
            · simp [he, hd, hu] at hω
            · by_cases hz : isZero (chainBeta (W.scatter r ω).1) = true
              · simp [he, hd, hu, hz] at hω
              · simp only [he, hd, hu, hz, if_false, if_true, Bool.false_eq_true] at hω
                simp [G, run, hu, hω]
          · simp [he, hd] at hω
      · rw [Set.indicator_of_notMem (show ω ∉ {ω | W.chainDone (n + 1) r ω = false} from hω)]
        exact zero_le
    calc uniform {ω | W.chainDone (n + 1) r ω = false}
        = ∫⁻ ω, {ω | W.chainDone (n + 1) r ω = false}.indicator 1 ω ∂uniform :=
          (lintegral_indicator_one (ms _ _)).symm
      _ ≤ ∫⁻ ω, G (W.scatter r ω) ∂uniform := lintegral_mono hle
      _ = ∫⁻ ω, ∫⁻ ω', G ((W.scatter r ω).1, ω') ∂uniform ∂uniform := (h.scatter_fresh r).lintegral G mG
      _ ≤ ∫⁻ ω, ENNReal.ofReal (19 / 20) ^ (n + 1) ∂uniform := by
          refine lintegral_mono fun ω => ?_
          have mi : Measurable fun ω' : Stream => run ((W.scatter r ω).1.ray, ω') :=
            mrun.comp (measurable_const.prodMk measurable_id)
          refine (roulette mi (by norm_num) (by norm_num)).le.trans ?_
          rw [pow_succ, mul_comm]
          gcongr
          refine le_trans (le_of_eq ?_) (ih (W.scatter r ω).1.ray)
          rw [← lintegral_indicator_one (ms _ _)]
          refine lintegral_congr fun ω' => ?_
          simp only [run, Set.indicator]
          cases hh : W.chainDone n (W.scatter r ω).1.ray ω' <;> simp [hh]
      _ = _ := by simp

/-- Mean of the value, one channel. -/
noncomputable def World.chainMean (W : World R) (i : Fin 3) (n : ℕ) (r : R) : ℝ≥0∞ :=
  ∫⁻ ω, ENNReal.ofReal ((W.chain n r ω).get i) ∂uniform

/-- What a specular surface sends on when the path is not ended. -/
noncomputable def World.onwardChain (W : World R) (i : Fin 3) (n : ℕ) (r : R) (b : Bounce R) (ω : Stream) : ℝ≥0∞ :=
  (if isZero (chainBeta b) then 0 else
    ENNReal.ofReal ((chainBeta b).get i) * ENNReal.ofReal ((W.chain n b.ray ω).get i)) + ENNReal.ofReal ((W.emitted r).get i)

theorem measurable_onwardChain (W : World R) (h : W.Lawful) (i : Fin 3) (n : ℕ) (r : R) :
    Measurable fun q : Bounce R × Stream => W.onwardChain i n r q.1 q.2 := by
  have mray : Measurable fun q : Bounce R × Stream => q.1.ray :=
    measurable_snd.comp (measurable_snd.comp (measurable_snd.comp measurable_fst))
  have mβ : Measurable fun q : Bounce R × Stream => chainBeta q.1 := measurable_chainBeta measurable_fst
  have m1 : Measurable fun q : Bounce R × Stream => ENNReal.ofReal ((chainBeta q.1).get i) :=
    ((measurable_get i).comp mβ).ennreal_ofReal
  have m2 : Measurable fun q : Bounce R × Stream => ENNReal.ofReal ((W.chain n q.1.ray q.2).get i) :=
    ((measurable_get i).comp ((measurable_chain W h n).comp (mray.prodMk measurable_snd))).ennreal_ofReal
  exact (Measurable.ite (mβ measurableSet_isZero) measurable_const (m1.mul m2)).add measurable_const

theorem onwardChain_mean (W : World R) (h : W.Lawful) (i : Fin 3) (n : ℕ) (r : R) (b : Bounce R) :
    ∫⁻ ω, W.onwardChain i n r b ω ∂uniform = (if isZero (chainBeta b) then 0 else
      ENNReal.ofReal ((chainBeta b).get i) * W.chainMean i n b.ray) + ENNReal.ofReal ((W.emitted r).get i) := by
  have mc : Measurable fun ω => ENNReal.ofReal ((W.chain n b.ray ω).get i) :=
    ((measurable_get i).comp ((measurable_chain W h n).comp (measurable_const.prodMk measurable_id))).ennreal_ofReal
  by_cases hz : isZero (chainBeta b) = true
  · simp only [World.onwardChain, hz, if_true, zero_add, lintegral_const, measure_univ, mul_one]
  · simp only [World.onwardChain, hz, if_false, Bool.false_eq_true]
    rw [lintegral_add_right _ measurable_const, lintegral_const, measure_univ, mul_one, lintegral_const_mul _ mc]
    rfl

theorem chainMean_delta (W : World R) (h : W.Lawful) (i : Fin 3) (n : ℕ) (r : R) (he : W.escapes r = false)
    (hd : W.delta r = true) :
    W.chainMean i (n + 1) r = ENNReal.ofReal (19 / 20) * ENNReal.ofReal ((W.emitted r).get i) +
      ∫⁻ ω, (if isZero (chainBeta (W.scatter r ω).1) then 0 else
        ENNReal.ofReal ((W.scatter r ω).1.albedo.get i) * W.chainMean i n (W.scatter r ω).1.ray) ∂uniform := by
  have hscat : ∀ ω, NonNeg (W.scatter r ω).1.albedo := fun ω => (h.scatter_nonneg r ω).1
  let G : Bounce R × Stream → ℝ≥0∞ := fun q => if q.2 0 > 19 / 20 then 0 else W.onwardChain i n r q.1 (drop 1 q.2)
  have mF := measurable_onwardChain W h i n r
  have mG : Measurable G :=
    Measurable.ite (measurableSet_lt measurable_const ((measurable_pi_apply 0).comp measurable_snd))
      measurable_const (mF.comp (measurable_fst.prodMk ((measurable_drop 1).comp measurable_snd)))
  have e : ∀ ω, ENNReal.ofReal ((W.chain (n + 1) r ω).get i) = G (W.scatter r ω) := by
    intro ω
    rw [World.chain, if_neg (by simp [he]), if_pos hd]
    simp only [G, World.onwardChain]
    by_cases hu : (W.scatter r ω).2 0 > 19 / 20
    · rw [if_pos hu, if_pos hu, get_zero, ENNReal.ofReal_zero]
    · rw [if_neg hu, if_neg hu]
      have hE := (h.emitted_nonneg r).get i
      by_cases hz : isZero (chainBeta (W.scatter r ω).1) = true
      · rw [if_pos hz, if_pos hz, zero_add, zero_add]
      · rw [if_neg hz, if_neg hz, get_add, get_mul, ENNReal.ofReal_add (mul_nonneg ((chainBeta_nonneg W h r ω).get i)
          ((chain_nonneg W h n _ _).get i)) hE, ENNReal.ofReal_mul ((chainBeta_nonneg W h r ω).get i)]
  have inner : ∀ ω, ∫⁻ ω', G ((W.scatter r ω).1, ω') ∂uniform =
      ENNReal.ofReal (19 / 20) * ENNReal.ofReal ((W.emitted r).get i) +
        if isZero (chainBeta (W.scatter r ω).1) then 0 else
          ENNReal.ofReal ((W.scatter r ω).1.albedo.get i) * W.chainMean i n (W.scatter r ω).1.ray := by
    intro ω
    have mFb : Measurable (W.onwardChain i n r (W.scatter r ω).1) := mF.comp (measurable_const.prodMk measurable_id)
    refine (roulette mFb (by norm_num) (by norm_num)).trans ?_
    rw [onwardChain_mean W h, mul_add, add_comm]
    congr 1
    by_cases hz : isZero (chainBeta (W.scatter r ω).1) = true
    · rw [if_pos hz, if_pos hz, mul_zero]
    · rw [if_neg hz, if_neg hz, ← mul_assoc, ← ENNReal.ofReal_mul (by norm_num)]
      congr 2
      rw [chainBeta, get_smul]
      ring
  have hG := (h.scatter_fresh r).lintegral G mG
  unfold World.chainMean at inner ⊢
  rw [lintegral_congr e, hG, lintegral_congr inner, lintegral_add_left measurable_const, lintegral_const, measure_univ,
    mul_one]

theorem chainMean_escape (W : World R) (i : Fin 3) (n : ℕ) (r : R) (he : W.escapes r = true) :
    W.chainMean i (n + 1) r = ENNReal.ofReal ((W.env r).get i) := by
  simp [World.chainMean, World.chain, he]

theorem chainMean_plain (W : World R) (h : W.Lawful) (i : Fin 3) (n : ℕ) (r : R) (he : W.escapes r = false)
    (hd : W.delta r = false) :
    W.chainMean i (n + 1) r =
      ENNReal.ofReal ((W.emitted r).get i) + W.direct i r + ENNReal.ofReal ((W.emitted r).get i) := by
  have e : ∀ ω, ENNReal.ofReal ((W.chain (n + 1) r ω).get i) =
      ENNReal.ofReal ((W.emitted r).get i) + ENNReal.ofReal ((W.lit (r, ω)).1.get i) +
        ENNReal.ofReal ((W.emitted r).get i) := by
    intro ω
    have h1 := (h.emitted_nonneg r).get i
    have h2 := (lit_nonneg W h.lights_nonneg (r, ω)).get i
    rw [World.chain, if_neg (by simp [he]), if_neg (by simp [hd]), get_add, get_add,
      ENNReal.ofReal_add (add_nonneg h1 h2) h1, ENNReal.ofReal_add h1 h2]
  unfold World.chainMean
  rw [lintegral_congr e, lintegral_add_right _ measurable_const, lintegral_add_left measurable_const, lit_mean]
  simp

end Feign.Integrators
