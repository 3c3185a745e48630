import Verif.Integrators.WalkSpec

/-! # The mean of a path-traced radiance: lemmas -/

set_option linter.unusedSectionVars false
set_option linter.unusedSimpArgs false
set_option linter.unusedVariables false

namespace Feign.Integrators

open Sampling MeasureTheory Warp
open scoped ENNReal

variable {R : Type}

theorem white_get (i : Fin 3) : (white : V3 ℝ).get i = 1 := by fin_cases i <;> rfl

/-! ## The loop without index and closure -/

/-- Light samples at a hit and the rest of the stream. -/
noncomputable def World.lit (W : World R) (p : R × Stream) : V3 ℝ × Stream :=
  if W.delta p.1 then (0, p.2) else (total (W.lights p.1 p.2).1, (W.lights p.1 p.2).2)

/-- Emission that counts. -/
noncomputable def World.own (W : World R) (look : Bool) (r : R) : V3 ℝ := if look then W.emitted r else 0

/-- The next throughput. -/
noncomputable def step (delta : Bool) (β : V3 ℝ) (b : Bounce R) : V3 ℝ :=
  β * (b.albedo.smul ((if delta then 1 else |b.cos|) / (b.pdf * min β.maxValue 1)))

/-- The light the loop adds. -/
noncomputable def World.gather (W : World R) : ℕ → V3 ℝ → Bool → R → Stream → V3 ℝ
  | 0, _, _, _, _ => 0
  | n + 1, β, look, r, ω =>
    if isZero β = true then 0
    else if W.escapes r = true then β * W.env r
    else
      β * (W.own look r + (W.lit (r, ω)).1) +
        if (W.lit (r, ω)).2 0 > min β.maxValue 1 ∨ (W.scatter r (drop 1 (W.lit (r, ω)).2)).1.pdf = 0 then 0
        else W.gather n (step (W.delta r) β (W.scatter r (drop 1 (W.lit (r, ω)).2)).1) (W.delta r)
          (W.scatter r (drop 1 (W.lit (r, ω)).2)).1.ray (W.scatter r (drop 1 (W.lit (r, ω)).2)).2

theorem get_add (a b : V3 ℝ) (i : Fin 3) : (a + b).get i = a.get i + b.get i := by
  fin_cases i <;> rfl

theorem get_mul (a b : V3 ℝ) (i : Fin 3) : (a * b).get i = a.get i * b.get i := by
  fin_cases i <;> rfl

theorem get_smul (a : V3 ℝ) (c : ℝ) (i : Fin 3) : (a.smul c).get i = a.get i * c := by
  fin_cases i <;> rfl

theorem get_zero (i : Fin 3) : (0 : V3 ℝ).get i = 0 := by
  fin_cases i <;> rfl

theorem NonNeg.get {v : V3 ℝ} (h : NonNeg v) (i : Fin 3) : 0 ≤ v.get i := by
  fin_cases i
  · exact h.1
  · exact h.2.1
  · exact h.2.2

theorem samples_lit (W : World R) (p : R × Stream) :
    (total (W.samples p.1 p.2).1, (W.samples p.1 p.2).2) = W.lit p := by
  unfold World.samples World.lit
  cases W.delta p.1 <;> simp [total]

theorem NonNeg.step {delta : Bool} {β : V3 ℝ} {b : Bounce R} (hβ : NonNeg β) (hz : isZero β = false)
    (ha : NonNeg b.albedo) (hp : 0 ≤ b.pdf) : NonNeg (step delta β b) := by
  refine hβ.mul (ha.smul (div_nonneg ?_ (mul_nonneg hp (goOn_pos hβ hz).le)))
  cases delta
  · exact abs_nonneg _
  · exact zero_le_one

theorem nextState_step {quot : ℝ → ℝ → ℝ} (hq : IsQuot quot) {s : Surface ℝ} {st : PathState ℝ} {b : Bounce R}
    (hs : s.scatter = .bsdf b.albedo b.pdf) (hc : s.cos = b.cos) (hβ : NonNeg st.beta) (hz : isZero st.beta = false)
    (hp : b.pdf ≠ 0) (h1 : (sample s (shaded s st.closure)).albedo = b.albedo)
    (h2 : (sample s (shaded s st.closure)).pdf = b.pdf)
    (h3 : (sample s (shaded s st.closure)).isSpecular = s.delta) :
    (nextState quot s st).beta = step s.delta st.beta b := by
  have hm : b.pdf * min st.beta.maxValue 1 ≠ 0 := mul_ne_zero hp (goOn_pos hβ hz).ne'
  have hcos : (if s.delta = true then 1 else if s.cos < 0 then -s.cos else s.cos) =
      (if s.delta then 1 else |b.cos| : ℝ) := by
    rw [hc]
    cases s.delta with
    | true => rfl
    | false =>
      simp only [Bool.false_eq_true, if_false]
      by_cases hc : b.cos < 0
      · rw [if_pos hc, abs_of_neg hc]
      · rw [if_neg hc, abs_of_nonneg (not_lt.1 hc)]
  simp only [nextState, h1, h2, h3, step, hcos, divBy, hq _ _ hm]
  congr 1
  ext <;> simp only [V3.smul_x, V3.smul_y, V3.smul_z] <;> ring

theorem pathPure_gather (W : World R) (quot : ℝ → ℝ → ℝ) (hq : IsQuot quot)
    (hn : ∀ r ω, NonNeg (W.scatter r ω).1.albedo ∧ 0 ≤ (W.scatter r ω).1.pdf) (p : R × Stream) (n : ℕ) :
    ∀ (i : ℕ) (st : PathState ℝ), NonNeg st.beta → st.closure.acceptsShadows = true →
      pathPure quot (fun k => W.answer (W.walk p k)) n i st =
        st.Li + W.gather n st.beta st.closure.lastSpec (W.walk p i).1 (W.walk p i).2 := by
  induction n with
  | zero => intro i st _ _; simp [pathPure, World.gather]
  | succ n ih =>
    intro i st hβ hacc
    rw [pathPure, World.gather]
    by_cases hz : isZero st.beta = true
    · rw [if_pos hz, if_pos hz, add_zero]
    · rw [if_neg hz, if_neg hz]
      have hz' : isZero st.beta = false := by simpa using hz
      set q := W.walk p i with hqdef
      by_cases he : W.escapes q.1 = true
      · have ha : W.answer q = .escape 0 (W.env q.1) := by rw [World.answer, if_pos he]
        simp only [ha, if_pos he]
      · have hl := samples_lit W q
        have hb : ∃ b, b = W.scatter q.1 (drop 1 (W.lit (q.1, q.2)).2) := ⟨_, rfl⟩
        obtain ⟨b, hb⟩ := hb
        have hl2 : (W.samples q.1 q.2).2 = (W.lit (q.1, q.2)).2 := by rw [← hl]
        have hl1 : total (W.samples q.1 q.2).1 = (W.lit (q.1, q.2)).1 := by rw [← hl]
        have ha : W.answer q = .surface 0 ⟨.simple, W.delta q.1, W.emitted q.1, (W.samples q.1 q.2).1, 0,
            .bsdf b.1.albedo b.1.pdf, b.1.cos, (W.lit (q.1, q.2)).2 0⟩ := by
          simp only [World.answer, if_neg he, hb, hl2]
        simp only [ha, if_neg he]
        rw [← hb]
        set s : Surface ℝ := ⟨.simple, W.delta q.1, W.emitted q.1, (W.samples q.1 q.2).1, 0,
            .bsdf b.1.albedo b.1.pdf, b.1.cos, (W.lit (q.1, q.2)).2 0⟩ with hsdef
        have hsh : shaded s st.closure =
            { st.closure with
              emission := W.own st.closure.lastSpec q.1
              nee := (W.lit (q.1, q.2)).1
              albedo := 0
              isSpecular := W.delta q.1
              lastSpec := W.delta q.1 } := by
          unfold shaded
          rw [accumulate_eq]
          have ht : (List.filter (fun x => x.valid) (W.samples q.1 q.2).1).foldr
              (fun r v => r.throughput * r.albedo + v) 0 = (W.lit (q.1, q.2)).1 := hl1
          have hd : W.delta q.1 = true → (W.lit (q.1, q.2)).1 = 0 := by
            intro h
            simp [World.lit, h]
          unfold evaluate World.own
          cases hd' : W.delta q.1 <;> cases hlk : st.closure.lastSpec <;>
            simp [hsdef, hd', hlk, hacc, ht, hd]
        have h1 : (sample s (shaded s st.closure)).albedo = b.1.albedo := by rw [sample_albedo]; rfl
        have h2 : (sample s (shaded s st.closure)).pdf = b.1.pdf := rfl
        have h3 : (sample s (shaded s st.closure)).isSpecular = s.delta := by rw [hsh]; rfl
        by_cases hstop : s.u > min st.beta.maxValue 1 ∨ b.1.pdf = 0
        · have hstop' : (W.lit (q.1, q.2)).2 0 > min st.beta.maxValue 1 ∨ b.1.pdf = 0 := hstop
          rw [if_pos hstop', h2, if_pos hstop, hsh, add_zero]
        · have hstop' : ¬ ((W.lit (q.1, q.2)).2 0 > min st.beta.maxValue 1 ∨ b.1.pdf = 0) := hstop
          rw [if_neg hstop', h2, if_neg hstop]
          have hp : b.1.pdf ≠ 0 := fun h => hstop (Or.inr h)
          have hnext := nextState_step hq (s := s) (st := st) (b := b.1) rfl rfl hβ hz' hp h1 h2 h3
          have hnn : NonNeg b.1.albedo ∧ 0 ≤ b.1.pdf := by rw [hb]; exact hn _ _
          have hw : W.walk p (i + 1) = (b.1.ray, b.2) := by
            rw [World.walk, ← hqdef, World.advance, if_neg he, hl2, ← hb]
          have hcl : (nextState quot s st).closure.lastSpec = W.delta q.1 ∧
              (nextState quot s st).closure.acceptsShadows = true := by
            have : (nextState quot s st).closure = sample s (shaded s st.closure) := rfl
            rw [this, hsh]
            exact ⟨rfl, hacc⟩
          rw [ih (i + 1) _ (by rw [hnext]; exact hβ.step hz' hnn.1 hnn.2) hcl.2, hnext, hcl.1, hw]
          have hLi : (nextState quot s st).Li = st.Li + st.beta *
              (W.own st.closure.lastSpec q.1 + (W.lit (q.1, q.2)).1) := by
            have : (nextState quot s st).Li =
              st.Li + st.beta * ((shaded s st.closure).nee + (shaded s st.closure).emission) := rfl
            rw [this, hsh, add_comm (W.own _ _)]
          rw [hLi, add_assoc]

/-! ## Signs -/

theorem lit_nonneg (W : World R) (hn : ∀ r ω, NonNeg (total (W.lights r ω).1)) (p : R × Stream) :
    NonNeg (W.lit p).1 := by
  unfold World.lit
  split_ifs
  · exact NonNeg.zero
  · exact hn _ _

theorem own_nonneg (W : World R) (hn : ∀ r, NonNeg (W.emitted r)) (look : Bool) (r : R) : NonNeg (W.own look r) := by
  unfold World.own
  split_ifs
  · exact hn r
  · exact NonNeg.zero

variable [MeasurableSpace R]

theorem gather_nonneg (W : World R) (h : W.Lawful) (n : ℕ) : ∀ β look r ω, NonNeg β → NonNeg (W.gather n β look r ω) := by
  induction n with
  | zero => intro β look r ω _; exact NonNeg.zero
  | succ n ih =>
    intro β look r ω hβ
    rw [World.gather]
    by_cases hz : isZero β = true
    · rw [if_pos hz]; exact NonNeg.zero
    · rw [if_neg hz]
      by_cases he : W.escapes r = true
      · rw [if_pos he]; exact hβ.mul (h.env_nonneg r)
      · rw [if_neg he]
        refine (hβ.mul ((own_nonneg W h.emitted_nonneg look r).add (lit_nonneg W h.lights_nonneg _))).add ?_
        split_ifs
        · exact NonNeg.zero
        · have := h.scatter_nonneg r (drop 1 (W.lit (r, ω)).2)
          exact ih _ _ _ _ (hβ.step (by simpa using hz) this.1 this.2)

/-! ## Measurability -/

theorem measurable_V3add {α : Type} [MeasurableSpace α] {f g : α → V3 ℝ} (hf : Measurable f) (hg : Measurable g) :
    Measurable fun a => f a + g a := by
  apply measurable_of <;> simp only [V3.add_x, V3.add_y, V3.add_z] <;> fun_prop

theorem measurable_V3mul {α : Type} [MeasurableSpace α] {f g : α → V3 ℝ} (hf : Measurable f) (hg : Measurable g) :
    Measurable fun a => f a * g a := by
  have hx : ∀ a, (f a * g a).x = (f a).x * (g a).x := fun _ => rfl
  have hy : ∀ a, (f a * g a).y = (f a).y * (g a).y := fun _ => rfl
  have hz : ∀ a, (f a * g a).z = (f a).z * (g a).z := fun _ => rfl
  apply measurable_of <;> simp only [hx, hy, hz] <;> fun_prop

theorem measurable_V3smul {α : Type} [MeasurableSpace α] {f : α → V3 ℝ} {c : α → ℝ} (hf : Measurable f)
    (hc : Measurable c) : Measurable fun a => (f a).smul (c a) := by
  apply measurable_of <;> simp only [V3.smul_x, V3.smul_y, V3.smul_z] <;> fun_prop

theorem measurable_get (i : Fin 3) : Measurable fun v : V3 ℝ => v.get i := by
  fin_cases i
  · exact measurable_x
  · exact measurable_y
  · exact measurable_z

theorem measurable_maxValue : Measurable fun v : V3 ℝ => v.maxValue := by
  have : ∀ v : V3 ℝ, v.maxValue = max v.x (max v.y v.z) := by
    intro v
    obtain ⟨h1, h2, h3⟩ := le_maxValue v
    refine le_antisymm ?_ (max_le h1 (max_le h2 h3))
    simp only [V3.maxValue]
    split_ifs
    · exact (le_max_right _ _).trans (le_max_right _ _)
    · exact (le_max_left _ _).trans (le_max_right _ _)
    · exact (le_max_right _ _).trans (le_max_right _ _)
    · exact le_max_left _ _
  simp only [this]
  fun_prop

theorem measurableSet_isZero : MeasurableSet {v : V3 ℝ | isZero v = true} := by
  have : {v : V3 ℝ | isZero v = true} =
      {v | |v.x| < 1 / 10000} ∩ ({v | |v.y| < 1 / 10000} ∩ {v | |v.z| < 1 / 10000}) := by
    ext v
    simp [isZero, and_assoc]
  rw [this]
  exact (measurableSet_lt (by fun_prop) measurable_const).inter
    ((measurableSet_lt (by fun_prop) measurable_const).inter (measurableSet_lt (by fun_prop) measurable_const))

theorem measurable_lit (W : World R) (h : W.Lawful) : Measurable W.lit := by
  unfold World.lit
  exact Measurable.ite ((h.delta.comp measurable_fst) (measurableSet_singleton true))
    (measurable_const.prodMk measurable_snd) h.lights

theorem measurable_bool_ite {α β : Type} [MeasurableSpace α] [MeasurableSpace β] {c : α → Bool} {f g : α → β}
    (hc : Measurable c) (hf : Measurable f) (hg : Measurable g) : Measurable fun a => if c a = true then f a else g a :=
  Measurable.ite (hc (measurableSet_singleton true)) hf hg

theorem measurable_step {α : Type} [MeasurableSpace α] {d : α → Bool} {β : α → V3 ℝ} {b : α → Bounce R}
    (hd : Measurable d) (hβ : Measurable β) (hb : Measurable b) : Measurable fun a => step (d a) (β a) (b a) := by
  unfold step
  have h1 : Measurable fun a => (b a).albedo := measurable_fst.comp hb
  have h2 : Measurable fun a => (b a).pdf := measurable_fst.comp (measurable_snd.comp hb)
  have h3 : Measurable fun a => (b a).cos := measurable_fst.comp (measurable_snd.comp (measurable_snd.comp hb))
  have h4 : Measurable fun a => (β a).maxValue := measurable_maxValue.comp hβ
  refine measurable_V3mul hβ (measurable_V3smul h1 (Measurable.div ?_ (h2.mul (h4.min measurable_const))))
  exact measurable_bool_ite hd measurable_const (continuous_abs.measurable.comp h3)

/-- Throughput, flag, ray and stream. -/
abbrev State (R : Type) := V3 ℝ × Bool × R × Stream

theorem measurable_gather (W : World R) (h : W.Lawful) (n : ℕ) :
    Measurable fun p : State R => W.gather n p.1 p.2.1 p.2.2.1 p.2.2.2 := by
  induction n with
  | zero => simp only [World.gather]; exact measurable_const
  | succ n ih =>
    simp only [World.gather]
    have mβ : Measurable fun p : State R => p.1 := measurable_fst
    have ml : Measurable fun p : State R => p.2.1 := measurable_fst.comp measurable_snd
    have mr : Measurable fun p : State R => p.2.2.1 := measurable_fst.comp (measurable_snd.comp measurable_snd)
    have mω : Measurable fun p : State R => p.2.2.2 := measurable_snd.comp (measurable_snd.comp measurable_snd)
    have mlit : Measurable fun p : State R => W.lit (p.2.2.1, p.2.2.2) := (measurable_lit W h).comp (mr.prodMk mω)
    have mlit2 : Measurable fun p : State R => (W.lit (p.2.2.1, p.2.2.2)).2 := measurable_snd.comp mlit
    have mb : Measurable fun p : State R => W.scatter p.2.2.1 (drop 1 (W.lit (p.2.2.1, p.2.2.2)).2) :=
      h.scatter.comp (mr.prodMk ((measurable_drop 1).comp mlit2))
    have mb1 := measurable_fst.comp mb
    have mpdf : Measurable fun p : State R => (W.scatter p.2.2.1 (drop 1 (W.lit (p.2.2.1, p.2.2.2)).2)).1.pdf :=
      measurable_fst.comp (measurable_snd.comp mb1)
    have md : Measurable fun p : State R => W.delta p.2.2.1 := h.delta.comp mr
    refine Measurable.ite (mβ measurableSet_isZero) measurable_const (measurable_bool_ite (h.escapes.comp mr)
      (measurable_V3mul mβ (h.env.comp mr)) (measurable_V3add (measurable_V3mul mβ (measurable_V3add ?_
        (measurable_fst.comp mlit))) (Measurable.ite ?_ measurable_const ?_)))
    · exact measurable_bool_ite ml (h.emitted.comp mr) measurable_const
    · exact (measurableSet_lt ((measurable_maxValue.comp mβ).min measurable_const)
        ((measurable_pi_apply 0).comp mlit2)).union (mpdf (measurableSet_singleton 0))
    · exact ih.comp ((measurable_step md mβ mb1).prodMk (md.prodMk
        ((measurable_snd.comp (measurable_snd.comp (measurable_snd.comp mb1))).prodMk (measurable_snd.comp mb))))

/-! ## One vertex -/

/-- Mean of what the loop adds, one channel. -/
noncomputable def World.mean (W : World R) (i : Fin 3) (n : ℕ) (β : V3 ℝ) (look : Bool) (r : R) : ℝ≥0∞ :=
  ∫⁻ ω, ENNReal.ofReal ((W.gather n β look r ω).get i) ∂uniform

theorem measurable_channel (W : World R) (h : W.Lawful) (i : Fin 3) (n : ℕ) :
    Measurable fun p : State R => ENNReal.ofReal ((W.gather n p.1 p.2.1 p.2.2.1 p.2.2.2).get i) :=
  ((measurable_get i).comp (measurable_gather W h n)).ennreal_ofReal

theorem unit_Iic {c : ℝ} (h0 : 0 ≤ c) (h1 : c ≤ 1) : unit (Set.Iic c) = ENNReal.ofReal c := by
  unfold unit
  rw [Measure.restrict_apply measurableSet_Iic]
  rcases h1.lt_or_eq with h1 | rfl
  · have : Set.Iic c ∩ Set.Ioo 0 1 = Set.Ioc 0 c := by
      ext x
      simp only [Set.mem_inter_iff, Set.mem_Iic, Set.mem_Ioo, Set.mem_Ioc]
      constructor
      · rintro ⟨a, b, -⟩; exact ⟨b, a⟩
      · rintro ⟨a, b⟩; exact ⟨b, a, b.trans_lt h1⟩
    rw [this, Real.volume_Ioc, sub_zero]
  · have : Set.Iic (1 : ℝ) ∩ Set.Ioo 0 1 = Set.Ioo 0 1 := Set.inter_eq_right.2 fun x hx => hx.2.le
    rw [this, Real.volume_Ioo, sub_zero]

theorem lit_fresh (W : World R) (h : W.Lawful) (r : R) : Fresh fun ω => W.lit (r, ω) := by
  unfold World.lit
  by_cases hd : W.delta r = true
  · simp only [hd, if_true]
    exact fresh_pure 0
  · simp only [hd]
    exact h.lights_fresh r

theorem lit_mean (W : World R) (i : Fin 3) (r : R) :
    ∫⁻ ω, ENNReal.ofReal ((W.lit (r, ω)).1.get i) ∂uniform = W.direct i r := by
  unfold World.lit World.direct
  by_cases hd : W.delta r = true
  · simp [hd, get_zero]
  · simp [hd]

theorem mean_surface (W : World R) (h : W.Lawful) (i : Fin 3) (n : ℕ) (β : V3 ℝ) (look : Bool) (r : R) (hβ : NonNeg β)
    (hz : isZero β = false) (he : W.escapes r = false) :
    W.mean i (n + 1) β look r =
      ENNReal.ofReal (β.get i) * ((if look then ENNReal.ofReal ((W.emitted r).get i) else 0) + W.direct i r) +
      ENNReal.ofReal (min β.maxValue 1) * ∫⁻ ω, (if (W.scatter r ω).1.pdf = 0 then 0
        else W.mean i n (step (W.delta r) β (W.scatter r ω).1) (W.delta r) (W.scatter r ω).1.ray) ∂uniform := by
  have hrr := goOn_pos hβ hz
  have hβi := hβ.get i
  -- the part after the light samples
  let K : Stream → ℝ≥0∞ := fun ω => if (W.scatter r ω).1.pdf = 0 then 0 else
    ENNReal.ofReal ((W.gather n (step (W.delta r) β (W.scatter r ω).1) (W.delta r) (W.scatter r ω).1.ray
      (W.scatter r ω).2).get i)
  let G : Bounce R × Stream → ℝ≥0∞ := fun q => if q.1.pdf = 0 then 0 else
    ENNReal.ofReal ((W.gather n (step (W.delta r) β q.1) (W.delta r) q.1.ray q.2).get i)
  have mG : Measurable G := by
    have mpdf : Measurable fun q : Bounce R × Stream => q.1.pdf :=
      measurable_fst.comp (measurable_snd.comp measurable_fst)
    refine Measurable.ite (mpdf (measurableSet_singleton 0)) measurable_const ?_
    exact (measurable_channel W h i n).comp ((measurable_step measurable_const measurable_const measurable_fst).prodMk
      (measurable_const.prodMk ((measurable_snd.comp (measurable_snd.comp (measurable_snd.comp measurable_fst))).prodMk
        measurable_snd)))
  have mscat : Measurable (W.scatter r) := h.scatter.comp (measurable_const.prodMk measurable_id)
  have mK : Measurable K := mG.comp mscat
  let F : Stream → ℝ≥0∞ := fun ω => if ω 0 > min β.maxValue 1 then 0 else K (drop 1 ω)
  have mF : Measurable F :=
    Measurable.ite (measurableSet_lt measurable_const (measurable_pi_apply 0)) measurable_const
      (mK.comp (measurable_drop 1))
  have mlit : Measurable fun ω => W.lit (r, ω) := (measurable_lit W h).comp (measurable_const.prodMk measurable_id)
  have split : ∀ ω, ENNReal.ofReal ((W.gather (n + 1) β look r ω).get i) =
      ENNReal.ofReal (β.get i) * (ENNReal.ofReal ((W.own look r).get i) + ENNReal.ofReal ((W.lit (r, ω)).1.get i)) +
        F (W.lit (r, ω)).2 := by
    intro ω
    have ho := (own_nonneg W h.emitted_nonneg look r).get i
    have hl := (lit_nonneg W h.lights_nonneg (r, ω)).get i
    rw [World.gather, if_neg (by simp [hz]), if_neg (by simp [he]), get_add, get_mul, get_add,
      ENNReal.ofReal_add (mul_nonneg hβi (add_nonneg ho hl)), ENNReal.ofReal_mul hβi, ENNReal.ofReal_add ho hl]
    · congr 1
      simp only [F, K]
      by_cases h1 : (W.lit (r, ω)).2 0 > min β.maxValue 1
      · rw [if_pos (Or.inl h1), if_pos h1, get_zero, ENNReal.ofReal_zero]
      · rw [if_neg h1]
        by_cases h2 : (W.scatter r (drop 1 (W.lit (r, ω)).2)).1.pdf = 0
        · rw [if_pos (Or.inr h2), if_pos h2, get_zero, ENNReal.ofReal_zero]
        · rw [if_neg (not_or.2 ⟨h1, h2⟩), if_neg h2]
    · split_ifs
      · rw [get_zero]
      · have := h.scatter_nonneg r (drop 1 (W.lit (r, ω)).2)
        exact (gather_nonneg W h n _ _ _ _ (hβ.step hz this.1 this.2)).get i
  have mlit1 : Measurable fun ω => ENNReal.ofReal ((W.lit (r, ω)).1.get i) :=
    ((measurable_get i).comp (measurable_fst.comp mlit)).ennreal_ofReal
  have mFl : Measurable fun ω => F (W.lit (r, ω)).2 := mF.comp (measurable_snd.comp mlit)
  have msum : Measurable fun ω => ENNReal.ofReal ((W.own look r).get i) + ENNReal.ofReal ((W.lit (r, ω)).1.get i) :=
    measurable_const.add mlit1
  unfold World.mean
  simp only [split]
  rw [lintegral_add_right _ mFl, lintegral_const_mul _ msum,
    lintegral_add_left measurable_const, lintegral_const, measure_univ, mul_one, lit_mean]
  congr 1
  · congr 2
    unfold World.own
    split_ifs
    · rfl
    · rw [get_zero, ENNReal.ofReal_zero]
  · have s1 : ∫⁻ ω, F (W.lit (r, ω)).2 ∂uniform = ∫⁻ ω, F ω ∂uniform := by
      have := (lit_fresh W h r).lintegral (fun q => F q.2) (mF.comp measurable_snd)
      rw [this]
      simp
    rw [s1, lintegral_cons F mF]
    have s2 : ∀ u, ∫⁻ ω, F (cons (u, ω)) ∂uniform =
        (Set.Iic (min β.maxValue 1)).indicator (fun _ => ∫⁻ ω, K ω ∂uniform) u := by
      intro u
      simp only [F, cons, Set.indicator, Set.mem_Iic]
      by_cases hu : u > min β.maxValue 1
      · simp [hu, not_le.2 hu]
      · simp only [hu, if_false, not_lt.1 hu, if_true]
        rfl
    simp only [s2]
    rw [lintegral_indicator measurableSet_Iic, lintegral_const, Measure.restrict_apply MeasurableSet.univ,
      Set.univ_inter, unit_Iic hrr.le (min_le_right _ _), mul_comm]
    congr 1
    have s3 := (h.scatter_fresh r).lintegral G mG
    have s4 : ∫⁻ ω, K ω ∂uniform = ∫⁻ ω, G (W.scatter r ω) ∂uniform := rfl
    rw [s4, s3]
    apply lintegral_congr
    intro ω
    simp only [G]
    split_ifs
    · simp
    · rfl

theorem mean_escape (W : World R) (i : Fin 3) (n : ℕ) (β : V3 ℝ) (look : Bool) (r : R) (hβ : NonNeg β)
    (hz : isZero β = false) (he : W.escapes r = true) :
    W.mean i (n + 1) β look r = ENNReal.ofReal (β.get i) * ENNReal.ofReal ((W.env r).get i) := by
  unfold World.mean
  simp only [World.gather, hz, he, if_true, Bool.false_eq_true, if_false, get_mul, lintegral_const, measure_univ,
    mul_one]
  rw [ENNReal.ofReal_mul (hβ.get i)]

theorem mean_zero (W : World R) (i : Fin 3) (n : ℕ) (β : V3 ℝ) (look : Bool) (r : R) (hz : isZero β = true) :
    W.mean i n β look r = 0 := by
  unfold World.mean
  cases n with
  | zero => simp [World.gather, get_zero]
  | succ n => simp [World.gather, hz, get_zero]

/-- Throughput after a vertex times the probability of going on. -/
theorem step_factor {delta : Bool} {β : V3 ℝ} {b : Bounce R} (i : Fin 3) (hβ : NonNeg β) (hz : isZero β = false)
    (hp : b.pdf ≠ 0) :
    ENNReal.ofReal (min β.maxValue 1) * ENNReal.ofReal ((step delta β b).get i) =
      ENNReal.ofReal (β.get i) * ENNReal.ofReal (factor delta i b) := by
  have hrr := goOn_pos hβ hz
  rw [← ENNReal.ofReal_mul hrr.le, ← ENNReal.ofReal_mul (hβ.get i)]
  congr 1
  rw [step, get_mul, get_smul, factor, if_neg hp]
  field_simp

end Feign.Integrators
