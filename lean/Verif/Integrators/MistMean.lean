import Verif.Integrators.MistLemmas

/-! # The mean of one pass through media: lemmas -/

set_option linter.unusedSectionVars false
set_option linter.unusedSimpArgs false
set_option linter.unusedVariables false

namespace Feign.Integrators

open Sampling MeasureTheory Warp
open scoped ENNReal

variable {R M : Type} [MeasurableSpace R]

theorem measurable_select {ι α β : Type} [MeasurableSpace α] [MeasurableSpace β] [Countable ι] {g : ι → α → β}
    {b : α → ι} (hg : ∀ j, Measurable (g j)) (hb : ∀ j, MeasurableSet {a | b a = j}) : Measurable fun a => g (b a) a := by
  intro s hs
  have : (fun a => g (b a) a) ⁻¹' s = ⋃ j, {a | b a = j} ∩ (g j ⁻¹' s) := by
    ext a
    simp
  rw [this]
  exact MeasurableSet.iUnion fun j => (hb j).inter (hg j hs)

/-! ## Drawing, and going on with probability `c` -/

theorem draw_mean {A : Type} [MeasurableSpace A] {P : Stream → A × Stream} (hP : Fresh P) {f : A → ℝ≥0∞}
    (hf : Measurable f) {G : A × Stream → ℝ≥0∞} (hG : Measurable G) {c : ℝ} (h0 : 0 ≤ c) (h1 : c ≤ 1) :
    ∫⁻ ω, (f (P ω).1 + if (P ω).2 0 > c then 0 else G ((P ω).1, drop 1 (P ω).2)) ∂uniform =
      ∫⁻ ω, f (P ω).1 ∂uniform + ENNReal.ofReal c * ∫⁻ ω, ∫⁻ ω', G ((P ω).1, ω') ∂uniform ∂uniform := by
  let F : A × Stream → ℝ≥0∞ := fun q => if q.2 0 > c then 0 else G (q.1, drop 1 q.2)
  have mF : Measurable F :=
    Measurable.ite (measurableSet_lt measurable_const ((measurable_pi_apply 0).comp measurable_snd)) measurable_const
      (hG.comp (measurable_fst.prodMk ((measurable_drop 1).comp measurable_snd)))
  have h2 : ∀ a, ∫⁻ ω, F (a, ω) ∂uniform = ENNReal.ofReal c * ∫⁻ ω, G (a, ω) ∂uniform := by
    intro a
    have mFa : Measurable fun ω => F (a, ω) := mF.comp (measurable_const.prodMk measurable_id)
    rw [lintegral_cons _ mFa]
    have : ∀ u, ∫⁻ ω, F (a, cons (u, ω)) ∂uniform =
        (Set.Iic c).indicator (fun _ => ∫⁻ ω, G (a, ω) ∂uniform) u := by
      intro u
      simp only [F, cons, Set.indicator, Set.mem_Iic]
      by_cases hu : u > c
      · simp [hu, not_le.2 hu]
      · simp only [hu, if_false, not_lt.1 hu, if_true]
        rfl
    simp only [this]
    rw [lintegral_indicator measurableSet_Iic, lintegral_const, Measure.restrict_apply MeasurableSet.univ,
      Set.univ_inter, unit_Iic h0 h1, mul_comm]
  have m1 : Measurable fun ω => f (P ω).1 := hf.comp (measurable_fst.comp hP.1)
  have h3 := hP.lintegral F mF
  have h4 : ∫⁻ ω, (f (P ω).1 + F (P ω)) ∂uniform =
      ∫⁻ ω, f (P ω).1 ∂uniform + ENNReal.ofReal c * ∫⁻ ω, ∫⁻ ω', G ((P ω).1, ω') ∂uniform ∂uniform := by
    rw [lintegral_add_left m1, h3]
    simp only [h2]
    have mG : Measurable fun ω => ∫⁻ ω', G ((P ω).1, ω') ∂uniform :=
      (hG.lintegral_prod_right').comp (measurable_fst.comp hP.1)
    rw [lintegral_const_mul _ mG]
  exact h4

/-! ## Measurability -/

theorem measurable_cut : Measurable cut := by
  have h : Measurable fun v : V3 ℝ => 1 / min v.maxValue 1 :=
    measurable_const.div (measurable_maxValue.min measurable_const)
  exact measurable_V3smul measurable_id h

theorem measurable_fly (W : Mist R M) (h : W.Lawful) (m : Option M) :
    Measurable fun p : R × Stream => W.fly m p.1 p.2 := by
  cases m with
  | none => exact measurable_const.prodMk measurable_snd
  | some m => exact h.free m

theorem fly_fresh (W : Mist R M) (h : W.Lawful) (m : Option M) (r : R) : Fresh (W.fly m r) := by
  cases m with
  | none => exact fresh_pure _
  | some m => exact h.free_fresh m r

theorem measurable_lamps (W : Mist R M) (h : W.Lawful) (m : Option M) :
    Measurable fun p : (R × ℝ) × Stream => W.lamps m p.1.1 p.1.2 p.2 := by
  cases m with
  | none => exact measurable_const.prodMk measurable_snd
  | some m => exact h.inside m

theorem lamps_fresh (W : Mist R M) (h : W.Lawful) (m : Option M) (r : R) (t : ℝ) : Fresh (W.lamps m r t) := by
  cases m with
  | none => exact fresh_pure _
  | some m => exact h.inside_fresh m r t

theorem lamps_nonneg (W : Mist R M) (h : W.Lawful) (m : Option M) (r : R) (t : ℝ) (ω : Stream) :
    NonNeg (W.lamps m r t ω).1 := by
  cases m with
  | none => exact NonNeg.zero
  | some m => exact h.inside_nonneg m r t ω

theorem measurable_veer (W : Mist R M) (h : W.Lawful) (m : Option M) :
    Measurable fun p : R × Stream => W.veer m p.1 p.2 := by
  cases m with
  | none => exact measurable_const.prodMk measurable_snd
  | some m =>
    have ht := h.turn m
    have h1 : Measurable fun p : R × Stream => (W.turn m p.1 p.2).1 := measurable_fst.comp ht
    exact (((h.phase m).comp (measurable_fst.prodMk h1)).prodMk h1).prodMk (measurable_snd.comp ht)

theorem veer_fresh (W : Mist R M) (h : W.Lawful) (m : Option M) (r : R) : Fresh (W.veer m r) := by
  cases m with
  | none => exact fresh_pure _
  | some m =>
    have hp : Measurable fun v => (W.phase m r v, v) :=
      ((h.phase m).comp (measurable_const.prodMk measurable_id)).prodMk measurable_id
    exact fresh_map (m := fun v => (W.phase m r v, v)) (h.turn_fresh m r) hp

theorem veer_nonneg (W : Mist R M) (h : W.Lawful) (m : Option M) (r : R) (ω : Stream) : 0 ≤ (W.veer m r ω).1.1 := by
  cases m with
  | none => exact le_rfl
  | some m => exact h.phase_nonneg m r _

theorem measurable_both (W : Mist R M) (h : W.Lawful) (m : Option M) :
    Measurable fun p : (R × ℝ) × Stream => W.both m p.1.1 p.1.2 p.2 := by
  have hl := measurable_lamps W h m
  have hv : Measurable fun p : (R × ℝ) × Stream => W.veer m p.1.1 (W.lamps m p.1.1 p.1.2 p.2).2 :=
    (measurable_veer W h m).comp ((measurable_fst.comp measurable_fst).prodMk (measurable_snd.comp hl))
  exact ((measurable_fst.comp hl).prodMk (measurable_fst.comp hv)).prodMk (measurable_snd.comp hv)

theorem both_fresh (W : Mist R M) (h : W.Lawful) (m : Option M) (r : R) (t : ℝ) : Fresh (W.both m r t) := by
  have hv : Measurable fun p : V3 ℝ × Stream => W.veer m r p.2 :=
    (measurable_veer W h m).comp (measurable_const.prodMk measurable_snd)
  refine fresh_bind (f := W.lamps m r t) (k := fun p => ((p.1, (W.veer m r p.2).1), (W.veer m r p.2).2))
    (lamps_fresh W h m r t) ((measurable_fst.prodMk (measurable_fst.comp hv)).prodMk (measurable_snd.comp hv)) ?_
  intro a
  exact fresh_map (m := fun x => (a, x)) (veer_fresh W h m r) (measurable_const.prodMk measurable_id)

theorem measurable_bulbs (W : Mist R M) (h : W.Lawful) (m : Option M) :
    Measurable fun p : R × Stream => W.bulbs m p.1 p.2 := h.lights m

/-- Throughput, ray and stream. -/
abbrev MState (R : Type) := V3 ℝ × R × Stream

theorem measurable_fog (W : Mist R M) (h : W.Lawful) (m : Option M) {K : V3 ℝ → Option M → R → Stream → V3 ℝ}
    (hK : Measurable fun q : MState R => K q.1 m q.2.1 q.2.2) :
    Measurable fun q : V3 ℝ × (R × ℝ) × Stream => W.fog K q.1 m q.2.1.1 q.2.1.2 q.2.2 := by
  have mβ : Measurable fun q : V3 ℝ × (R × ℝ) × Stream => q.1 := measurable_fst
  have mb : Measurable fun q : V3 ℝ × (R × ℝ) × Stream => W.both m q.2.1.1 q.2.1.2 q.2.2 :=
    (measurable_both W h m).comp measurable_snd
  have mr : Measurable fun q : V3 ℝ × (R × ℝ) × Stream => q.2.1.1 :=
    measurable_fst.comp (measurable_fst.comp measurable_snd)
  have mt : Measurable fun q : V3 ℝ × (R × ℝ) × Stream => q.2.1.2 :=
    measurable_snd.comp (measurable_fst.comp measurable_snd)
  have m1 := measurable_fst.comp mb
  have m2 := measurable_snd.comp mb
  have m12 := measurable_snd.comp m1
  unfold Mist.fog
  refine measurable_V3add (measurable_V3mul (measurable_V3smul mβ (measurable_fst.comp m12)) (measurable_fst.comp m1))
    (Measurable.ite ?_ measurable_const ?_)
  · exact measurableSet_lt ((measurable_maxValue.comp mβ).min measurable_const) ((measurable_pi_apply 0).comp m2)
  · exact hK.comp ((measurable_cut.comp mβ).prodMk ((h.onward.comp (mr.prodMk (mt.prodMk
      (measurable_snd.comp m12)))).prodMk ((measurable_drop 1).comp m2)))

theorem measurable_surf (W : Mist R M) (h : W.Lawful) (m : Option M) {K : V3 ℝ → Option M → R → Stream → V3 ℝ}
    (hK : Measurable fun q : MState R => K q.1 m q.2.1 q.2.2) :
    Measurable fun q : MState R => W.surf K q.1 m q.2.1 q.2.2 := by
  have mβ : Measurable fun q : MState R => q.1 := measurable_fst
  have mr : Measurable fun q : MState R => q.2.1 := measurable_fst.comp measurable_snd
  have ml : Measurable fun q : MState R => W.bulbs m q.2.1 q.2.2 := (measurable_bulbs W h m).comp measurable_snd
  have ml2 := measurable_snd.comp ml
  have mb : Measurable fun q : MState R => W.scatter q.2.1 (drop 1 (W.bulbs m q.2.1 q.2.2).2) :=
    h.scatter.comp (mr.prodMk ((measurable_drop 1).comp ml2))
  have mb1 := measurable_fst.comp mb
  have mpdf : Measurable fun q : MState R => (W.scatter q.2.1 (drop 1 (W.bulbs m q.2.1 q.2.2).2)).1.pdf :=
    measurable_fst.comp (measurable_snd.comp mb1)
  unfold Mist.surf
  refine measurable_V3add (measurable_V3mul mβ (measurable_fst.comp ml)) (Measurable.ite ?_ measurable_const ?_)
  · exact (measurableSet_lt ((measurable_maxValue.comp mβ).min measurable_const) ((measurable_pi_apply 0).comp ml2)).union
      (mpdf (measurableSet_singleton 0))
  · exact hK.comp ((measurable_step measurable_const mβ mb1).prodMk
      ((measurable_snd.comp (measurable_snd.comp (measurable_snd.comp mb1))).prodMk (measurable_snd.comp mb)))

theorem measurable_mist [Countable M] (W : Mist R M) (h : W.Lawful) (k : ℕ) : ∀ n m,
    Measurable fun q : MState R => W.gather k n q.1 m q.2.1 q.2.2 := by
  induction k with
  | zero => intro n m; simp only [Mist.gather]; exact measurable_const
  | succ k ih =>
    intro n m
    cases n with
    | zero => simp only [Mist.gather]; exact measurable_const
    | succ n =>
      simp only [Mist.gather]
      have mβ : Measurable fun q : MState R => q.1 := measurable_fst
      have mr : Measurable fun q : MState R => q.2.1 := measurable_fst.comp measurable_snd
      have mf : Measurable fun q : MState R => W.fly m q.2.1 q.2.2 := (measurable_fly W h m).comp measurable_snd
      have mf1 := measurable_fst.comp mf
      have mf2 := measurable_snd.comp mf
      have mw : Measurable fun q : MState R => (W.fly m q.2.1 q.2.2).1.weight := measurable_fst.comp mf1
      have ms : Measurable fun q : MState R => (W.fly m q.2.1 q.2.2).1.scatters :=
        measurable_fst.comp (measurable_snd.comp mf1)
      have mt : Measurable fun q : MState R => (W.fly m q.2.1 q.2.2).1.t := measurable_snd.comp (measurable_snd.comp mf1)
      have mβw := measurable_V3mul mβ mw
      refine Measurable.ite (mβ measurableSet_isZero) measurable_const (measurable_bool_ite (h.escapes.comp mr)
        (measurable_V3mul mβ (h.env.comp mr)) (measurable_bool_ite ms ?_ (measurable_bool_ite (h.null.comp mr) ?_ ?_)))
      · exact (measurable_fog W h m (ih n m)).comp (mβw.prodMk ((mr.prodMk mt).prodMk mf2))
      · refine measurable_select (g := fun m' (q : MState R) => W.gather k (n + 1)
          (q.1 * (W.fly m q.2.1 q.2.2).1.weight) m' (W.past q.2.1) (W.fly m q.2.1 q.2.2).2)
          (b := fun q : MState R => W.beyond m q.2.1) ?_ ?_
        · intro m'
          exact (ih (n + 1) m').comp (mβw.prodMk ((h.past.comp mr).prodMk mf2))
        · intro m'
          exact mr (h.beyond m m')
      · exact (measurable_surf W h m (ih n m)).comp (mβw.prodMk (mr.prodMk mf2))

/-! ## Signs -/

theorem fog_nonneg (W : Mist R M) (h : W.Lawful) {K : V3 ℝ → Option M → R → Stream → V3 ℝ}
    (hK : ∀ β m r ω, NonNeg β → NonNeg (K β m r ω)) {β : V3 ℝ} (hβ : NonNeg β) (hp : 0 < min β.maxValue 1) (m : Option M)
    (r : R) (t : ℝ) (ω : Stream) : NonNeg (W.fog K β m r t ω) := by
  unfold Mist.fog
  refine ((hβ.smul (veer_nonneg W h m r _)).mul (lamps_nonneg W h m r t ω)).add ?_
  split_ifs
  · exact NonNeg.zero
  · exact hK _ _ _ _ (hβ.cut hp)

theorem surf_nonneg (W : Mist R M) (h : W.Lawful) {K : V3 ℝ → Option M → R → Stream → V3 ℝ}
    (hK : ∀ β m r ω, NonNeg β → NonNeg (K β m r ω)) {β : V3 ℝ} (hβ : NonNeg β) (hp : 0 < min β.maxValue 1) (m : Option M)
    (r : R) (ω : Stream) : NonNeg (W.surf K β m r ω) := by
  unfold Mist.surf
  refine (hβ.mul (h.lights_nonneg m r ω)).add ?_
  split_ifs
  · exact NonNeg.zero
  · have := h.scatter_nonneg r (drop 1 (W.bulbs m r ω).2)
    exact hK _ _ _ _ (nonNeg_step hβ hp this.1 this.2)

theorem mist_nonneg (W : Mist R M) (h : W.Lawful) (k : ℕ) : ∀ n β m r ω, NonNeg β → NonNeg (W.gather k n β m r ω) := by
  induction k with
  | zero => intro n β m r ω _; exact NonNeg.zero
  | succ k ih =>
    intro n β m r ω hβ
    cases n with
    | zero => exact NonNeg.zero
    | succ n =>
      rw [Mist.gather]
      by_cases hz : isZero β = true
      · rw [if_pos hz]; exact NonNeg.zero
      · rw [if_neg hz]
        obtain ⟨hβw, hpos⟩ := weighed_pos hβ (by simpa using hz) (fly_pos W h m r ω)
        split_ifs
        · exact hβ.mul (h.env_nonneg r)
        · exact fog_nonneg W h (fun β m r ω => ih n β m r ω) hβw hpos _ _ _ _
        · exact ih _ _ _ _ _ hβw
        · exact surf_nonneg W h (fun β m r ω => ih n β m r ω) hβw hpos _ _ _

/-! ## Means -/

/-- Mean of a channel. -/
noncomputable def meanOf (i : Fin 3) (f : Stream → V3 ℝ) : ℝ≥0∞ := ∫⁻ ω, ENNReal.ofReal ((f ω).get i) ∂uniform

theorem fog_mean (W : Mist R M) (h : W.Lawful) {K : V3 ℝ → Option M → R → Stream → V3 ℝ} (m : M)
    (hK : ∀ β m r ω, NonNeg β → NonNeg (K β m r ω)) (mK : Measurable fun q : MState R => K q.1 (some m) q.2.1 q.2.2)
    {β : V3 ℝ} (hβ : NonNeg β) (hp : 0 < min β.maxValue 1) (i : Fin 3) (r : R) (t : ℝ) :
    meanOf i (W.fog K β (some m) r t) = ENNReal.ofReal (β.get i) * W.glow i m r t +
      ENNReal.ofReal (min β.maxValue 1) *
        ∫⁻ ω, meanOf i (K (cut β) (some m) (W.onward r t (W.turn m r ω).1)) ∂uniform := by
  let f : V3 ℝ × ℝ × V3 ℝ → ℝ≥0∞ := fun a =>
    ENNReal.ofReal (β.get i) * (ENNReal.ofReal (a.1.get i) * ENNReal.ofReal a.2.1)
  have mf : Measurable f :=
    measurable_const.mul ((((measurable_get i).comp measurable_fst).ennreal_ofReal).mul
      (measurable_fst.comp measurable_snd).ennreal_ofReal)
  let G : (V3 ℝ × ℝ × V3 ℝ) × Stream → ℝ≥0∞ := fun q =>
    ENNReal.ofReal ((K (cut β) (some m) (W.onward r t q.1.2.2) q.2).get i)
  have mon : Measurable fun v => W.onward r t v :=
    h.onward.comp (measurable_const.prodMk (measurable_const.prodMk measurable_id))
  have mG : Measurable G := by
    have m3 : Measurable fun q : (V3 ℝ × ℝ × V3 ℝ) × Stream => q.1.2.2 :=
      measurable_snd.comp (measurable_snd.comp measurable_fst)
    have := mK.comp (measurable_const (a := cut β) |>.prodMk ((mon.comp m3).prodMk measurable_snd))
    exact ((measurable_get i).comp this).ennreal_ofReal
  have split : ∀ ω, ENNReal.ofReal ((W.fog K β (some m) r t ω).get i) =
      f (W.both (some m) r t ω).1 + if (W.both (some m) r t ω).2 0 > min β.maxValue 1 then 0
        else G ((W.both (some m) r t ω).1, drop 1 (W.both (some m) r t ω).2) := by
    intro ω
    have h1 : 0 ≤ (W.both (some m) r t ω).1.1.get i := (lamps_nonneg W h (some m) r t ω).get i
    have h2 : 0 ≤ (W.both (some m) r t ω).1.2.1 := veer_nonneg W h (some m) r _
    have hβi := hβ.get i
    unfold Mist.fog
    rw [get_add, get_mul, get_smul, ENNReal.ofReal_add (mul_nonneg (mul_nonneg hβi h2) h1)]
    · congr 1
      · simp only [f]
        rw [mul_assoc, ENNReal.ofReal_mul hβi, mul_comm ((W.both (some m) r t ω).1.2.1), ENNReal.ofReal_mul h1]
      · split_ifs
        · rw [get_zero, ENNReal.ofReal_zero]
        · rfl
    · split_ifs
      · rw [get_zero]
      · exact (hK _ _ _ _ (hβ.cut hp)).get i
  unfold meanOf
  simp only [split]
  rw [draw_mean (both_fresh W h (some m) r t) mf mG hp.le (min_le_right _ _)]
  have mv : Measurable fun ω => W.veer (some m) r ω := (measurable_veer W h (some m)).comp
    (measurable_const.prodMk measurable_id)
  congr 1
  · let g : V3 ℝ × Stream → ℝ≥0∞ := fun q => ENNReal.ofReal (q.1.get i) * ENNReal.ofReal (W.veer (some m) r q.2).1.1
    have mg : Measurable g := (((measurable_get i).comp measurable_fst).ennreal_ofReal).mul
      (measurable_fst.comp (measurable_fst.comp (mv.comp measurable_snd))).ennreal_ofReal
    have e : ∀ ω, f (W.both (some m) r t ω).1 = ENNReal.ofReal (β.get i) * g (W.lamps (some m) r t ω) := fun ω => rfl
    simp only [e]
    have mgl : Measurable fun ω => g (W.lamps (some m) r t ω) := mg.comp (lamps_fresh W h (some m) r t).1
    rw [lintegral_const_mul _ mgl, (lamps_fresh W h (some m) r t).lintegral g mg]
    congr 1
    have m1 : Measurable fun ω => ENNReal.ofReal (W.veer (some m) r ω).1.1 :=
      (measurable_fst.comp (measurable_fst.comp mv)).ennreal_ofReal
    simp only [g]
    have : ∀ ω, ∫⁻ ω', ENNReal.ofReal ((W.lamps (some m) r t ω).1.get i) * ENNReal.ofReal (W.veer (some m) r ω').1.1
        ∂uniform = ENNReal.ofReal ((W.lamps (some m) r t ω).1.get i) *
          ∫⁻ ω', ENNReal.ofReal (W.veer (some m) r ω').1.1 ∂uniform := fun ω => lintegral_const_mul _ m1
    simp only [this]
    rw [lintegral_mul_const]
    · rfl
    · exact ((measurable_get i).comp (measurable_fst.comp (lamps_fresh W h (some m) r t).1)).ennreal_ofReal
  · congr 1
    let H : V3 ℝ × Stream → ℝ≥0∞ := fun q =>
      ∫⁻ ω', ENNReal.ofReal ((K (cut β) (some m) (W.onward r t (W.veer (some m) r q.2).1.2) ω').get i) ∂uniform
    have mH : Measurable H := by
      have : Measurable fun v : V3 ℝ => ∫⁻ ω', ENNReal.ofReal ((K (cut β) (some m) (W.onward r t v) ω').get i) ∂uniform := by
        have : Measurable fun q : V3 ℝ × Stream => ENNReal.ofReal ((K (cut β) (some m) (W.onward r t q.1) q.2).get i) :=
          ((measurable_get i).comp (mK.comp (measurable_const (a := cut β) |>.prodMk
            ((mon.comp measurable_fst).prodMk measurable_snd)))).ennreal_ofReal
        exact this.lintegral_prod_right'
      exact this.comp (measurable_snd.comp (measurable_fst.comp (mv.comp measurable_snd)))
    have e : ∀ ω, ∫⁻ ω', G ((W.both (some m) r t ω).1, ω') ∂uniform = H (W.lamps (some m) r t ω) := fun ω => rfl
    simp only [e]
    rw [(lamps_fresh W h (some m) r t).lintegral H mH]
    simp only [H]
    rw [lintegral_const, measure_univ, mul_one]
    rfl

theorem surf_mean (W : Mist R M) (h : W.Lawful) {K : V3 ℝ → Option M → R → Stream → V3 ℝ} (m : Option M)
    (hK : ∀ β m r ω, NonNeg β → NonNeg (K β m r ω)) (mK : Measurable fun q : MState R => K q.1 m q.2.1 q.2.2)
    {β : V3 ℝ} (hβ : NonNeg β) (hp : 0 < min β.maxValue 1) (i : Fin 3) (r : R) :
    meanOf i (W.surf K β m r) = ENNReal.ofReal (β.get i) * W.direct i m r +
      ENNReal.ofReal (min β.maxValue 1) * ∫⁻ ω, (if (W.scatter r ω).1.pdf = 0 then 0
        else meanOf i (K (step false β (W.scatter r ω).1) m (W.scatter r ω).1.ray)) ∂uniform := by
  let f : V3 ℝ → ℝ≥0∞ := fun a => ENNReal.ofReal (β.get i) * ENNReal.ofReal (a.get i)
  have mf : Measurable f := measurable_const.mul (measurable_get i).ennreal_ofReal
  let G : Bounce R × Stream → ℝ≥0∞ := fun q => if q.1.pdf = 0 then 0 else
    ENNReal.ofReal ((K (step false β q.1) m q.1.ray q.2).get i)
  have mG : Measurable G := by
    have mpdf : Measurable fun q : Bounce R × Stream => q.1.pdf :=
      measurable_fst.comp (measurable_snd.comp measurable_fst)
    refine Measurable.ite (mpdf (measurableSet_singleton 0)) measurable_const ?_
    exact ((measurable_get i).comp (mK.comp ((measurable_step measurable_const measurable_const measurable_fst).prodMk
      ((measurable_snd.comp (measurable_snd.comp (measurable_snd.comp measurable_fst))).prodMk
        measurable_snd)))).ennreal_ofReal
  let G' : V3 ℝ × Stream → ℝ≥0∞ := fun q => G (W.scatter r q.2)
  have mscat : Measurable (W.scatter r) := h.scatter.comp (measurable_const.prodMk measurable_id)
  have mG' : Measurable G' := mG.comp (mscat.comp measurable_snd)
  have split : ∀ ω, ENNReal.ofReal ((W.surf K β m r ω).get i) =
      f (W.bulbs m r ω).1 + if (W.bulbs m r ω).2 0 > min β.maxValue 1 then 0
        else G' ((W.bulbs m r ω).1, drop 1 (W.bulbs m r ω).2) := by
    intro ω
    have h1 : 0 ≤ (W.bulbs m r ω).1.get i := (h.lights_nonneg m r ω).get i
    have hβi := hβ.get i
    unfold Mist.surf
    rw [get_add, get_mul, ENNReal.ofReal_add (mul_nonneg hβi h1)]
    · congr 1
      · exact ENNReal.ofReal_mul hβi
      · simp only [G', G]
        by_cases h1 : (W.bulbs m r ω).2 0 > min β.maxValue 1
        · rw [if_pos (Or.inl h1), if_pos h1, get_zero, ENNReal.ofReal_zero]
        · rw [if_neg h1]
          by_cases h2 : (W.scatter r (drop 1 (W.bulbs m r ω).2)).1.pdf = 0
          · rw [if_pos (Or.inr h2), if_pos h2, get_zero, ENNReal.ofReal_zero]
          · rw [if_neg (not_or.2 ⟨h1, h2⟩), if_neg h2]
    · split_ifs
      · rw [get_zero]
      · have := h.scatter_nonneg r (drop 1 (W.bulbs m r ω).2)
        exact (hK _ _ _ _ (nonNeg_step hβ hp this.1 this.2)).get i
  unfold meanOf
  simp only [split]
  have hb : Fresh (W.bulbs m r) := h.lights_fresh m r
  rw [draw_mean hb mf mG' hp.le (min_le_right _ _)]
  congr 1
  · have m1 : Measurable fun ω => ENNReal.ofReal ((Vol.total (W.mat r) (W.lights m r ω).1).get i) :=
      ((measurable_get i).comp (measurable_fst.comp (h.lights_fresh m r).1)).ennreal_ofReal
    exact lintegral_const_mul _ m1
  · congr 1
    simp only [G']
    rw [lintegral_const, measure_univ, mul_one, (h.scatter_fresh r).lintegral G mG]
    refine lintegral_congr fun ω => ?_
    simp only [G]
    split_ifs
    · simp
    · rfl

/-- Mean of what follows a flight. -/
noncomputable def Mist.passMean (W : Mist R M) (i : Fin 3) (A B : V3 ℝ → Option M → R → ℝ≥0∞) (β : V3 ℝ) (m : Option M)
    (r : R) (f : Flight) : ℝ≥0∞ :=
  if f.scatters = true then
    match m with
    | none => 0
    | some m => ENNReal.ofReal ((β * f.weight).get i) * W.glow i m r f.t +
        ENNReal.ofReal (min (β * f.weight).maxValue 1) *
          ∫⁻ ω, A (cut (β * f.weight)) (some m) (W.onward r f.t (W.turn m r ω).1) ∂uniform
  else if W.null r = true then B (β * f.weight) (W.beyond m r) (W.past r)
  else ENNReal.ofReal ((β * f.weight).get i) * W.direct i m r +
    ENNReal.ofReal (min (β * f.weight).maxValue 1) * ∫⁻ ω, (if (W.scatter r ω).1.pdf = 0 then 0
      else A (step false (β * f.weight) (W.scatter r ω).1) m (W.scatter r ω).1.ray) ∂uniform

/-- Mean of what the loop adds, one channel. -/
noncomputable def Mist.mean (W : Mist R M) (i : Fin 3) (k n : ℕ) (β : V3 ℝ) (m : Option M) (r : R) : ℝ≥0∞ :=
  meanOf i (W.gather k n β m r)

theorem mist_pass [Countable M] (W : Mist R M) (h : W.Lawful) (i : Fin 3) (k n : ℕ) (β : V3 ℝ) (m : Option M) (r : R)
    (hβ : NonNeg β) (hz : isZero β = false) (he : W.escapes r = false) :
    W.mean i (k + 1) (n + 1) β m r =
      ∫⁻ ω, W.passMean i (W.mean i k n) (W.mean i k (n + 1)) β m r (W.fly m r ω).1 ∂uniform := by
  let g : Flight × Stream → V3 ℝ := fun q =>
    if q.1.scatters = true then W.fog (W.gather k n) (β * q.1.weight) m r q.1.t q.2
    else if W.null r = true then W.gather k (n + 1) (β * q.1.weight) (W.beyond m r) (W.past r) q.2
    else W.surf (W.gather k n) (β * q.1.weight) m r q.2
  have mw : Measurable fun q : Flight × Stream => q.1.weight := measurable_fst.comp measurable_fst
  have ms : Measurable fun q : Flight × Stream => q.1.scatters :=
    measurable_fst.comp (measurable_snd.comp measurable_fst)
  have mt : Measurable fun q : Flight × Stream => q.1.t := measurable_snd.comp (measurable_snd.comp measurable_fst)
  have mβw : Measurable fun q : Flight × Stream => β * q.1.weight := measurable_V3mul measurable_const mw
  have mg : Measurable g := by
    refine measurable_bool_ite ms ?_ (measurable_bool_ite measurable_const ?_ ?_)
    · exact (measurable_fog W h m (measurable_mist W h k n m)).comp
        (mβw.prodMk ((measurable_const.prodMk mt).prodMk measurable_snd))
    · exact (measurable_mist W h k (n + 1) (W.beyond m r)).comp
        (mβw.prodMk (measurable_const.prodMk measurable_snd))
    · exact (measurable_surf W h m (measurable_mist W h k n m)).comp
        (mβw.prodMk (measurable_const.prodMk measurable_snd))
  have e : ∀ ω, W.gather (k + 1) (n + 1) β m r ω = g (W.fly m r ω) := by
    intro ω
    rw [Mist.gather, if_neg (by simp [hz]), if_neg (by simp [he])]
  unfold Mist.mean meanOf
  simp only [e]
  rw [(fly_fresh W h m r).lintegral (fun q => ENNReal.ofReal ((g q).get i)) ((measurable_get i).comp mg).ennreal_ofReal]
  refine lintegral_congr fun ω => ?_
  obtain ⟨hβw, hpos⟩ := weighed_pos hβ hz (fly_pos W h m r ω)
  have hfly : m = none → (W.fly m r ω).1.scatters = false := by rintro rfl; rfl
  generalize (W.fly m r ω).1 = f at hβw hpos hfly
  unfold Mist.passMean
  by_cases hs : f.scatters = true
  · simp only [g, if_pos hs]
    cases m with
    | none => rw [hfly rfl] at hs; cases hs
    | some m =>
      exact fog_mean W h m (fun β m r ω => mist_nonneg W h k n β m r ω) (measurable_mist W h k n (some m)) hβw hpos i r
        f.t
  · simp only [g, if_neg hs]
    by_cases hn : W.null r = true
    · simp only [if_pos hn]
    · simp only [if_neg hn]
      exact surf_mean W h m (fun β m r ω => mist_nonneg W h k n β m r ω) (measurable_mist W h k n m) hβw hpos i r

theorem mist_escape (W : Mist R M) (i : Fin 3) (k n : ℕ) (β : V3 ℝ) (m : Option M) (r : R) (hβ : NonNeg β)
    (hz : isZero β = false) (he : W.escapes r = true) :
    W.mean i (k + 1) (n + 1) β m r = ENNReal.ofReal (β.get i) * ENNReal.ofReal ((W.env r).get i) := by
  unfold Mist.mean meanOf
  simp only [Mist.gather, hz, he, if_true, Bool.false_eq_true, if_false, get_mul, lintegral_const, measure_univ,
    mul_one]
  rw [ENNReal.ofReal_mul (hβ.get i)]

theorem mist_zero (W : Mist R M) (i : Fin 3) (k n : ℕ) (β : V3 ℝ) (m : Option M) (r : R) (hz : isZero β = true) :
    W.mean i k n β m r = 0 := by
  unfold Mist.mean meanOf
  cases k with
  | zero => simp [Mist.gather, get_zero]
  | succ k =>
    cases n with
    | zero => simp [Mist.gather, get_zero]
    | succ n => simp [Mist.gather, hz, get_zero]

end Feign.Integrators
