import Verif.Integrators.WalkProps

/-!
# C100: paths of any length

The light carried back along paths of at most `n` segments grows with `n`, and its limit satisfies the rendering
equation.
-/

set_option linter.unusedSectionVars false

namespace Feign.Integrators

open Sampling MeasureTheory Filter
open scoped ENNReal Topology

variable {R : Type} [MeasurableSpace R]

theorem measurable_factor {α : Type} [MeasurableSpace α] (i : Fin 3) {d : α → Bool} {b : α → Bounce R}
    (hd : Measurable d) (hb : Measurable b) : Measurable fun a => factor (d a) i (b a) := by
  have h1 : Measurable fun a => (b a).albedo.get i := (measurable_get i).comp (measurable_fst.comp hb)
  have h2 : Measurable fun a => (b a).pdf := measurable_fst.comp (measurable_snd.comp hb)
  have h3 : Measurable fun a => (b a).cos := measurable_fst.comp (measurable_snd.comp (measurable_snd.comp hb))
  unfold factor
  exact Measurable.ite (h2 (measurableSet_singleton 0)) measurable_const
    ((h1.mul (measurable_bool_ite hd measurable_const (continuous_abs.measurable.comp h3))).div h2)

theorem measurable_direct (W : World R) (h : W.Lawful) (i : Fin 3) : Measurable fun r => W.direct i r := by
  unfold World.direct
  refine measurable_bool_ite h.delta measurable_const ?_
  have : Measurable fun p : R × Stream => ENNReal.ofReal ((total (W.lights p.1 p.2).1).get i) :=
    ((measurable_get i).comp (measurable_fst.comp h.lights)).ennreal_ofReal
  exact this.lintegral_prod_right'

theorem measurable_carried (W : World R) (h : W.Lawful) (i : Fin 3) (n : ℕ) :
    Measurable fun p : Bool × R => W.carried i n p.1 p.2 := by
  induction n with
  | zero => simp only [World.carried]; exact measurable_const
  | succ n ih =>
    simp only [World.carried]
    have mr : Measurable fun p : Bool × R => p.2 := measurable_snd
    refine measurable_bool_ite (h.escapes.comp mr) ((measurable_get i).comp (h.env.comp mr)).ennreal_ofReal
      (Measurable.add (Measurable.add (measurable_bool_ite measurable_fst
        ((measurable_get i).comp (h.emitted.comp mr)).ennreal_ofReal measurable_const)
        ((measurable_direct W h i).comp mr)) ?_)
    have mq : Measurable fun q : (Bool × R) × Stream => q.1.2 := measurable_snd.comp measurable_fst
    have mb : Measurable fun q : (Bool × R) × Stream => (W.scatter q.1.2 q.2).1 :=
      measurable_fst.comp (h.scatter.comp (mq.prodMk measurable_snd))
    have md : Measurable fun q : (Bool × R) × Stream => W.delta q.1.2 := h.delta.comp mq
    have mray : Measurable fun q : (Bool × R) × Stream => (W.scatter q.1.2 q.2).1.ray :=
      measurable_snd.comp (measurable_snd.comp (measurable_snd.comp mb))
    have mc : Measurable fun q : (Bool × R) × Stream =>
        W.carried i n (W.delta q.1.2) (W.scatter q.1.2 q.2).1.ray := ih.comp (md.prodMk mray)
    have := (measurable_factor i md mb).ennreal_ofReal.mul mc
    exact Measurable.lintegral_prod_right' this

theorem carried_mono (W : World R) (i : Fin 3) : Monotone fun n => W.carried i n := by
  refine monotone_nat_of_le_succ fun n => ?_
  induction n with
  | zero => intro look r; simp only [World.carried]; exact zero_le
  | succ n ih =>
    intro look r
    rw [World.carried, World.carried]
    split_ifs with he
    · exact le_rfl
    · gcongr; exact ih _ _
    · gcongr; exact ih _ _

/-- Light carried back along paths of any length. -/
noncomputable def World.light (W : World R) (i : Fin 3) (look : Bool) (r : R) : ℝ≥0∞ := ⨆ n, W.carried i n look r

/-- **C100, the rendering equation.** The light that paths of any length bring back along a ray is the environment's
where nothing is hit; elsewhere it is what the surface emits, what arrives directly from the lights, and what the surface
sends on, averaged over the sampled directions, of the light that arrives from them. -/
theorem rendering_equation (W : World R) (h : W.Lawful) (i : Fin 3) (look : Bool) (r : R) :
    W.light i look r =
      if W.escapes r then ENNReal.ofReal ((W.env r).get i)
      else (if look then ENNReal.ofReal ((W.emitted r).get i) else 0) + W.direct i r +
        ∫⁻ ω, ENNReal.ofReal (factor (W.delta r) i (W.scatter r ω).1) *
          W.light i (W.delta r) (W.scatter r ω).1.ray ∂uniform := by
  have hs : W.light i look r = ⨆ n, W.carried i (n + 1) look r := by
    unfold World.light
    have hm : Monotone fun n => W.carried i n look r := fun a b hab => carried_mono W i hab look r
    exact (hm.iSup_nat_add 1).symm
  rw [hs]
  simp only [World.carried]
  cases he : W.escapes r with
  | true => simp
  | false =>
    simp only [Bool.false_eq_true, if_false]
    rw [← ENNReal.add_iSup]
    congr 1
    have mb : Measurable fun ω => (W.scatter r ω).1 := measurable_fst.comp (h.scatter_fresh r).1
    have mray : Measurable fun ω => (W.scatter r ω).1.ray :=
      measurable_snd.comp (measurable_snd.comp (measurable_snd.comp mb))
    have mf : Measurable fun ω => ENNReal.ofReal (factor (W.delta r) i (W.scatter r ω).1) :=
      (measurable_factor i measurable_const mb).ennreal_ofReal
    rw [← lintegral_iSup]
    · refine lintegral_congr fun ω => ?_
      rw [World.light, ENNReal.mul_iSup]
    · intro n
      exact mf.mul ((measurable_carried W h i n).comp (measurable_const.prodMk mray))
    · intro a b hab ω
      exact mul_le_mul_right (carried_mono W i hab _ _) _

/-- Without a limit in the way, and without loss, the mean of what the integrator returns tends to that light as the
bounce limit grows. -/
theorem path_mean_limit (W : World R) (h : W.Lawful) (hg : W.Grey) (quot : ℝ → ℝ → ℝ) (hq : IsQuot quot) (ray : R)
    (t : Running) (ht : Idle t) (v : ℕ → Stream → V3 ℝ) (hv : ∀ n ω, W.Li quot n ray ω t = .ok (v n ω, t))
    (i : Fin 3) :
    Tendsto (fun n => ∫⁻ ω, ENNReal.ofReal ((v n ω).get i) ∂uniform) atTop (𝓝 (W.light i true ray)) := by
  have : (fun n => ∫⁻ ω, ENNReal.ofReal ((v n ω).get i) ∂uniform) = fun n => W.carried i n true ray := by
    ext n
    exact path_mean_grey W h hg quot hq n ray t ht (v n) (hv n) i
  rw [this]
  exact tendsto_atTop_iSup fun a b hab => carried_mono W i hab true ray

end Feign.Integrators
