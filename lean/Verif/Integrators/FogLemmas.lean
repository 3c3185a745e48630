import Verif.Integrators.FogSpec
import Verif.Integrators.MistLight
import Verif.Integrators.RoomProps

/-! # Scenes with homogeneous media: lemmas -/

set_option linter.unusedSectionVars false
set_option linter.unusedSimpArgs false
set_option linter.unusedVariables false

namespace Feign.Integrators

open Sampling MeasureTheory Warp Media
open scoped ENNReal

variable {M : Type}

/-! ## The medium's sample -/

/-- The rate at which the code draws distances. -/
noncomputable def Fluid.rate (f : Fluid) : ℝ := (f.D * f.sigmaT).maxOp

/-- The weight of a scattering event. -/
noncomputable def Fluid.albedo (f : Fluid) : V3 ℝ :=
  ⟨f.sca.x / f.sigmaT.x, f.sca.y / f.sigmaT.y, f.sca.z / f.sigmaT.z⟩

theorem maxOp_mem (v : V3 ℝ) : ∃ j, v.maxOp = v.get j := by
  simp only [V3.maxOp]
  split_ifs <;> first | exact ⟨0, rfl⟩ | exact ⟨1, rfl⟩ | exact ⟨2, rfl⟩

theorem sigmaT_get (f : Fluid) (i : Fin 3) : f.sigmaT.get i = f.abs.get i + f.sca.get i := get_add _ _ i

theorem sigmaT_pos {f : Fluid} (h : f.Lawful) (hs : ∀ i, 0 < f.sca.get i) (i : Fin 3) : 0 < f.sigmaT.get i := by
  rw [sigmaT_get]
  exact add_pos_of_nonneg_of_pos (h.abs i) (hs i)

theorem D_get (f : Fluid) (i : Fin 3) : f.D.get i = f.extinction i := by
  unfold Fluid.D Density.D Fluid.extinction
  rw [get_mul, sigmaT_get]

theorem rate_pos {f : Fluid} (h : f.Lawful) (hs : ∀ i, 0 < f.sca.get i) : 0 < f.rate := by
  obtain ⟨j, hj⟩ := maxOp_mem (f.D * f.sigmaT)
  unfold Fluid.rate
  rw [hj, get_mul, D_get, Fluid.extinction, ← sigmaT_get]
  have := sigmaT_pos h hs j
  have := h.density j
  positivity

theorem albedo_get (f : Fluid) (i : Fin 3) : f.albedo.get i = f.sca.get i / f.sigmaT.get i := by
  fin_cases i <;> rfl

/-- The distance drawn. -/
noncomputable def Fluid.reach (f : Fluid) (near u : ℝ) : ℝ := near + -Real.log u / f.rate

theorem free_scatter {f : Fluid} (h : f.Lawful) (hs : ∀ i, 0 < f.sca.get i) (near dist : ℝ) (ω : Stream) :
    f.free near dist ω = ((if ω 0 ≠ 0 ∧ f.reach near (ω 0) < dist then (f.albedo, true, f.reach near (ω 0))
      else (white, false, if ω 0 = 0 then 0 else f.reach near (ω 0))), drop 1 ω) := by
  have hz : f.sca.eqOp 0 = false := by
    have := hs 0
    have hx : f.sca.x ≠ 0 := this.ne'
    have h0 : (0 : V3 ℝ).x = 0 := rfl
    simp only [V3.eqOp, h0, hx, decide_false, Bool.false_and]
  have hr := rate_pos h hs
  have hn : (next ω).1 = ω 0 := rfl
  have hn2 : (next ω).2 = drop 1 ω := rfl
  have hsig : ¬ (f.sigmaT.x = 0 ∨ f.sigmaT.y = 0 ∨ f.sigmaT.z = 0) := by
    rintro (h' | h' | h')
    · exact (sigmaT_pos h hs 0).ne' h'
    · exact (sigmaT_pos h hs 1).ne' h'
    · exact (sigmaT_pos h hs 2).ne' h'
  have hsig' : ¬ ((f.abs + f.sca).x = 0 ∨ (f.abs + f.sca).y = 0 ∨ (f.abs + f.sca).z = 0) := hsig
  unfold Fluid.free
  simp only [sampleMedium, hz, Bool.false_eq_true, if_false, sampleT, hn, hn2]
  have han : analytic (f.D * (f.abs + f.sca)).maxOp near (ω 0) =
      if ω 0 = 0 then some ⊤ else some ((f.reach near (ω 0) : ℝ) : WithTop ℝ) := by
    have e : (f.D * (f.abs + f.sca)).maxOp = f.rate := rfl
    rw [e]
    simp only [analytic, hr.ne', if_false, not_lt.2 hr.le]
    rfl
  rw [han]
  by_cases hu : ω 0 = 0
  · have h1 : ¬ ((⊤ : WithTop ℝ) < (dist : WithTop ℝ)) := not_top_lt
    simp only [hu, if_true, h1, if_false, ne_eq, not_true_eq_false, false_and, Media.Event.scatters, decide_false]
    rfl
  · simp only [hu, if_false, ne_eq, not_false_eq_true, true_and]
    by_cases ht : f.reach near (ω 0) < dist
    · have ht' : ((f.reach near (ω 0) : ℝ) : WithTop ℝ) < (dist : WithTop ℝ) := by exact_mod_cast ht
      simp only [ht', if_true, hsig', if_false, ht, Media.Event.scatters, decide_true]
      rfl
    · have ht' : ¬ ((f.reach near (ω 0) : ℝ) : WithTop ℝ) < (dist : WithTop ℝ) := by exact_mod_cast ht
      simp only [ht', if_false, ht, Media.Event.scatters, decide_false]
      rfl

/-- The colour left by a medium that only absorbs. -/
noncomputable def Fluid.dim (f : Fluid) (near dist : ℝ) : V3 ℝ := expV (f.D.smul (-(dist - near)))

theorem dim_get (f : Fluid) (near dist : ℝ) (i : Fin 3) :
    (f.dim near dist).get i = Real.exp (-f.extinction i * (dist - near)) := by
  have : (f.dim near dist).get i = Real.exp ((f.D.smul (-(dist - near))).get i) := by fin_cases i <;> rfl
  rw [this, get_smul, D_get]
  congr 1
  ring

theorem free_absorb {f : Fluid} (hs : f.sca = 0) (near dist : ℝ) (ω : Stream) :
    f.free near dist ω = ((f.dim near dist, false, dist), ω) := by
  have hz : f.sca.eqOp 0 = true := by
    rw [hs]
    simp [V3.eqOp]
  unfold Fluid.free
  simp only [sampleMedium, hz, if_true, transmittance, Option.map_some, Media.Event.scatters, lt_irrefl, decide_false]
  rfl

/-! ## Lawfulness -/

theorem measurable_reach (f : Fluid) (near : ℝ) : Measurable fun u => f.reach near u := by
  unfold Fluid.reach
  exact measurable_const.add ((Real.measurable_log.neg).div measurable_const)

theorem measurable_expV {α : Type} [MeasurableSpace α] {v : α → V3 ℝ} (hv : Measurable v) :
    Measurable fun a => expV (v a) :=
  measurable_mk (Real.measurable_exp.comp (measurable_x.comp hv)) (Real.measurable_exp.comp (measurable_y.comp hv))
    (Real.measurable_exp.comp (measurable_z.comp hv))

theorem measurable_free {f : Fluid} (h : f.Lawful) (near : ℝ) {α : Type} [MeasurableSpace α] {d : α → ℝ}
    {o : α → Stream} (hd : Measurable d) (ho : Measurable o) : Measurable fun a => f.free near (d a) (o a) := by
  rcases h.sca with hs | hs
  · simp only [free_absorb hs]
    exact ((measurable_expV (measurable_V3smul measurable_const (hd.sub measurable_const).neg)).prodMk
      (measurable_const.prodMk hd)).prodMk ho
  · simp only [free_scatter h hs]
    have hu : Measurable fun a => o a 0 := (measurable_pi_apply 0).comp ho
    have hz : MeasurableSet {a | o a 0 = 0} := hu (measurableSet_singleton 0)
    have hr := (measurable_reach f near).comp hu
    refine Measurable.prodMk (Measurable.ite ?_ ?_ ?_) ((measurable_drop 1).comp ho)
    · exact (hz.compl).inter (measurableSet_lt hr hd)
    · exact measurable_const.prodMk (measurable_const.prodMk hr)
    · exact measurable_const.prodMk (measurable_const.prodMk (Measurable.ite hz measurable_const hr))

theorem free_fresh {f : Fluid} (h : f.Lawful) (near dist : ℝ) : Fresh (f.free near dist) := by
  rcases h.sca with hs | hs
  · have : f.free near dist = fun ω => ((f.dim near dist, false, dist), ω) := funext fun ω => free_absorb hs near dist ω
    rw [this]
    exact fresh_pure _
  · have : f.free near dist = fun ω => ((fun u : ℝ => if u ≠ 0 ∧ f.reach near u < dist then
        (f.albedo, true, f.reach near u) else (white, false, if u = 0 then 0 else f.reach near u)) (next ω).1, (next ω).2) :=
      funext fun ω => free_scatter h hs near dist ω
    rw [this]
    refine fresh_map (m := fun u : ℝ => if u ≠ 0 ∧ f.reach near u < dist then
      ((f.albedo, true, f.reach near u) : Flight) else (white, false, if u = 0 then 0 else f.reach near u)) fresh_next ?_
    have hz : MeasurableSet {u : ℝ | u = 0} := measurableSet_singleton 0
    have hr := measurable_reach f near
    refine Measurable.ite ((hz.compl).inter (measurableSet_lt hr measurable_const)) ?_ ?_
    · exact measurable_const.prodMk (measurable_const.prodMk hr)
    · exact measurable_const.prodMk (measurable_const.prodMk (Measurable.ite hz measurable_const hr))

theorem free_pos {f : Fluid} (h : f.Lawful) (near dist : ℝ) (ω : Stream) (i : Fin 3) :
    0 < (f.free near dist ω).1.weight.get i := by
  rcases h.sca with hs | hs
  · rw [free_absorb hs]
    show 0 < (f.dim near dist).get i
    rw [dim_get]
    exact Real.exp_pos _
  · rw [free_scatter h hs]
    split_ifs
    · show 0 < f.albedo.get i
      rw [albedo_get]
      exact div_pos (hs i) (sigmaT_pos h hs i)
    all_goals
      show 0 < (white : V3 ℝ).get i
      rw [white_get]
      exact one_pos

theorem uniSph_sqrNorm (s : V2 ℝ) : 1 ≤ (uniSph s).sqrNorm ∧ (0 ≤ s.y → s.y ≤ 1 → (uniSph s).sqrNorm = 1) := by
  have h1 : ∀ a b : ℝ, a * Real.cos b * (a * Real.cos b) + a * Real.sin b * (a * Real.sin b) = a * a := by
    intro a b
    have := Real.sin_sq_add_cos_sq b
    calc _ = a * a * (Real.sin b ^ 2 + Real.cos b ^ 2) := by ring
      _ = a * a := by rw [this, mul_one]
  have h2 : (uniSph s).sqrNorm = max 0 (1 - (1 - 2 * s.y) * (1 - 2 * s.y)) + (1 - 2 * s.y) * (1 - 2 * s.y) := by
    simp only [uniSph, V3.sqrNorm]
    rw [h1, Real.mul_self_sqrt (le_max_left _ _)]
  rw [h2]
  constructor
  · have := le_max_right 0 (1 - (1 - 2 * s.y) * (1 - 2 * s.y))
    linarith
  · intro h3 h4
    rw [max_eq_right (by nlinarith)]
    ring

/-- The direction drawn is never zero. -/
theorem uniSph_ne (s : V2 ℝ) : (uniSph s).normalized ≠ none := by
  have h := (uniSph_sqrNorm s).1
  unfold V3.normalized
  rw [if_neg]
  · simp
  · unfold V3.norm
    intro hc
    rw [Real.sqrt_eq_zero'] at hc
    unfold V3.sqrNorm at h
    linarith

theorem heading_unit {v : V3 ℝ} (h : v.sqrNorm = 1) : heading v = v := by
  have hn : v.norm = 1 := by
    unfold V3.norm
    unfold V3.sqrNorm at h
    rw [h, Real.sqrt_one]
  unfold heading V3.normalized
  rw [hn, if_neg one_ne_zero]
  simp

theorem measurable_heading : Measurable heading := by
  have hn : Measurable fun v : V3 ℝ => v.norm := by
    unfold V3.norm
    have hx := measurable_x
    have hy := measurable_y
    have hz := measurable_z
    fun_prop
  have : heading = fun v => if v.norm = 0 then v else ⟨v.x / v.norm, v.y / v.norm, v.z / v.norm⟩ := by
    funext v
    unfold heading V3.normalized
    by_cases h : v.norm = 0 <;> simp [h]
  rw [this]
  exact Measurable.ite (hn (measurableSet_singleton 0)) measurable_id
    (measurable_mk (measurable_x.div hn) (measurable_y.div hn) (measurable_z.div hn))

theorem isoTurn_fresh : Fresh isoTurn :=
  fresh_map (m := fun q : ℝ × ℝ => uniSph ⟨q.1, q.2⟩) fresh_next2 measurable_uniSph

theorem fog_lawful (S : Fog M) (h : S.Lawful) : S.mist.Lawful where
  escapes := (measurable_of_finite not).comp h.room.seen
  env := h.room.env
  env_nonneg := h.room.env_nonneg
  free m := measurable_free (h.fluid m) S.room.eps (h.dist.comp measurable_fst) measurable_snd
  free_fresh m r := free_fresh (h.fluid m) S.room.eps (S.dist r)
  free_pos m r ω i := free_pos (h.fluid m) S.room.eps (S.dist r) ω i
  inside := h.motes
  inside_fresh := h.motes_fresh
  inside_nonneg := h.motes_nonneg
  turn _ := isoTurn_fresh.1.comp measurable_snd
  turn_fresh _ _ := isoTurn_fresh
  phase _ := measurable_const
  phase_nonneg _ _ _ := by show (0 : ℝ) ≤ 1 / (4 * Real.pi); positivity
  onward := by
    have h1 : Measurable fun p : Ray × ℝ × V3 ℝ => p.1.1 + p.1.2.smul p.2.1 :=
      measurable_V3add (measurable_fst.comp measurable_fst)
        (measurable_V3smul (measurable_snd.comp measurable_fst) (measurable_fst.comp measurable_snd))
    exact h1.prodMk (measurable_heading.comp (measurable_snd.comp measurable_snd))
  null := h.null
  beyond := h.beyond
  past := h.room.point.prodMk measurable_snd
  lights := h.glints
  lights_fresh := h.glints_fresh
  lights_nonneg := h.glints_nonneg
  scatter := measurable_scatter S.room h.room
  scatter_fresh := scatter_fresh S.room h.room
  scatter_nonneg := scatter_nonneg S.room h.room

theorem fog_matte (S : Fog M) (h : S.Lawful) : S.mist.Matte where
  plain r := by
    show (S.room.material r).isDelta = false
    rw [h.matte r]
    rfl
  dark := h.dark

/-! ## The law of the distance -/

theorem reach_lt_iff {f : Fluid} (hr : 0 < f.rate) {near dist u : ℝ} (hu : 0 < u) :
    f.reach near u < dist ↔ Real.exp (-f.rate * (dist - near)) < u := by
  unfold Fluid.reach
  rw [← Real.lt_log_iff_exp_lt hu]
  constructor
  · intro h
    have h1 : -Real.log u / f.rate < dist - near := by linarith
    rw [div_lt_iff₀ hr] at h1
    nlinarith
  · intro h
    have h1 : -Real.log u / f.rate < dist - near := by
      rw [div_lt_iff₀ hr]
      nlinarith
    linarith

/-- Distances are drawn with an exponential law, cut off at what is hit. -/
theorem lintegral_reach {f : Fluid} (hr : 0 < f.rate) {near dist : ℝ} (hd : near ≤ dist) {g : ℝ → ℝ≥0∞}
    (hg : Measurable g) (b : ℝ≥0∞) :
    ∫⁻ u, (if f.reach near u < dist then g (f.reach near u) else b) ∂unit =
      (∫⁻ t in Set.Ioo near dist, ENNReal.ofReal (f.rate * Real.exp (-f.rate * (t - near))) * g t) +
        ENNReal.ofReal (Real.exp (-f.rate * (dist - near))) * b := by
  set e := f.rate with he
  let c := Real.exp (-e * (dist - near))
  have hc0 : 0 < c := Real.exp_pos _
  have hc1 : c ≤ 1 := Real.exp_le_one_iff.2 (by nlinarith)
  have hsplit : Set.Ioo (0 : ℝ) 1 = Set.Ioc 0 c ∩ Set.Ioo 0 1 ∪ Set.Ioo c 1 := by
    ext x
    simp only [Set.mem_Ioo, Set.mem_union, Set.mem_inter_iff, Set.mem_Ioc]
    constructor
    · rintro ⟨h1, h2⟩
      rcases le_or_gt x c with h | h
      · exact Or.inl ⟨⟨h1, h⟩, h1, h2⟩
      · exact Or.inr ⟨h, h2⟩
    · rintro (⟨_, h⟩ | ⟨h1, h2⟩)
      · exact h
      · exact ⟨hc0.trans h1, h2⟩
  have hdisj : Disjoint (Set.Ioc 0 c ∩ Set.Ioo 0 1) (Set.Ioo c 1) := by
    rw [Set.disjoint_left]
    rintro x ⟨⟨_, h1⟩, _⟩ ⟨h2, _⟩
    exact absurd h1 (not_le.2 h2)
  unfold unit
  rw [hsplit, lintegral_union measurableSet_Ioo hdisj, add_comm]
  congr 1
  · -- drawn inside
    have himg : (fun t => Real.exp (-e * (t - near))) '' Set.Ioo near dist = Set.Ioo c 1 := by
      ext u
      simp only [Set.mem_image, Set.mem_Ioo]
      constructor
      · rintro ⟨t, ⟨h1, h2⟩, rfl⟩
        exact ⟨Real.exp_lt_exp.2 (by nlinarith), by rw [← Real.exp_zero]; exact Real.exp_lt_exp.2 (by nlinarith)⟩
      · rintro ⟨h1, h2⟩
        have hu : 0 < u := hc0.trans h1
        refine ⟨f.reach near u, ⟨?_, (reach_lt_iff hr hu).2 h1⟩, ?_⟩
        · unfold Fluid.reach
          have : 0 < -Real.log u / e := div_pos (neg_pos.2 (Real.log_neg hu h2)) hr
          linarith
        · unfold Fluid.reach
          rw [← he]
          have : -e * (near + -Real.log u / e - near) = Real.log u := by
            field_simp
            ring
          rw [this, Real.exp_log hu]
    have hinj : Set.InjOn (fun t => Real.exp (-e * (t - near))) (Set.Ioo near dist) := by
      intro a _ b _ hab
      have := Real.exp_injective hab
      have h2 : e * (a - b) = 0 := by linarith
      rcases mul_eq_zero.1 h2 with h3 | h3
      · exact absurd h3 hr.ne'
      · linarith
    have hder : ∀ t ∈ Set.Ioo near dist, HasDerivWithinAt (fun t => Real.exp (-e * (t - near)))
        (Real.exp (-e * (t - near)) * -e) (Set.Ioo near dist) t := by
      intro t _
      have h1 : HasDerivAt (fun t => -e * (t - near)) (-e) t := by
        have := ((hasDerivAt_id t).sub_const near).const_mul (-e)
        simpa using this
      exact (h1.exp).hasDerivWithinAt
    rw [← himg, lintegral_image_eq_lintegral_abs_deriv_mul measurableSet_Ioo hder hinj]
    refine setLIntegral_congr_fun measurableSet_Ioo fun t ht => ?_
    have hpos := Real.exp_pos (-e * (t - near))
    have hrt : f.reach near (Real.exp (-e * (t - near))) = t := by
      unfold Fluid.reach
      rw [Real.log_exp, ← he]
      field_simp
      ring
    simp only [hrt, if_pos ht.2]
    congr 2
    rw [abs_of_neg (by nlinarith)]
    ring
  · -- beyond
    have : ∫⁻ u in Set.Ioc 0 c ∩ Set.Ioo 0 1, (if f.reach near u < dist then g (f.reach near u) else b) =
        ∫⁻ u in Set.Ioc 0 c ∩ Set.Ioo 0 1, b := by
      refine setLIntegral_congr_fun (measurableSet_Ioc.inter measurableSet_Ioo) fun u hu => ?_
      have h1 : ¬ f.reach near u < dist := by
        rw [reach_lt_iff hr hu.1.1]
        exact not_lt.2 hu.1.2
      simp only [if_neg h1]
    rw [this, setLIntegral_const, mul_comm]
    congr 1
    have h2 := unit_Iic hc0.le hc1
    unfold unit at h2
    rw [Measure.restrict_apply measurableSet_Iic] at h2
    rw [← h2]
    congr 1
    ext x
    simp only [Set.mem_inter_iff, Set.mem_Ioc, Set.mem_Ioo, Set.mem_Iic]
    tauto

end Feign.Integrators
