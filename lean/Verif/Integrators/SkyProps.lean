import Verif.Integrators.Sky
import Verif.Integrators.TimerProps
import Verif.Integrators.Picture

/-!
# C103: what ambient occlusion images show
-/

set_option linter.unusedSectionVars false
set_option linter.unusedVariables false

namespace Feign.Integrators

open Sampling MeasureTheory Warp Image _root_.Filter Topology
open scoped ENNReal

/-! ## Specification -/

/-- The part of the hemisphere around `n` from which nothing is in the way of the point `p`, directions weighted with
the cosine: `1/π ∫ (n · v)⁺ [nothing in the way] dv`. -/
noncomputable def openness (blocked : Ray → Bool) (p n : V3 ℝ) : ℝ≥0∞ :=
  ENNReal.ofReal (1 / Real.pi) * ∫⁻ v, (if blocked (p, v) then 0 else ENNReal.ofReal (n.dot v)) ∂solidAngle

/-- What the image should show along a ray: black where there is no surface, otherwise how open the point is. -/
noncomputable def Sky.shown (S : Sky) (r : Ray) : ℝ≥0∞ :=
  if S.seen r then openness S.blocked (S.point r) (S.geom r).n else 0

/-- Everything depends measurably on the ray and the geometric frames are orthonormal. -/
structure Sky.Lawful (S : Sky) : Prop where
  seen : Measurable S.seen
  point : Measurable S.point
  geom_s : Measurable fun r => (S.geom r).s
  geom_t : Measurable fun r => (S.geom r).t
  geom_n : Measurable fun r => (S.geom r).n
  geom : ∀ r, (S.geom r).Orthonormal
  blocked : Measurable S.blocked

/-! ## Lemmas -/

/-- The value and what is left of the stream. -/
noncomputable def Sky.value (S : Sky) (r : Ray) (ω : Stream) : V3 ℝ × Stream :=
  if S.seen r then (if S.blocked (S.shadowRay r (next2 ω).1) then 0 else white, (next2 ω).2) else (0, ω)

theorem Sky.Renders.eq {S : Sky} {Li : Ray → Stream → V3 ℝ × Stream} (h : S.Renders Li) : Li = S.value := by
  funext r ω
  obtain ⟨h1, h2⟩ := h r ω
  have h3 := h1 0 0 (fun _ => false) fun _ _ => rfl
  rw [Sky.Li, ambOcc_eq (fun _ _ => rfl)] at h3
  have h4 := congrArg Prod.fst (Res.ok.inj h3)
  refine Prod.ext ?_ ?_
  · rw [← h4]
    unfold Sky.value
    cases hs : S.seen r <;> simp
  · rw [h2]
    unfold Sky.value Sky.left
    cases hs : S.seen r <;> simp

theorem Sky.renders_value (S : Sky) : S.Renders S.value := by
  intro r ω
  refine ⟨fun q q' t ht => ?_, ?_⟩
  · rw [Sky.Li, ambOcc_eq ht]
    unfold Sky.value
    cases hs : S.seen r <;> simp
  · unfold Sky.value Sky.left
    cases hs : S.seen r <;> simp

theorem Sky.measurable_shadowRay {S : Sky} (h : S.Lawful) :
    Measurable fun q : Ray × (ℝ × ℝ) => S.shadowRay q.1 q.2 :=
  (h.point.comp measurable_fst).prodMk (measurable_worldOf (h.geom_s.comp measurable_fst) (h.geom_t.comp measurable_fst)
    (h.geom_n.comp measurable_fst) (measurable_cosHemi.comp measurable_snd))

theorem Sky.measurableSet_blocked {S : Sky} (h : S.Lawful) :
    MeasurableSet {q : Ray × (ℝ × ℝ) | S.blocked (S.shadowRay q.1 q.2) = true} :=
  (h.blocked.comp (Sky.measurable_shadowRay h)) (t := {true}) MeasurableSpace.measurableSet_top

theorem Sky.measurable_value {S : Sky} (h : S.Lawful) : Measurable fun q : Ray × Stream => S.value q.1 q.2 := by
  have mn : Measurable fun q : Ray × Stream => next2 q.2 := measurable_next2.comp measurable_snd
  have mb : MeasurableSet {q : Ray × Stream | S.blocked (S.shadowRay q.1 (next2 q.2).1) = true} :=
    (measurable_fst.prodMk (measurable_fst.comp mn)) (Sky.measurableSet_blocked h)
  have ms : MeasurableSet {q : Ray × Stream | S.seen q.1 = true} :=
    (h.seen.comp measurable_fst) (t := {true}) MeasurableSpace.measurableSet_top
  exact Measurable.ite ms
    ((Measurable.ite mb measurable_const measurable_const).prodMk (measurable_snd.comp mn))
    (measurable_const.prodMk measurable_snd)

theorem Sky.fresh_value {S : Sky} (h : S.Lawful) (r : Ray) : Fresh (S.value r) := by
  by_cases hs : S.seen r = true
  · have e : S.value r = fun ω => ((if S.blocked (S.shadowRay r (next2 ω).1) then 0 else white : V3 ℝ), (next2 ω).2) := by
      funext ω
      simp [Sky.value, hs]
    rw [e]
    have mb : MeasurableSet {s : ℝ × ℝ | S.blocked (S.shadowRay r s) = true} :=
      (measurable_const.prodMk measurable_id) (Sky.measurableSet_blocked h)
    exact fresh_map (m := fun s => (if S.blocked (S.shadowRay r s) then 0 else white : V3 ℝ)) fresh_next2
      (Measurable.ite mb measurable_const measurable_const)
  · have e : S.value r = fun ω => (0, ω) := by
      funext ω
      simp [Sky.value, hs]
    rw [e]
    exact fresh_pure 0

theorem zero_get (i : Fin 3) : (0 : V3 ℝ).get i = 0 := by fin_cases i <;> rfl

/-- The mean in terms of the two random numbers. -/
theorem Sky.mean_square {S : Sky} (h : S.Lawful) (i : Fin 3) (r : Ray) (hs : S.seen r = true) :
    ∫⁻ ω, ENNReal.ofReal ((S.value r ω).1.get i) ∂uniform =
      ∫⁻ s, (if S.blocked (S.shadowRay r s) then 0 else 1) ∂square := by
  have e : ∀ ω, ENNReal.ofReal ((S.value r ω).1.get i) =
      (fun p : (ℝ × ℝ) × Stream => if S.blocked (S.shadowRay r p.1) then (0 : ℝ≥0∞) else 1) (next2 ω) := by
    intro ω
    by_cases hb : S.blocked (S.shadowRay r (next2 ω).1) = true
    · simp [Sky.value, hs, hb, zero_get]
    · simp [Sky.value, hs, hb, white_get]
  have mb : MeasurableSet {p : (ℝ × ℝ) × Stream | S.blocked (S.shadowRay r p.1) = true} :=
    (measurable_const.prodMk measurable_fst) (Sky.measurableSet_blocked h)
  rw [lintegral_congr e, lintegral_next2 _ (Measurable.ite mb measurable_const measurable_const)]
  refine lintegral_congr fun s => ?_
  change ∫⁻ _, (if S.blocked (S.shadowRay r s) then (0 : ℝ≥0∞) else 1) ∂uniform = _
  rw [lintegral_const, measure_univ, mul_one]

/-! ## The property -/

/-- **C103, mean.** Averaged over the random numbers, ambient occlusion along a ray is the share of the hemisphere around
the geometric normal, weighted with the cosine, from which nothing is in the way; black where no surface is hit. All
three channels agree. -/
theorem ambient_mean {S : Sky} (h : S.Lawful) {Li : Ray → Stream → V3 ℝ × Stream} (hLi : S.Renders Li) (i : Fin 3)
    (r : Ray) : ∫⁻ ω, ENNReal.ofReal ((Li r ω).1.get i) ∂uniform = S.shown r := by
  have hLi' := hLi.eq
  subst hLi'
  by_cases hs : S.seen r = true
  · rw [Sky.mean_square h i r hs, Sky.shown, if_pos hs, openness]
    have ho := h.geom r
    have mw := measurable_toWorld (S.geom r)
    have mb : MeasurableSet {v : V3 ℝ | S.blocked (S.point r, v) = true} :=
      (h.blocked.comp (measurable_const.prodMk measurable_id)) (t := {true}) MeasurableSpace.measurableSet_top
    have mg : Measurable fun w : V3 ℝ => if S.blocked (S.point r, (S.geom r).toWorld w) then (0 : ℝ≥0∞) else 1 :=
      Measurable.ite (mw mb) measurable_const measurable_const
    have e2 : ∫⁻ s, (if S.blocked (S.shadowRay r s) then (0 : ℝ≥0∞) else 1) ∂square =
        ∫⁻ w, (if S.blocked (S.point r, (S.geom r).toWorld w) then (0 : ℝ≥0∞) else 1)
          ∂(Measure.map (fun q : ℝ × ℝ => cosHemi ⟨q.1, q.2⟩) square) := by
      rw [lintegral_map mg measurable_cosHemi]
      rfl
    rw [e2, cosHemi_law, lintegral_withDensity_eq_lintegral_mul _ measurable_cosHemiPdf.ennreal_ofReal mg]
    have mv : Measurable fun v : V3 ℝ => if S.blocked (S.point r, v) then (0 : ℝ≥0∞) else
        ENNReal.ofReal ((S.geom r).n.dot v) :=
      Measurable.ite mb measurable_const (measurable_dot measurable_const measurable_id).ennreal_ofReal
    conv_rhs => rw [← solidAngle_toWorld (S.geom r) ho]
    have mv2 : Measurable fun w : V3 ℝ => if S.blocked (S.point r, (S.geom r).toWorld w) then (0 : ℝ≥0∞) else
        ENNReal.ofReal ((S.geom r).n.dot ((S.geom r).toWorld w)) := mv.comp mw
    rw [lintegral_map mv mw, ← lintegral_const_mul _ mv2]
    refine lintegral_congr fun w => ?_
    simp only [Pi.mul_apply, normal_toWorld ho]
    by_cases hb : S.blocked (S.point r, (S.geom r).toWorld w) = true
    · simp [hb]
    · rw [if_neg hb, if_neg hb, mul_one]
      by_cases hw : 0 < w.z
      · rw [cosHemiPdf, if_pos hw, ← ENNReal.ofReal_mul (by positivity)]
      · rw [cosHemiPdf, if_neg hw, ENNReal.ofReal_zero, ENNReal.ofReal_of_nonpos (not_lt.1 hw), mul_zero]
  · rw [Sky.shown, if_neg hs]
    have : ∀ ω, ENNReal.ofReal ((S.value r ω).1.get i) = 0 := by
      intro ω
      simp [Sky.value, hs, zero_get]
    rw [lintegral_congr this, lintegral_zero]

theorem Sky.shown_le {S : Sky} (h : S.Lawful) (r : Ray) : S.shown r ≤ 1 := by
  rw [← ambient_mean h S.renders_value 0 r]
  calc _ ≤ ∫⁻ _, (1 : ℝ≥0∞) ∂uniform := by
        refine lintegral_mono fun ω => ?_
        unfold Sky.value
        split_ifs <;> simp [zero_get, white_get]
    _ = 1 := by simp

variable {ray : ℝ × ℝ → ℝ × ℝ → Ray}

theorem Sky.lawful_value {S : Sky} (h : S.Lawful) (hcam : Measurable fun q : (ℝ × ℝ) × (ℝ × ℝ) => ray q.1 q.2) :
    Image.Lawful ray S.value where
  cam := hcam
  meas := Sky.measurable_value h
  fresh r := Sky.fresh_value h r
  nonneg r ω := by
    unfold Sky.value
    split_ifs <;> simp [NonNeg, white]
  bounded := ⟨1, ENNReal.one_ne_top, fun r c => by
    rw [ambient_mean h S.renders_value c r]
    exact Sky.shown_le h r⟩

/-- **C103, image.** For almost every stream of random numbers the image rendered by the ambient occlusion integrator is
defined for every number of samples, and each pixel tends to how open the points behind it are, filtered. -/
theorem ambient_image {S : Sky} (h : S.Lawful) {Li : Ray → Stream → V3 ℝ × Stream} (hLi : S.Renders Li)
    (hcam : Measurable fun q : (ℝ × ℝ) × (ℝ × ℝ) => ray q.1 q.2) (w hgt : ℕ) :
    ∀ᵐ ω ∂uniform, ∃ img : ℕ → Int → Int → Fin 3 → ℝ,
      (∀ spp, renderWith apiDefaultFilter w hgt spp ray Li ω = .ok (img spp)) ∧
      ∀ (x y : ℕ) (c : Fin 3), x < w → y < hgt → Tendsto (fun spp => img spp x y c) atTop
        (𝓝 (filtered apiDefaultFilter w hgt x y (Image.lightAt ray S.shown)).toReal) := by
  have hm : ∀ c : Fin 3, (fun r => ∫⁻ ω, ENNReal.ofReal ((S.value r ω).1.get c) ∂uniform) = S.shown := by
    intro c
    funext r
    exact ambient_mean h S.renders_value c r
  have hLi' := hLi.eq
  subst hLi'
  filter_upwards [default_filter_converges (Sky.lawful_value h hcam) w hgt] with ω ⟨img, h1, h2⟩
  refine ⟨img, h1, fun x y c hx hy => ?_⟩
  have := h2 x y c hx hy
  rwa [hm c] at this

/-! ## A concrete scene: a lid with a round hole -/

/-- One visible point, the origin, on a floor with normal up. At height 1 there is a lid over everything with a round
hole of radius `1/√3` above the point: a ray from the point hits the lid if it goes up and passes the height 1 outside of
the hole. -/
noncomputable def lid : Sky where
  seen _ := true
  point _ := 0
  geom _ := ⟨⟨1, 0, 0⟩, ⟨0, 1, 0⟩, ⟨0, 0, 1⟩⟩
  blocked r := decide (0 < r.2.z ∧ r.2.z * r.2.z < 3 * (r.2.x * r.2.x + r.2.y * r.2.y))

theorem lid_lawful : lid.Lawful where
  seen := measurable_const
  point := measurable_const
  geom_s := measurable_const
  geom_t := measurable_const
  geom_n := measurable_const
  geom r := by constructor <;> simp [lid, V3.dot]
  blocked := by
    have hx : Measurable fun r : Ray => r.2.x := measurable_x.comp measurable_snd
    have hy : Measurable fun r : Ray => r.2.y := measurable_y.comp measurable_snd
    have hz : Measurable fun r : Ray => r.2.z := measurable_z.comp measurable_snd
    have : MeasurableSet {r : Ray | 0 < r.2.z ∧ r.2.z * r.2.z < 3 * (r.2.x * r.2.x + r.2.y * r.2.y)} :=
      (measurableSet_lt measurable_const hz).inter
        (measurableSet_lt (hz.mul hz) (((hx.mul hx).add (hy.mul hy)).const_mul 3))
    refine measurable_to_bool ?_
    have e : (fun r : Ray => lid.blocked r) ⁻¹' {true} =
        {r : Ray | 0 < r.2.z ∧ r.2.z * r.2.z < 3 * (r.2.x * r.2.x + r.2.y * r.2.y)} := by
      ext r
      simp [lid]
    rw [e]
    exact this

/-- A quarter of the weight of the hemisphere falls into the hole. -/
theorem lid_shown (r : Ray) : lid.shown r = ENNReal.ofReal (1 / 4) := by
  rw [← ambient_mean lid_lawful lid.renders_value 0 r, Sky.mean_square lid_lawful 0 r rfl]
  have e : ∫⁻ s, (if lid.blocked (lid.shadowRay r s) then (0 : ℝ≥0∞) else 1) ∂square =
      ∫⁻ s, (Set.univ ×ˢ Set.Iic (1 / 4 : ℝ)).indicator 1 s ∂square := by
    have hae : ∀ᵐ s ∂square, s ∈ Set.Ioo (0 : ℝ) 1 ×ˢ Set.Ioo (0 : ℝ) 1 := by
      rw [square, Measure.prod_restrict]
      exact ae_restrict_mem (measurableSet_Ioo.prod measurableSet_Ioo)
    refine lintegral_congr_ae ?_
    filter_upwards [hae] with s hs
    obtain ⟨-, h0, h1⟩ := hs
    have hc := Real.cos_sq_add_sin_sq (2 * Real.pi * s.1)
    have hr := Real.mul_self_sqrt h0.le
    have hxy : Real.cos (2 * Real.pi * s.1) * √s.2 * (Real.cos (2 * Real.pi * s.1) * √s.2) +
        Real.sin (2 * Real.pi * s.1) * √s.2 * (Real.sin (2 * Real.pi * s.1) * √s.2) = s.2 := by
      linear_combination s.2 * hc + (Real.cos (2 * Real.pi * s.1) ^ 2 + Real.sin (2 * Real.pi * s.1) ^ 2) * hr
    have hz : 0 < 1 - s.2 := sub_pos.2 h1
    have hz2 := Real.mul_self_sqrt hz.le
    have hb : lid.blocked (lid.shadowRay r s) = decide (¬ s.2 ≤ 1 / 4) := by
      simp only [lid, Sky.shadowRay, Frame.toWorld, cosHemi, uniDisk, V3.add_x, V3.add_y, V3.add_z, V3.smul_x, V3.smul_y,
        V3.smul_z, zero_add, add_zero, zero_mul, one_mul, sub_sub, hxy, max_eq_right hz.le, hz2]
      refine decide_eq_decide.2 ⟨fun h => ?_, fun h => ⟨Real.sqrt_pos.2 hz, ?_⟩⟩ <;> linarith
    rw [hb]
    by_cases hq : s.2 ≤ 1 / 4
    · simp [Set.indicator, show s.2 ≤ 4⁻¹ by linarith]
    · simp [Set.indicator, show ¬ s.2 ≤ 4⁻¹ by rwa [one_div] at hq]
  rw [e, lintegral_indicator_one (MeasurableSet.univ.prod measurableSet_Iic), square, Measure.prod_prod,
    Measure.restrict_apply measurableSet_Iic, Measure.restrict_apply MeasurableSet.univ]
  have : Set.Iic (1 / 4 : ℝ) ∩ Set.Ioo 0 1 = Set.Ioc 0 (1 / 4) := by
    ext t
    simp only [Set.mem_inter_iff, Set.mem_Iic, Set.mem_Ioo, Set.mem_Ioc]
    constructor
    · rintro ⟨a, b, c⟩; exact ⟨b, a⟩
    · rintro ⟨a, b⟩; exact ⟨b, a, by linarith⟩
  rw [this, Set.univ_inter, Real.volume_Ioo, Real.volume_Ioc]
  simp

/-- Every pixel of the image of the floor below the lid tends to a quarter. -/
example (w h : ℕ) : ∃ Li : Ray → Stream → V3 ℝ × Stream, lid.Renders Li ∧
    ∀ᵐ ω ∂uniform, ∃ img : ℕ → Int → Int → Fin 3 → ℝ,
      (∀ spp, renderWith apiDefaultFilter w h spp above Li ω = .ok (img spp)) ∧
      ∀ (x y : ℕ) (c : Fin 3), x < w → y < h → Tendsto (fun spp => img spp x y c) atTop (𝓝 (1 / 4)) := by
  refine ⟨_, lid.renders_value, ?_⟩
  filter_upwards [ambient_image lid_lawful lid.renders_value measurable_above w h] with ω ⟨img, h1, h2⟩
  refine ⟨img, h1, fun x y c hx hy => ?_⟩
  have := h2 x y c hx hy
  have hlight : Image.lightAt above lid.shown = fun _ => ENNReal.ofReal (1 / 4) := by
    funext p
    unfold Image.lightAt
    rw [lintegral_congr fun a => lid_shown (above p a), lintegral_const, measure_univ, mul_one]
  rw [hlight, filtered_default_const _ _ _ _ hx hy, ENNReal.toReal_ofReal (by norm_num)] at this
  exact this

end Feign.Integrators
