import Verif.Integrators.RoomSpec

/-!
# C100: the rendering equation for diffuse, mirror and glass surfaces
-/

set_option linter.unusedSectionVars false

namespace Feign.Integrators

open Sampling MeasureTheory Warp Bsdf
open scoped ENNReal

theorem normal_toWorld {f : Frame} (h : f.Orthonormal) (w : V3 ℝ) : f.n.dot (f.toWorld w) = w.z := by
  have := congrArg V3.z (Frame.toLocal_toWorld f h w)
  rw [← this]
  simp only [Frame.toLocal, V3.dot]
  ring

theorem flip_image {f : Frame} (h : f.Orthonormal) (d : V3 ℝ) :
    f.toWorld ⟨-(f.toLocal (-d)).x, -(f.toLocal (-d)).y, (f.toLocal (-d)).z⟩ = mirrorImage f.n d := by
  have hd := Frame.toWorld_toLocal f h d
  have hx := congrArg V3.x hd
  have hy := congrArg V3.y hd
  have hz := congrArg V3.z hd
  simp only [Frame.toWorld, Frame.toLocal, V3.dot, V3.add_x, V3.add_y, V3.add_z, V3.smul_x, V3.smul_y,
    V3.smul_z] at hx hy hz
  ext <;> simp only [Frame.toWorld, Frame.toLocal, mirrorImage, V3.dot, V3.add_x, V3.add_y, V3.add_z, V3.smul_x,
    V3.smul_y, V3.smul_z, V3.neg_x, V3.neg_y, V3.neg_z, V3.sub_x, V3.sub_y, V3.sub_z]
  · linear_combination hx
  · linear_combination hy
  · linear_combination hz

theorem front_iff (S : Room) (r : Ray) : S.Front r ↔ ¬ (S.wi r).z ≤ 0 := not_le.symm

/-- The average over the sampled directions, for a diffuse surface. -/
theorem scatter_diffuse (S : Room) (h : S.Lawful) (i : Fin 3) (r : Ray) (hm : S.material r = .diffuse)
    (L : Ray → ℝ≥0∞) (hL : Measurable L) :
    ∫⁻ ω, ENNReal.ofReal (factor false i (S.scatter r ω).1) * L (S.scatter r ω).1.ray ∂uniform =
      open Classical in if S.Front r then S.lambert i r L else 0 := by
  classical
  have ho := h.frame r
  by_cases hf : S.Front r
  · have hz := (front_iff S r).1 hf
    rw [if_pos hf]
    have e : ∀ ω, S.scatter r ω = (S.onward r (lobe (S.albedo r) (next2 ω).1), (next2 ω).2) := by
      intro ω
      rw [scatter_eq, if_neg (by simp [hm]), if_neg hz, if_neg (by simp [hm])]
    simp only [e]
    -- the integrand in terms of the local direction
    have hfac : ∀ q : ℝ × ℝ, factor false i (S.onward r (lobe (S.albedo r) q)) =
        if (cosHemi ⟨q.1, q.2⟩).z = 0 then 0 else (S.albedo r).get i := by
      intro q
      have h0 : 0 ≤ (cosHemi ⟨q.1, q.2⟩).z := Real.sqrt_nonneg _
      have hpi := Real.pi_pos
      simp only [factor, Room.onward, Bounce.pdf, Bounce.albedo, Bounce.cos, lobe, normal_toWorld ho, get_smul,
        Bool.false_eq_true, if_false]
      by_cases hq : (cosHemi ⟨q.1, q.2⟩).z = 0
      · simp [hq]
      · rw [if_neg hq, if_neg (by positivity), abs_of_nonneg h0]
        field_simp
    have mw := measurable_toWorld (S.frame r)
    have mg : Measurable fun w : V3 ℝ => ENNReal.ofReal (if w.z = 0 then 0 else (S.albedo r).get i) *
        L (S.point r, (S.frame r).toWorld w) :=
      (Measurable.ite (measurable_z (measurableSet_singleton 0)) measurable_const measurable_const).ennreal_ofReal.mul
        (hL.comp (measurable_const.prodMk mw))
    have mg2 : Measurable fun p : (ℝ × ℝ) × Stream => ENNReal.ofReal (factor false i
        (S.onward r (lobe (S.albedo r) p.1))) * L (S.onward r (lobe (S.albedo r) p.1)).ray := by
      simp only [hfac]
      exact mg.comp (measurable_cosHemi.comp measurable_fst)
    rw [lintegral_next2 (fun p => ENNReal.ofReal (factor false i (S.onward r (lobe (S.albedo r) p.1))) *
      L (S.onward r (lobe (S.albedo r) p.1)).ray) mg2]
    simp only [lintegral_const, measure_univ, mul_one, hfac]
    have e2 : ∫⁻ q, ENNReal.ofReal (if (cosHemi ⟨q.1, q.2⟩).z = 0 then 0 else (S.albedo r).get i) *
        L (S.onward r (lobe (S.albedo r) q)).ray ∂square =
        ∫⁻ w, ENNReal.ofReal (if w.z = 0 then 0 else (S.albedo r).get i) * L (S.point r, (S.frame r).toWorld w)
          ∂(Measure.map (fun q : ℝ × ℝ => cosHemi ⟨q.1, q.2⟩) square) := by
      rw [lintegral_map mg measurable_cosHemi]
      rfl
    rw [e2, cosHemi_law, lintegral_withDensity_eq_lintegral_mul _ measurable_cosHemiPdf.ennreal_ofReal mg]
    unfold Room.lambert
    have mv : Measurable fun v : V3 ℝ => ENNReal.ofReal ((S.albedo r).get i / Real.pi) *
        ENNReal.ofReal ((S.frame r).n.dot v) * L (S.point r, v) :=
      ((measurable_dot measurable_const measurable_id).ennreal_ofReal.const_mul _).mul
        (hL.comp (measurable_const.prodMk measurable_id))
    conv_rhs => rw [← solidAngle_toWorld (S.frame r) ho]
    rw [lintegral_map mv mw]
    refine lintegral_congr fun w => ?_
    simp only [Pi.mul_apply, normal_toWorld ho]
    rw [← mul_assoc]
    congr 1
    have ha := (h.albedo_nonneg r).get i
    by_cases hw : 0 < w.z
    · rw [cosHemiPdf, if_pos hw, if_neg hw.ne', ← ENNReal.ofReal_mul (by positivity), ← ENNReal.ofReal_mul (by positivity)]
      congr 1
      ring
    · rw [cosHemiPdf, if_neg hw, ENNReal.ofReal_zero, zero_mul, ENNReal.ofReal_of_nonpos (not_lt.1 hw), mul_zero]
  · rw [if_neg hf]
    have hz : (S.wi r).z ≤ 0 := by
      by_contra hc
      exact hf ((front_iff S r).2 hc)
    have e : ∀ ω, S.scatter r ω = (Room.black r, ω) := by
      intro ω
      rw [scatter_eq, if_neg (by simp [hm]), if_pos hz]
    simp [e, Room.black, factor, Bounce.pdf]

/-- The same for a mirror: one direction. -/
theorem scatter_mirror (S : Room) (h : S.Lawful) (i : Fin 3) (r : Ray) (hm : S.material r = .mirror)
    (L : Ray → ℝ≥0∞) :
    ∫⁻ ω, ENNReal.ofReal (factor true i (S.scatter r ω).1) * L (S.scatter r ω).1.ray ∂uniform =
      open Classical in if S.Front r then S.specular i r L else 0 := by
  classical
  have ho := h.frame r
  by_cases hf : S.Front r
  · have hz := (front_iff S r).1 hf
    rw [if_pos hf]
    have e : ∀ ω, S.scatter r ω = (S.onward r (mirrored (S.albedo r) (S.wi r)), ω) := by
      intro ω
      rw [scatter_eq, if_neg (by simp [hm]), if_neg hz, if_pos hm]
    have hray : (S.onward r (mirrored (S.albedo r) (S.wi r))).ray = (S.point r, mirrorImage (S.frame r).n r.2) := by
      rw [← flip_image ho]
      rfl
    simp only [e, hray, factor]
    simp [Room.onward, mirrored, Bounce.pdf, Bounce.albedo, Room.specular]
  · rw [if_neg hf]
    have hz : (S.wi r).z ≤ 0 := by
      by_contra hc
      exact hf ((front_iff S r).2 hc)
    have e : ∀ ω, S.scatter r ω = (Room.black r, ω) := by
      intro ω
      rw [scatter_eq, if_neg (by simp [hm]), if_pos hz]
    simp [e, Room.black, factor, Bounce.pdf]

/-- **C100, diffuse surface.** Light arriving along a ray that hits a diffuse surface: what the surface emits, the direct
light, and Lambert's integral over the hemisphere of the light that arrives at the hit point. -/
theorem diffuse_light (S : Room) (h : S.Lawful) (i : Fin 3) (look : Bool) (r : Ray) (hs : S.seen r = true)
    (hm : S.material r = .diffuse) :
    S.world.light i look r = (if look then ENNReal.ofReal ((S.emitted r).get i) else 0) + S.world.direct i r +
      open Classical in if S.Front r then S.lambert i r (S.world.light i false) else 0 := by
  have hd : S.world.delta r = false := by simp [Room.world, hm, Material.isDelta]
  rw [rendering_equation S.world (room_lawful S h) i look r, if_neg (by simp [Room.world, hs]), hd]
  congr 1
  exact scatter_diffuse S h i r hm _ (Measurable.iSup fun n => (measurable_carried S.world (room_lawful S h) i n).comp
    (measurable_const.prodMk measurable_id))

/-- **C100, mirror.** -/
theorem mirror_light (S : Room) (h : S.Lawful) (i : Fin 3) (look : Bool) (r : Ray) (hs : S.seen r = true)
    (hm : S.material r = .mirror) :
    S.world.light i look r = (if look then ENNReal.ofReal ((S.emitted r).get i) else 0) +
      open Classical in if S.Front r then S.specular i r (S.world.light i true) else 0 := by
  have hd : S.world.delta r = true := by simp [Room.world, hm, Material.isDelta]
  rw [rendering_equation S.world (room_lawful S h) i look r, if_neg (by simp [Room.world, hs]), hd]
  have hdir : S.world.direct i r = 0 := by simp [World.direct, hd]
  rw [hdir, add_zero]
  congr 1
  exact scatter_mirror S h i r hm _

theorem scatter_glass (S : Room) (h : S.Lawful) (heps : 0 < S.eps) (i : Fin 3) (r : Ray) (hm : S.material r = .glass) (hd1 : r.2.sqrNorm = 1) (he : 0 < S.extIor r)
    (hi : 0 < S.intIor r) (hz : S.Front r ∨ (-r.2).dot (S.frame r).n < -S.eps) (p : ℝ)
    (hp : fresnel ((-r.2).dot (S.frame r).n) (S.extIor r) (S.intIor r) = some p) :
    0 ≤ p ∧ p ≤ 1 ∧ ∃ t : V3 ℝ, t = (S.frame r).toWorld (bent S.eps (S.intIor r) (S.extIor r) (S.wi r)) ∧
      (p < 1 → Refracts (S.extIor r) (S.intIor r) ((S.frame r).toLocal (-r.2)) ((S.frame r).toLocal t)) ∧
      ∀ L : Ray → ℝ≥0∞, ∫⁻ ω, ENNReal.ofReal (factor true i (S.scatter r ω).1) * L (S.scatter r ω).1.ray ∂uniform =
        ENNReal.ofReal ((S.albedo r).get i) *
          (ENNReal.ofReal p * L (S.point r, mirrorImage (S.frame r).n r.2) + ENNReal.ofReal (1 - p) * L (S.point r, t)) := by
  classical
  have ho := h.frame r
  have hw : (S.wi r).z = (-r.2).dot (S.frame r).n := rfl
  have hw1 : (S.wi r).sqrNorm = 1 := by
    have h1 := toWorld_sqrNorm (S.frame r) ho (S.wi r)
    rw [Room.wi, Frame.toWorld_toLocal _ ho] at h1
    rw [Room.wi, ← h1, ← hd1]
    simp [V3.sqrNorm]
  rw [← hw] at hp
  obtain ⟨hp0, hp1⟩ := (fresnel_partial (S.wi r).z _ _ he hi).1 p hp
  have hb : ∀ u, below u (fresnel (S.wi r).z (S.extIor r) (S.intIor r)) ↔ u < p := by
    intro u
    rw [hp]
    constructor
    · rintro ⟨x, hx, hu⟩; rwa [Option.some.inj hx]
    · intro hu; exact ⟨p, rfl, hu⟩
  refine ⟨hp0, hp1, (S.frame r).toWorld (bent S.eps (S.intIor r) (S.extIor r) (S.wi r)), rfl, ?_, ?_⟩
  · intro hlt
    rw [Frame.toLocal_toWorld _ ho]
    have hwo := glass_wo S.eps (S.intIor r) (S.extIor r) (S.albedo r) (S.wi r) p
    rw [if_neg (by rw [hb]; exact lt_irrefl p)] at hwo
    rcases (dielectric_partial S.eps (S.extIor r) (S.intIor r) heps he hi (S.albedo r) (S.wi r) hw1 hz p hlt).2.2 with
      h' | h'
    · exact absurd ((hb p).mp h'.1) (lt_irrefl p)
    · rw [← hwo]; exact h'.2.1
  · intro L
    have e : ∀ ω, S.scatter r ω = (S.onward r (dielectricSample S.eps (S.intIor r) (S.extIor r) (S.albedo r)
        (S.wi r) (next ω).1), (next ω).2) := by
      intro ω
      rw [scatter_eq, if_pos hm]
    have hray : ∀ u, (S.onward r (dielectricSample S.eps (S.intIor r) (S.extIor r) (S.albedo r) (S.wi r) u)).ray =
        if u < p then (S.point r, mirrorImage (S.frame r).n r.2)
          else (S.point r, (S.frame r).toWorld (bent S.eps (S.intIor r) (S.extIor r) (S.wi r))) := by
      intro u
      simp only [Room.onward, Bounce.ray, glass_wo, hb]
      split_ifs
      · rw [← flip_image ho]; rfl
      · rfl
    have hfac : ∀ u, factor true i (S.onward r (dielectricSample S.eps (S.intIor r) (S.extIor r) (S.albedo r)
        (S.wi r) u)) = (S.albedo r).get i := by
      intro u
      simp [factor, Room.onward, Bounce.pdf, Bounce.albedo, glass_plain]
    simp only [e, hfac, hray]
    set A := L (S.point r, mirrorImage (S.frame r).n r.2)
    set B := L (S.point r, (S.frame r).toWorld (bent S.eps (S.intIor r) (S.extIor r) (S.wi r)))
    have hAB : ∀ u : ℝ, L (if u < p then (S.point r, mirrorImage (S.frame r).n r.2)
          else (S.point r, (S.frame r).toWorld (bent S.eps (S.intIor r) (S.extIor r) (S.wi r)))) =
        if u < p then A else B := by
      intro u; split_ifs <;> rfl
    simp only [hAB]
    have mA : Measurable fun u : ℝ => if u < p then A else B :=
      Measurable.ite measurableSet_Iio measurable_const measurable_const
    have mA' : Measurable fun ω : Stream => if (next ω).1 < p then A else B :=
      mA.comp (measurable_fst.comp measurable_next)
    rw [lintegral_const_mul _ mA', lintegral_cons _ mA']
    congr 1
    have hflat : (∫⁻ u, ∫⁻ _ : Stream, (if u < p then A else B) ∂uniform ∂unit) =
        ∫⁻ u, (if u < p then A else B) ∂unit := by simp only [lintegral_const, measure_univ, mul_one]
    refine Eq.trans hflat ?_
    have hsplit : (fun u : ℝ => if u < p then A else B) =
        fun u => (Set.Iio p).indicator (fun _ => A) u + (Set.Ici p).indicator (fun _ => B) u := by
      ext u
      by_cases hu : u < p
      · simp [hu, Set.indicator, not_le.2 hu]
      · simp [hu, Set.indicator, not_lt.1 hu]
    rw [hsplit, lintegral_add_left (measurable_const.indicator measurableSet_Iio),
      lintegral_indicator_const measurableSet_Iio, lintegral_indicator_const measurableSet_Ici]
    have h1 : unit (Set.Iio p) = ENNReal.ofReal p := by
      have : unit (Set.Iio p) = unit (Set.Iic p) := by
        unfold unit
        rw [Measure.restrict_apply measurableSet_Iio, Measure.restrict_apply measurableSet_Iic]
        refine measure_congr ?_
        exact (Iio_ae_eq_Iic).inter (ae_eq_refl _)
      rw [this, unit_Iic hp0 hp1]
    have h2 : unit (Set.Ici p) = ENNReal.ofReal (1 - p) := by
      have : Set.Ici p = (Set.Iio p)ᶜ := by ext; simp
      rw [this, prob_compl_eq_one_sub measurableSet_Iio, h1, ENNReal.ofReal_sub _ hp0, ENNReal.ofReal_one]
    rw [h1, h2, mul_comm A, mul_comm B]

/-- **C100, glass.** Where the reflectance is a number `p`, the surface sends on the light from the mirror direction and
the light from a refracted direction (one that follows Snell's law) in the proportion `p` to `1 - p`. -/
theorem glass_light (S : Room) (h : S.Lawful) (heps : 0 < S.eps) (i : Fin 3) (look : Bool) (r : Ray)
    (hs : S.seen r = true) (hm : S.material r = .glass) (hd1 : r.2.sqrNorm = 1) (he : 0 < S.extIor r)
    (hi : 0 < S.intIor r) (hz : S.Front r ∨ (-r.2).dot (S.frame r).n < -S.eps) (p : ℝ)
    (hp : fresnel ((-r.2).dot (S.frame r).n) (S.extIor r) (S.intIor r) = some p) :
    0 ≤ p ∧ p ≤ 1 ∧ ∃ t : V3 ℝ,
      (p < 1 → Refracts (S.extIor r) (S.intIor r) ((S.frame r).toLocal (-r.2)) ((S.frame r).toLocal t)) ∧
      S.world.light i look r = (if look then ENNReal.ofReal ((S.emitted r).get i) else 0) +
        ENNReal.ofReal ((S.albedo r).get i) *
          (ENNReal.ofReal p * S.world.light i true (S.point r, mirrorImage (S.frame r).n r.2) +
            ENNReal.ofReal (1 - p) * S.world.light i true (S.point r, t)) := by
  obtain ⟨hp0, hp1, t, -, ht, hL⟩ := scatter_glass S h heps i r hm hd1 he hi hz p hp
  refine ⟨hp0, hp1, t, ht, ?_⟩
  have hd : S.world.delta r = true := by simp [Room.world, hm, Material.isDelta]
  rw [rendering_equation S.world (room_lawful S h) i look r, if_neg (by simp [Room.world, hs]), hd]
  have hdir : S.world.direct i r = 0 := by simp [World.direct, hd]
  rw [hdir, add_zero]
  congr 1
  exact hL _

/-! ## A concrete scene: a grey floor under a white sky -/

/-- Floor `z = 0`, diffuse, of colour `(c, c, c)`, under a sky of brightness 1; no lights. -/
noncomputable def floor (c : ℝ) : Room where
  eps := 1 / 1000
  seen r := decide (0 < r.1.z ∧ r.2.z < 0)
  env _ := ⟨1, 1, 1⟩
  point r := ⟨r.1.x - r.2.x * (r.1.z / r.2.z), r.1.y - r.2.y * (r.1.z / r.2.z), 0⟩
  frame _ := ⟨⟨1, 0, 0⟩, ⟨0, 1, 0⟩, ⟨0, 0, 1⟩⟩
  material _ := .diffuse
  albedo _ := ⟨c, c, c⟩
  intIor _ := 1
  extIor _ := 1
  emitted _ := 0
  lights _ ω := ([], ω)

theorem floor_lawful (c : ℝ) (hc : 0 ≤ c) : (floor c).Lawful where
  seen := by
    have hs : MeasurableSet {r : Ray | 0 < r.1.z ∧ r.2.z < 0} :=
      (measurableSet_lt measurable_const (measurable_z.comp measurable_fst)).inter
        (measurableSet_lt (measurable_z.comp measurable_snd) measurable_const)
    refine measurable_to_bool ?_
    convert hs using 1
    ext r
    simp [floor]
  env := measurable_const
  env_nonneg _ := ⟨zero_le_one, zero_le_one, zero_le_one⟩
  point := by
    have hx : Measurable fun r : Ray => r.1.x := measurable_x.comp measurable_fst
    have hy : Measurable fun r : Ray => r.1.y := measurable_y.comp measurable_fst
    have hz : Measurable fun r : Ray => r.1.z := measurable_z.comp measurable_fst
    have kx : Measurable fun r : Ray => r.2.x := measurable_x.comp measurable_snd
    have ky : Measurable fun r : Ray => r.2.y := measurable_y.comp measurable_snd
    have kz : Measurable fun r : Ray => r.2.z := measurable_z.comp measurable_snd
    exact measurable_mk (hx.sub (kx.mul (hz.div kz))) (hy.sub (ky.mul (hz.div kz))) measurable_const
  frame_s := measurable_const
  frame_t := measurable_const
  frame_n := measurable_const
  frame _ := by constructor <;> simp [floor, V3.dot]
  material := measurable_const
  albedo := measurable_const
  albedo_nonneg _ := ⟨hc, hc, hc⟩
  intIor := measurable_const
  extIor := measurable_const
  emitted := measurable_const
  emitted_nonneg _ := NonNeg.zero
  lights := measurable_const.prodMk measurable_snd
  lights_fresh _ := fresh_pure 0
  lights_nonneg _ _ := NonNeg.zero

theorem sky (c : ℝ) (i : Fin 3) (n : ℕ) (look : Bool) (r : Ray) (hr : ¬ (0 < r.1.z ∧ r.2.z < 0)) :
    (floor c).world.carried i (n + 1) look r = 1 := by
  have : (floor c).world.escapes r = true := by simp only [Room.world, floor, decide_eq_false hr, Bool.not_false]
  rw [World.carried, if_pos this]
  fin_cases i <;> simp [Room.world, floor, V3.get]

theorem hemisphere_one : ∫⁻ v, ENNReal.ofReal (cosHemiPdf v) ∂solidAngle = 1 := by
  have h := congrArg (fun μ : Measure (V3 ℝ) => μ Set.univ) cosHemi_law
  rw [withDensity_apply _ MeasurableSet.univ, Measure.restrict_univ, Measure.map_apply measurable_cosHemi
    MeasurableSet.univ, Set.preimage_univ, measure_univ] at h
  exact h.symm

/-- Looking down at the floor, paths of at least two segments bring back exactly its colour. -/
theorem floor_carried (c : ℝ) (hc : 0 ≤ c) (i : Fin 3) (n : ℕ) (look : Bool) (r : Ray) (hz : 0 < r.1.z)
    (hd : r.2.z < 0) : (floor c).world.carried i (n + 2) look r = ENNReal.ofReal c := by
  classical
  have hl := floor_lawful c hc
  have he : ¬ (floor c).world.escapes r = true := by simp [Room.world, floor, hz, hd]
  have hdir : (floor c).world.direct i r = 0 := by
    simp only [World.direct, Room.world, floor, Material.isDelta, total, List.filter_nil, List.foldr_nil, get_zero]
    simp
  have hown : (if look = true then ENNReal.ofReal (((floor c).world.emitted r).get i) else 0) = 0 := by
    cases look <;> simp [Room.world, floor, get_zero]
  rw [World.carried, if_neg he, hdir, hown, add_zero, zero_add]
  have hsc := scatter_diffuse (floor c) hl i r rfl ((floor c).world.carried i (n + 1) false)
    ((measurable_carried _ (room_lawful _ hl) i (n + 1)).comp (measurable_const.prodMk measurable_id))
  have hf : (floor c).Front r := by
    simp only [Room.Front, floor, V3.dot, V3.neg_x, V3.neg_y, V3.neg_z]
    linarith
  rw [if_pos hf] at hsc
  refine Eq.trans hsc ?_
  unfold Room.lambert
  have hone : ∀ v, (floor c).world.carried i (n + 1) false ((floor c).point r, v) = 1 := by
    intro v
    exact sky c i n false _ (by simp [floor])
  simp only [hone, mul_one]
  have hci : ((floor c).albedo r).get i = c := by fin_cases i <;> rfl
  have hval : ∀ v : V3 ℝ, ENNReal.ofReal (((floor c).albedo r).get i / Real.pi) *
      ENNReal.ofReal (((floor c).frame r).n.dot v) = ENNReal.ofReal c * ENNReal.ofReal (cosHemiPdf v) := by
    intro v
    have hn : ((floor c).frame r).n.dot v = v.z := by simp [floor, V3.dot]
    rw [hci, hn]
    have hpi := Real.pi_pos
    by_cases hv : 0 < v.z
    · rw [cosHemiPdf, if_pos hv, ← ENNReal.ofReal_mul (by positivity), ← ENNReal.ofReal_mul hc]
      congr 1
      ring
    · rw [cosHemiPdf, if_neg hv, ENNReal.ofReal_zero, mul_zero, ENNReal.ofReal_of_nonpos (not_lt.1 hv), mul_zero]
  simp only [hval]
  rw [lintegral_const_mul _ measurable_cosHemiPdf.ennreal_ofReal, hemisphere_one, mul_one]

theorem floor_grey (c : ℝ) (hc : 1 / 10000 ≤ c) : (floor c).world.Grey := by
  have hl := floor_lawful c (by linarith)
  intro r ω hp
  refine ⟨c, hc, fun i => ?_⟩
  have hd : (floor c).world.delta r = false := rfl
  have hs : (floor c).world.scatter r ω = (floor c).scatter r ω := rfl
  rw [hs, scatter_eq] at hp
  rw [hs, scatter_eq, hd]
  have hm : (floor c).material r = .diffuse := rfl
  rw [if_neg (by simp [hm])] at hp ⊢
  by_cases hz : ((floor c).wi r).z ≤ 0
  · rw [if_pos hz] at hp
    exact absurd rfl hp
  · rw [if_neg hz, if_neg (by simp [hm])] at hp ⊢
    have h0 : 0 ≤ (cosHemi ⟨(next2 ω).1.1, (next2 ω).1.2⟩).z := Real.sqrt_nonneg _
    have hpi := Real.pi_pos
    simp only [Room.onward, Bounce.pdf, lobe] at hp
    have hq : (cosHemi ⟨(next2 ω).1.1, (next2 ω).1.2⟩).z ≠ 0 := fun hq => hp (by rw [hq, mul_zero])
    have hci : ((floor c).albedo r).get i = c := by fin_cases i <;> rfl
    simp only [factor, Room.onward, Bounce.pdf, Bounce.albedo, Bounce.cos, lobe, normal_toWorld (hl.frame r), get_smul,
      Bool.false_eq_true, if_false, if_neg hp, hci]
    rw [abs_of_nonneg h0]
    field_simp

/-- The integrator's mean for the floor is exactly the floor's colour, for every bounce limit of at least 2. -/
example (quot : ℝ → ℝ → ℝ) (hq : IsQuot quot) (n : ℕ) (t : Running) (ht : Idle t) :
    ∃ v : Stream → V3 ℝ, (∀ ω, (floor (1 / 2)).world.Li quot (n + 2) (⟨0, 0, 1⟩, ⟨0, 0, -1⟩) ω t = .ok (v ω, t)) ∧
      ∀ i, ∫⁻ ω, ENNReal.ofReal ((v ω).get i) ∂uniform = ENNReal.ofReal (1 / 2) := by
  have hl := room_lawful _ (floor_lawful (1 / 2) (by norm_num))
  obtain ⟨v, hv, -⟩ := path_mean (floor (1 / 2)).world hl quot hq (n + 2) (⟨0, 0, 1⟩, ⟨0, 0, -1⟩) t ht
  refine ⟨v, hv, fun i => ?_⟩
  rw [path_mean_grey _ hl (floor_grey _ (by norm_num)) quot hq (n + 2) _ t ht v hv i]
  exact floor_carried _ (by norm_num) i n true _ (by norm_num) (by norm_num)

/-- The floor made of a mirror or of glass. -/
noncomputable def pane (m : Material) : Room := { floor 1 with material := fun _ => m, intIor := fun _ => 3 / 2 }

theorem pane_lawful (m : Material) : (pane m).Lawful :=
  { floor_lawful 1 zero_le_one with material := measurable_const, intIor := measurable_const }

theorem pane_sky (m : Material) (i : Fin 3) (look : Bool) (r : Ray) (hr : ¬ (0 < r.1.z ∧ r.2.z < 0)) :
    (pane m).world.light i look r = 1 := by
  have : (pane m).world.escapes r = true := by simp only [Room.world, pane, floor, decide_eq_false hr, Bool.not_false]
  rw [rendering_equation _ (room_lawful _ (pane_lawful m)), if_pos this]
  fin_cases i <;> simp [Room.world, pane, floor, V3.get]

/-- A white mirror shows the sky. -/
example (i : Fin 3) : (pane .mirror).world.light i true (⟨0, 0, 1⟩, ⟨0, 0, -1⟩) = 1 := by
  classical
  have hf : (pane .mirror).Front (⟨0, 0, 1⟩, ⟨0, 0, -1⟩) := by simp [Room.Front, pane, floor, V3.dot]
  rw [mirror_light _ (pane_lawful _) i true _ (by simp [pane, floor]) rfl, if_pos hf, Room.specular, pane_sky _ _ _ _ (by simp [pane, floor])]
  fin_cases i <;> simp [pane, floor, V3.get]

/-- Glass looked at along the normal: 4 % of the sky's light is reflected, and the rest comes through (from where the
sky is seen as well, since only rays from above hit this floor). -/
example (i : Fin 3) : fresnel 1 1 (3 / 2) = some (1 / 25) ∧
    (pane .glass).world.light i true (⟨0, 0, 1⟩, ⟨0, 0, -1⟩) = 1 := by
  have hf : fresnel 1 1 (3 / 2) = some (1 / 25) := by
    rw [fresnel_eq 1 1 (3 / 2) one_pos (by norm_num), if_neg (by norm_num), if_neg (by norm_num [sinToSqr]),
      if_neg one_ne_zero]
    norm_num
  refine ⟨hf, ?_⟩
  obtain ⟨-, -, t, -, h⟩ := glass_light (pane .glass) (pane_lawful _) (by norm_num [pane, floor]) i true
    (⟨0, 0, 1⟩, ⟨0, 0, -1⟩) (by simp [pane, floor]) rfl (by norm_num [V3.sqrNorm]) (by norm_num [pane, floor])
    (by norm_num [pane, floor]) (Or.inl (by simp [Room.Front, pane, floor, V3.dot])) (1 / 25)
    (by simpa [pane, floor, V3.dot] using hf)
  rw [h, pane_sky _ _ _ _ (by simp [pane, floor]), pane_sky _ _ _ _ (by simp [pane, floor]), mul_one, mul_one,
    ← ENNReal.ofReal_add (by norm_num) (by norm_num)]
  fin_cases i <;> norm_num [pane, floor, V3.get]

end Feign.Integrators
