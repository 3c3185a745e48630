import Verif.Integrators.FogLemmas

/-!
# C105: radiative transfer through homogeneous media
-/

set_option linter.unusedSectionVars false
set_option linter.unusedSimpArgs false
set_option linter.unusedVariables false

namespace Feign.Integrators

open Sampling MeasureTheory Warp Media
open scoped ENNReal

variable {M : Type}

/-! ## Directions and surfaces -/

theorem isoTurn_mean {g : V3 ℝ → ℝ≥0∞} (hg : Measurable g) :
    ∫⁻ ω, g (heading (isoTurn ω).1) ∂uniform = ENNReal.ofReal (1 / (4 * Real.pi)) * ∫⁻ v, g v ∂solidAngle := by
  have mu : Measurable fun q : ℝ × ℝ => uniSph ⟨q.1, q.2⟩ := measurable_uniSph
  have m1 : Measurable fun p : (ℝ × ℝ) × Stream => g (heading (uniSph ⟨p.1.1, p.1.2⟩)) :=
    hg.comp (measurable_heading.comp (mu.comp measurable_fst))
  have e1 : ∫⁻ ω, g (heading (isoTurn ω).1) ∂uniform = ∫⁻ q, g (heading (uniSph ⟨q.1, q.2⟩)) ∂square := by
    have := lintegral_next2 (fun p => g (heading (uniSph ⟨p.1.1, p.1.2⟩))) m1
    simp only [lintegral_const, measure_univ, mul_one] at this
    exact this
  have e2 : ∫⁻ q, g (heading (uniSph ⟨q.1, q.2⟩)) ∂square = ∫⁻ q, g (uniSph ⟨q.1, q.2⟩) ∂square := by
    unfold square
    rw [Measure.prod_restrict]
    refine setLIntegral_congr_fun (measurableSet_Ioo.prod measurableSet_Ioo) fun q hq => ?_
    have h1 := hq.2
    simp only [heading_unit ((uniSph_sqrNorm ⟨q.1, q.2⟩).2 h1.1.le h1.2.le)]
  have e3 : (fun v => ENNReal.ofReal (uniSphPdf v)) = fun _ => ENNReal.ofReal (1 / (4 * Real.pi)) := by
    funext v
    simp only [uniSphPdf]
  rw [e1, e2, ← lintegral_map hg mu, uniSph_law, e3, withDensity_const, lintegral_smul_measure, smul_eq_mul]

theorem haze_fog (S : Fog M) (h : S.Lawful) (i : Fin 3) (m : M) (r : Ray) (t : ℝ) {L : Ray → ℝ≥0∞}
    (hL : Measurable L) : S.mist.haze i m r t L = S.inscatter i m r L t := by
  unfold Mist.haze Fog.inscatter
  rw [mul_add]
  congr 1
  · have : S.mist.glow i m r t = S.lampsAt i m r t * ∫⁻ ω, ENNReal.ofReal (1 / (4 * Real.pi)) ∂uniform := rfl
    rw [this, lintegral_const, measure_univ, mul_one, mul_comm]
  · exact isoTurn_mean (g := fun v => L (r.1 + r.2.smul t, v)) (hL.comp measurable_prodMk_left)

theorem sheen_fog (S : Fog M) (h : S.Lawful) (i : Fin 3) (m : Option M) (r : Ray) {L : Ray → ℝ≥0∞}
    (hL : Measurable L) : S.mist.sheen i m r L = S.surface i m r L := by
  unfold Mist.sheen Fog.surface
  congr 1
  exact scatter_diffuse S.room h.room i r (h.matte r) L hL

/-! ## Through the medium -/

/-- A medium that scatters lets light arrive as its sampler draws distances: with the rate of the code. -/
theorem veiled_scatter (S : Fog M) (h : S.Lawful) (i : Fin 3) (m : M) (hs : ∀ i, 0 < (S.fluid m).sca.get i) (r : Ray)
    (hr : S.room.seen r = true) {g : ℝ → ℝ≥0∞} (hg : Measurable g) (G : M → ℝ → ℝ≥0∞) (hG : G m = g) (b : ℝ≥0∞) :
    S.mist.veiled i (some m) r G b =
      (∫⁻ t in Set.Ioo S.room.eps (S.dist r), ENNReal.ofReal ((S.fluid m).rate * (S.fluid m).albedo.get i *
        Real.exp (-(S.fluid m).rate * (t - S.room.eps))) * g t) +
        ENNReal.ofReal (Real.exp (-(S.fluid m).rate * (S.dist r - S.room.eps))) * b := by
  subst hG
  set f := S.fluid m with hf
  have hfl : f.Lawful := h.fluid m
  have hrate := rate_pos hfl hs
  have halb : 0 ≤ f.albedo.get i := by
    rw [albedo_get]
    exact (div_pos (hs i) (sigmaT_pos hfl hs i)).le
  set a := ENNReal.ofReal (f.albedo.get i) with ha
  have mr := measurable_reach f S.room.eps
  -- the integrand depends on one number
  let F : ℝ → ℝ≥0∞ := fun u =>
    if u ≠ 0 ∧ f.reach S.room.eps u < S.dist r then a * G m (f.reach S.room.eps u) else b
  have mF : Measurable F := by
    have hz : MeasurableSet {u : ℝ | u = 0} := measurableSet_singleton 0
    exact Measurable.ite ((hz.compl).inter (measurableSet_lt mr measurable_const))
      (measurable_const.mul (hg.comp mr)) measurable_const
  have e1 : S.mist.veiled i (some m) r G b = ∫⁻ ω, F (ω 0) ∂uniform := by
    unfold Mist.veiled
    refine lintegral_congr fun ω => ?_
    have hfree : S.mist.free m r ω = f.free S.room.eps (S.dist r) ω := rfl
    rw [hfree, free_scatter hfl hs]
    simp only [F]
    by_cases hc : ω 0 ≠ 0 ∧ f.reach S.room.eps (ω 0) < S.dist r
    · rw [if_pos hc, if_pos hc]
      rfl
    · rw [if_neg hc, if_neg hc]
      show ENNReal.ofReal ((white : V3 ℝ).get i) * (if (false : Bool) = true then _ else b) = b
      rw [white_get]
      simp
  have mF0 : Measurable fun ω : Stream => F (ω 0) := mF.comp (measurable_pi_apply 0)
  have e2 : ∫⁻ ω, F (ω 0) ∂uniform = ∫⁻ u, F u ∂unit := by
    rw [lintegral_cons _ mF0]
    refine lintegral_congr fun u => ?_
    change ∫⁻ _, F u ∂uniform = F u
    rw [lintegral_const, measure_univ, mul_one]
  have e3 : ∫⁻ u, F u ∂unit =
      ∫⁻ u, (if f.reach S.room.eps u < S.dist r then (fun t => a * G m t) (f.reach S.room.eps u) else b) ∂unit := by
    unfold unit
    refine setLIntegral_congr_fun measurableSet_Ioo fun u hu => ?_
    have : u ≠ 0 := hu.1.ne'
    simp only [F, this, ne_eq, not_false_eq_true, true_and]
  have mg : Measurable fun t => a * G m t := measurable_const.mul hg
  rw [e1, e2, e3, lintegral_reach hrate (h.ahead r hr) mg b]
  congr 1
  refine lintegral_congr fun t => ?_
  rw [← mul_assoc, ha, ← ENNReal.ofReal_mul (by positivity)]
  congr 2
  ring

/-- A medium that only absorbs. -/
theorem veiled_absorb (S : Fog M) (h : S.Lawful) (i : Fin 3) (m : M) (hs : (S.fluid m).sca = 0) (r : Ray)
    (G : M → ℝ → ℝ≥0∞) (b : ℝ≥0∞) :
    S.mist.veiled i (some m) r G b =
      ENNReal.ofReal (Real.exp (-(S.fluid m).extinction i * (S.dist r - S.room.eps))) * b := by
  unfold Mist.veiled
  have : ∀ ω, S.mist.free m r ω = (((S.fluid m).dim S.room.eps (S.dist r), false, S.dist r), ω) := fun ω =>
    free_absorb hs S.room.eps (S.dist r) ω
  simp only [this]
  show ∫⁻ _, ENNReal.ofReal (((S.fluid m).dim S.room.eps (S.dist r)).get i) *
    (if (false : Bool) = true then _ else b) ∂uniform = _
  simp only [Bool.false_eq_true, if_false, lintegral_const, measure_univ, mul_one, dim_get]

theorem unit_rate {f : Fluid} (hd : ∀ i, f.density.get i = f.density.get 0) (hu : ∀ i, f.abs.get i + f.sca.get i = 1)
    (i : Fin 3) : f.rate = f.extinction i := by
  obtain ⟨j, hj⟩ := maxOp_mem (f.D * f.sigmaT)
  unfold Fluid.rate
  rw [hj, get_mul, D_get, sigmaT_get, hu, mul_one, Fluid.extinction, Fluid.extinction, hu, hu, hd i, hd j]

/-- **C105, radiative transfer** along one stretch. -/
theorem veiled_transfer (S : Fog M) (h : S.Lawful) (i : Fin 3) (m : M) (hu : (S.fluid m).Unit) (r : Ray)
    (hr : S.room.seen r = true) {g : ℝ → ℝ≥0∞} (hg : Measurable g) (G : M → ℝ → ℝ≥0∞) (hG : G m = g) (b : ℝ≥0∞) :
    S.mist.veiled i (some m) r G b = (S.fluid m).transfer i S.room.eps (S.dist r) g b := by
  have absorb : (S.fluid m).sca = 0 →
      S.mist.veiled i (some m) r G b = (S.fluid m).transfer i S.room.eps (S.dist r) g b := by
    intro hs
    rw [veiled_absorb S h i m hs r G b, Fluid.transfer]
    have : (S.fluid m).scattering i = 0 := by
      unfold Fluid.scattering
      rw [hs, get_zero, mul_zero]
    simp [this]
  rcases hu with hs | ⟨hd, hu⟩
  · exact absorb hs
  · rcases (h.fluid m).sca with hs | hs
    · exact absorb hs
    · rw [veiled_scatter S h i m hs r hr hg G hG b, unit_rate hd hu i, Fluid.transfer]
      have : (S.fluid m).extinction i * (S.fluid m).albedo.get i = (S.fluid m).scattering i := by
        rw [albedo_get, sigmaT_get, hu, div_one, Fluid.extinction, Fluid.scattering, hu, mul_one]
      rw [this]

/-! ## The theorems -/

theorem measurable_inscatter (S : Fog M) (h : S.Lawful) (i : Fin 3) (m : M) (r : Ray) {L : Ray → ℝ≥0∞}
    (hL : Measurable L) : Measurable (S.inscatter i m r L) := by
  have h1 := measurable_haze S.mist (fog_lawful S h) i m hL
  have h2 : Measurable fun t : ℝ => (r, t) := measurable_prodMk_left
  have h3 := h1.comp h2
  simp only [Function.comp_def] at h3
  have h4 : (fun t => S.mist.haze i m r t L) = S.inscatter i m r L := funext fun t => haze_fog S h i m r t hL
  rw [← h4]
  exact h3

/-- **C105, radiative transfer.** In media with a grey density and coefficients that add up to one, or which only absorb,
the light carried back by paths with at most `n + 1` vertices along a ray that hits something satisfies the equation of
radiative transfer: the light scattered in along the way, and the light from what is hit, both weakened by the medium.
The full claim, for all coefficients, is refuted below. -/
theorem fog_transfer_partial [Countable M] (S : Fog M) (h : S.Lawful) (i : Fin 3) (n : ℕ) (m : M)
    (hu : (S.fluid m).Unit) (r : Ray) (hr : S.room.seen r = true) :
    S.mist.light i (n + 1) (some m) r = (S.fluid m).transfer i S.room.eps (S.dist r)
      (S.inscatter i m r (S.mist.light i n (some m)))
      (S.back i (S.mist.light i n) (S.mist.light i (n + 1)) (some m) r) := by
  have hl := fog_lawful S h
  have he : S.mist.escapes r = false := by
    show (!S.room.seen r) = false
    rw [hr]
    rfl
  have mL : ∀ m, Measurable (S.mist.light i n m) := fun m => measurable_lightMist S.mist hl i n m
  rw [light_step S.mist hl i n (some m) r he]
  have hb : (if S.mist.null r = true then S.mist.light i (n + 1) (S.mist.beyond (some m) r) (S.mist.past r)
      else S.mist.sheen i (some m) r (S.mist.light i n (some m))) =
      S.back i (S.mist.light i n) (S.mist.light i (n + 1)) (some m) r := by
    unfold Fog.back
    rw [sheen_fog S h i (some m) r (mL _)]
    rfl
  rw [hb]
  exact veiled_transfer S h i m hu r hr (measurable_inscatter S h i m r (mL (some m))) _
    (funext fun t => haze_fog S h i m r t (mL (some m))) _

/-- **C105, radiative transfer**, paths of any length. -/
theorem fog_radiance_partial [Countable M] (S : Fog M) (h : S.Lawful) (i : Fin 3) (m : M)
    (hu : (S.fluid m).Unit) (r : Ray) (hr : S.room.seen r = true) :
    S.mist.radiance i (some m) r = (S.fluid m).transfer i S.room.eps (S.dist r)
      (S.inscatter i m r (S.mist.radiance i (some m)))
      (S.back i (S.mist.radiance i) (S.mist.radiance i) (some m) r) := by
  have hl := fog_lawful S h
  have he : S.mist.escapes r = false := by
    show (!S.room.seen r) = false
    rw [hr]
    rfl
  have mL : ∀ m, Measurable (S.mist.radiance i m) := fun m =>
    Measurable.iSup fun n => measurable_lightMist S.mist hl i n m
  rw [radiance_step S.mist hl i (some m) r he]
  have hb : (if S.mist.null r = true then S.mist.radiance i (S.mist.beyond (some m) r) (S.mist.past r)
      else S.mist.sheen i (some m) r (S.mist.radiance i (some m))) =
      S.back i (S.mist.radiance i) (S.mist.radiance i) (some m) r := by
    unfold Fog.back
    rw [sheen_fog S h i (some m) r (mL _)]
    rfl
  rw [hb]
  exact veiled_transfer S h i m hu r hr (measurable_inscatter S h i m r (mL (some m))) _
    (funext fun t => haze_fog S h i m r t (mL (some m))) _

/-- **C105, between media.** Where there is no medium nothing is lost and nothing is added on the way. -/
theorem fog_vacuum [Countable M] (S : Fog M) (h : S.Lawful) (i : Fin 3) (n : ℕ) (r : Ray) (hr : S.room.seen r = true) :
    S.mist.light i (n + 1) none r = S.back i (S.mist.light i n) (S.mist.light i (n + 1)) none r := by
  have hl := fog_lawful S h
  have he : S.mist.escapes r = false := by
    show (!S.room.seen r) = false
    rw [hr]
    rfl
  rw [light_step S.mist hl i n none r he]
  unfold Fog.back
  rw [sheen_fog S h i none r (measurable_lightMist S.mist hl i n none)]
  rfl

/-- Surfaces that send on at least a ten-thousandth, media that scatter: no path is given up. -/
theorem fog_bright (S : Fog M) (h : S.Lawful) (hs : ∀ m i, 0 < (S.fluid m).sca.get i)
    (ha : ∀ r i, 1 / 10000 ≤ (S.room.albedo r).get i) : S.mist.Bright where
  clear m r ω hc := by
    have hfree : S.mist.free m r ω = (S.fluid m).free S.room.eps (S.dist r) ω := rfl
    rw [hfree, free_scatter (h.fluid m) (hs m)] at hc ⊢
    split_ifs at hc ⊢ with h1
    · cases hc
    all_goals rfl
  bounce r ω := by
    have hsc : S.mist.scatter r ω = S.room.scatter r ω := rfl
    rw [hsc, scatter_eq, if_neg (by simp [h.matte r])]
    by_cases hz : (S.room.wi r).z ≤ 0
    · rw [if_pos hz]
      exact Or.inl rfl
    · rw [if_neg hz, if_neg (by simp [h.matte r])]
      by_cases hq : (cosHemi ⟨(next2 ω).1.1, (next2 ω).1.2⟩).z = 0
      · left
        simp [Room.onward, Bounce.pdf, lobe, hq]
      · right
        intro i
        have h0 : 0 ≤ (cosHemi ⟨(next2 ω).1.1, (next2 ω).1.2⟩).z := Real.sqrt_nonneg _
        have hpi := Real.pi_pos
        have : factor false i (S.room.onward r (lobe (S.room.albedo r) (next2 ω).1)) = (S.room.albedo r).get i := by
          simp only [factor, Room.onward, Bounce.pdf, Bounce.albedo, Bounce.cos, lobe,
            normal_toWorld (h.room.frame r), get_smul, Bool.false_eq_true, if_false]
          rw [if_neg (by positivity), abs_of_nonneg h0]
          field_simp
        rw [this]
        exact ha r i

/-- **C105, images.** The mean of what the integrator returns for a scene of diffuse surfaces and media that scatter is
exactly the light carried back by paths with at most `maxBounces` vertices. -/
theorem fog_image_mean [Countable M] (S : Fog M) (h : S.Lawful) (hs : ∀ m i, 0 < (S.fluid m).sca.get i)
    (ha : ∀ r i, 1 / 10000 ≤ (S.room.albedo r).get i) (quot : ℝ → ℝ → ℝ) (hq : IsQuot quot) (maxBounces : ℕ)
    (env : Option M) (ray : Ray) (v : Stream → V3 ℝ) (hv : S.mist.Renders quot maxBounces env ray v) (i : Fin 3) :
    ∫⁻ ω, ENNReal.ofReal ((v ω).get i) ∂uniform = S.mist.light i maxBounces env ray :=
  vol_mean_bright S.mist (fog_lawful S h) (fog_matte S h) (fog_bright S h hs ha) quot hq maxBounces env ray v hv i

/-! ## No light is made -/

theorem mist_bounded {R : Type} (W : Mist R M) (i : Fin 3) (B : ℝ≥0∞)
    (henv : ∀ r, ENNReal.ofReal ((W.env r).get i) ≤ B)
    (hfree : ∀ m r ω, W.escapes r = false → (W.free m r ω).1.weight.get i ≤ 1)
    (hfac : ∀ r ω, factor false i (W.scatter r ω).1 ≤ 1) (hglow : ∀ m r t, W.glow i m r t = 0)
    (hdir : ∀ m r, W.direct i m r = 0) (k n : ℕ) (m : Option M) (r : R) : W.carried i k n m r ≤ B := by
  have mean : ∀ (w : Stream → ℝ) (g : Stream → ℝ≥0∞), (∀ ω, w ω ≤ 1) → (∀ ω, g ω ≤ B) →
      ∫⁻ ω, ENNReal.ofReal (w ω) * g ω ∂uniform ≤ B := by
    intro w g hw hg
    calc ∫⁻ ω, ENNReal.ofReal (w ω) * g ω ∂uniform ≤ ∫⁻ _, B ∂uniform := by
          refine lintegral_mono fun ω => ?_
          have h1 : ENNReal.ofReal (w ω) ≤ 1 := ENNReal.ofReal_le_one.2 (hw ω)
          calc ENNReal.ofReal (w ω) * g ω ≤ 1 * B := mul_le_mul' h1 (hg ω)
            _ = B := one_mul B
      _ = B := by rw [lintegral_const, measure_univ, mul_one]
  induction k generalizing n m r with
  | zero => exact zero_le
  | succ k ih =>
    cases n with
    | zero => exact zero_le
    | succ n =>
      unfold Mist.carried
      cases he : W.escapes r
      · simp only [Bool.false_eq_true, if_false]
        have hhaze : ∀ m t, W.haze i m r t (W.carried i k n (some m)) ≤ B := by
          intro m t
          unfold Mist.haze
          rw [hglow, zero_add]
          calc _ ≤ ∫⁻ _, B ∂uniform := lintegral_mono fun ω => ih _ _ _
            _ = B := by rw [lintegral_const, measure_univ, mul_one]
        have hback : (if W.null r = true then W.carried i k (n + 1) (W.beyond m r) (W.past r)
            else W.sheen i m r (W.carried i k n m)) ≤ B := by
          split_ifs
          · exact ih _ _ _
          · unfold Mist.sheen
            rw [hdir, zero_add]
            exact mean _ _ (fun ω => hfac r ω) fun ω => ih _ _ _
        unfold Mist.veiled
        cases m with
        | none => exact hback
        | some m =>
          refine mean _ _ (fun ω => hfree m r ω he) fun ω => ?_
          cases (W.free m r ω).1.scatters
          · exact hback
          · exact hhaze _ _
      · simp only [if_true]
        exact henv r

theorem factor_diffuse (S : Fog M) (h : S.Lawful) (i : Fin 3) (r : Ray) (ω : Stream) :
    factor false i (S.room.scatter r ω).1 = 0 ∨ factor false i (S.room.scatter r ω).1 = (S.room.albedo r).get i := by
  rw [scatter_eq, if_neg (by simp [h.matte r])]
  by_cases hz : (S.room.wi r).z ≤ 0
  · rw [if_pos hz]
    left
    simp [factor, Room.black, Bounce.pdf]
  · rw [if_neg hz, if_neg (by simp [h.matte r])]
    by_cases hq : (cosHemi ⟨(next2 ω).1.1, (next2 ω).1.2⟩).z = 0
    · left
      simp [factor, Room.onward, Bounce.pdf, lobe, hq]
    · right
      have h0 : 0 ≤ (cosHemi ⟨(next2 ω).1.1, (next2 ω).1.2⟩).z := Real.sqrt_nonneg _
      have hpi := Real.pi_pos
      simp only [factor, Room.onward, Bounce.pdf, Bounce.albedo, Bounce.cos, lobe,
        normal_toWorld (h.room.frame r), get_smul, Bool.false_eq_true, if_false]
      rw [if_neg (by positivity), abs_of_nonneg h0]
      field_simp

theorem fog_weight_le (S : Fog M) (h : S.Lawful) (i : Fin 3) (m : M) (r : Ray) (ω : Stream)
    (he : S.mist.escapes r = false) : (S.mist.free m r ω).1.weight.get i ≤ 1 := by
  have hr : S.room.seen r = true := by
    have : (!S.room.seen r) = false := he
    simpa using this
  have hfree : S.mist.free m r ω = (S.fluid m).free S.room.eps (S.dist r) ω := rfl
  rw [hfree]
  have hf := h.fluid m
  rcases hf.sca with hs | hs
  · rw [free_absorb hs]
    show ((S.fluid m).dim S.room.eps (S.dist r)).get i ≤ 1
    rw [dim_get]
    refine Real.exp_le_one_iff.2 ?_
    have h1 := h.ahead r hr
    have h2 : 0 ≤ (S.fluid m).extinction i := by
      unfold Fluid.extinction
      refine mul_nonneg (hf.density i).le (add_nonneg (hf.abs i) ?_)
      rw [hs, get_zero]
    nlinarith
  · rw [free_scatter hf hs]
    split_ifs
    · show (S.fluid m).albedo.get i ≤ 1
      rw [albedo_get, div_le_one (sigmaT_pos hf hs i), sigmaT_get]
      linarith [hf.abs i]
    all_goals
      show (white : V3 ℝ).get i ≤ 1
      rw [white_get]

/-- **C105, no light is made.** Without lights that are sampled, where no surface sends on more than it receives, what is
carried back is nowhere brighter than the environment, whatever the media. -/
theorem fog_bounded (S : Fog M) (h : S.Lawful) (i : Fin 3) (B : ℝ≥0∞)
    (henv : ∀ r, ENNReal.ofReal ((S.room.env r).get i) ≤ B) (hl : ∀ m r ω, (S.glints m r ω).1 = [])
    (hm : ∀ m r t ω, (S.motes m r t ω).1 = []) (ha : ∀ r, (S.room.albedo r).get i ≤ 1) (n : ℕ) (m : Option M)
    (r : Ray) : S.mist.light i n m r ≤ B := by
  refine iSup_le fun k => mist_bounded S.mist i B henv (fun m r ω => fog_weight_le S h i m r ω) ?_ ?_ ?_ k n m r
  · intro r ω
    rcases factor_diffuse S h i r ω with h1 | h1
    · exact h1.le.trans zero_le_one
    · exact h1.le.trans (ha r)
  · intro m r t
    have : S.mist.glow i m r t = S.lampsAt i m r t * ∫⁻ ω, ENNReal.ofReal (1 / (4 * Real.pi)) ∂uniform := rfl
    rw [this]
    unfold Fog.lampsAt
    simp only [hm, Vol.total, List.filter_nil, List.foldr_nil, get_zero, ENNReal.ofReal_zero, lintegral_const, zero_mul]
  · intro m r
    have : S.mist.direct i m r = ∫⁻ ω, ENNReal.ofReal ((Vol.total (Bsdf.diffuseEval (S.room.albedo r) (S.room.wi r))
      (S.glints m r ω).1).get i) ∂uniform := rfl
    rw [this]
    simp only [hl, Vol.total, List.filter_nil, List.foldr_nil, get_zero, ENNReal.ofReal_zero, lintegral_const, zero_mul]

/-- **C105, no light is made**, images: with a diffuse scene, any media and an environment of brightness at most `B`, the
mean of what the integrator returns is at most `B`. -/
theorem fog_image_bounded [Countable M] (S : Fog M) (h : S.Lawful) (quot : ℝ → ℝ → ℝ) (hq : IsQuot quot)
    (maxBounces : ℕ) (env : Option M) (ray : Ray) (v : Stream → V3 ℝ)
    (hv : S.mist.Renders quot maxBounces env ray v) (i : Fin 3) (B : ℝ≥0∞)
    (henv : ∀ r, ENNReal.ofReal ((S.room.env r).get i) ≤ B) (hl : ∀ m r ω, (S.glints m r ω).1 = [])
    (hm : ∀ m r t ω, (S.motes m r t ω).1 = []) (ha : ∀ r, (S.room.albedo r).get i ≤ 1) :
    ∫⁻ ω, ENNReal.ofReal ((v ω).get i) ∂uniform ≤ B :=
  (vol_mean_le S.mist (fog_lawful S h) (fog_matte S h) quot hq maxBounces env ray v hv i).trans
    (fog_bounded S h i B henv hl hm ha maxBounces env ray)

/-! ## A concrete scene: a medium below the plane `z = 1` -/

/-- A medium below the plane `z = 1`, nothing above it, and a white environment. -/
noncomputable def fogSlab (f : Fluid) : Fog Unit where
  room :=
    { floor 1 with
      seen := fun r => decide (0 < r.2.z ∧ r.2.z * (1 / 1000) ≤ 1 - r.1.z)
      point := fun r => ⟨r.1.x + r.2.x * ((1 - r.1.z) / r.2.z), r.1.y + r.2.y * ((1 - r.1.z) / r.2.z), 1⟩ }
  dist r := (1 - r.1.z) / r.2.z
  fluid _ := f
  null _ := true
  boundary r := some ⟨-r.2.z, some (), none⟩
  glints _ _ ω := ([], ω)
  motes _ _ _ ω := ([], ω)

theorem fogSlab_lawful {f : Fluid} (hf : f.Lawful) : (fogSlab f).Lawful where
  room :=
    { floor_lawful 1 zero_le_one with
      seen := by
        have hz : Measurable fun r : Ray => r.1.z := measurable_z.comp measurable_fst
        have kz : Measurable fun r : Ray => r.2.z := measurable_z.comp measurable_snd
        have hs : MeasurableSet {r : Ray | 0 < r.2.z ∧ r.2.z * (1 / 1000) ≤ 1 - r.1.z} :=
          (measurableSet_lt measurable_const kz).inter
            (measurableSet_le (kz.mul measurable_const) (measurable_const.sub hz))
        refine measurable_to_bool ?_
        convert hs using 1
        ext r
        simp [fogSlab]
      point := by
        have hx : Measurable fun r : Ray => r.1.x := measurable_x.comp measurable_fst
        have hy : Measurable fun r : Ray => r.1.y := measurable_y.comp measurable_fst
        have hz : Measurable fun r : Ray => r.1.z := measurable_z.comp measurable_fst
        have kx : Measurable fun r : Ray => r.2.x := measurable_x.comp measurable_snd
        have ky : Measurable fun r : Ray => r.2.y := measurable_y.comp measurable_snd
        have kz : Measurable fun r : Ray => r.2.z := measurable_z.comp measurable_snd
        exact measurable_mk (hx.add (kx.mul ((measurable_const.sub hz).div kz)))
          (hy.add (ky.mul ((measurable_const.sub hz).div kz))) measurable_const }
  matte _ := rfl
  dark _ := rfl
  dist := (measurable_const.sub (measurable_z.comp measurable_fst)).div (measurable_z.comp measurable_snd)
  ahead r hr := by
    have h : 0 < r.2.z ∧ r.2.z * (1 / 1000) ≤ 1 - r.1.z := by simpa [fogSlab] using hr
    show (1 / 1000 : ℝ) ≤ (1 - r.1.z) / r.2.z
    rw [le_div_iff₀ h.1]
    linarith [h.2]
  fluid _ := hf
  null := measurable_const
  beyond m m' := by
    have kz : Measurable fun r : Ray => -r.2.z := (measurable_z.comp measurable_snd).neg
    have hs : MeasurableSet {r : Ray | -r.2.z ≤ 0} := measurableSet_le kz measurable_const
    have : {r : Ray | (fogSlab f).mist.beyond m r = m'} =
        {r | -r.2.z ≤ 0 ∧ none = m'} ∪ {r | ¬ -r.2.z ≤ 0 ∧ some () = m'} := by
      ext r
      simp only [Set.mem_ofPred_eq, Set.mem_union, Mist.beyond, Fog.mist, fogSlab]
      split_ifs with hc <;> simp [hc]
    rw [this]
    exact (hs.inter (MeasurableSet.const _)).union (hs.compl.inter (MeasurableSet.const _))
  motes _ := measurable_const.prodMk measurable_snd
  motes_fresh _ _ _ := fresh_pure 0
  motes_nonneg _ _ _ _ := NonNeg.zero
  glints _ := measurable_const.prodMk measurable_snd
  glints_fresh _ _ := fresh_pure 0
  glints_nonneg _ _ _ := NonNeg.zero

/-- Above the plane there is nothing. -/
theorem fogSlab_past (f : Fluid) (r : Ray) : (fogSlab f).mist.escapes ((fogSlab f).mist.past r) = true := by
  show (!decide (0 < r.2.z ∧ r.2.z * (1 / 1000) ≤ 1 - (1 : ℝ))) = true
  rw [Bool.not_eq_true', decide_eq_false_iff_not]
  rintro ⟨h1, h2⟩
  linarith

theorem fogSlab_renders (f : Fluid) (quot : ℝ → ℝ → ℝ) (maxBounces : ℕ) (ray : Ray) :
    ∃ v, (fogSlab f).mist.Renders quot maxBounces (some ()) ray v := by
  refine renders_of_few (fogSlab f).mist 1 (fun r => if (fogSlab f).mist.escapes r = true then 0 else 1) ?_ ?_ quot _ _ _
  · intro r
    split_ifs <;> omega
  · intro r he _
    simp [fogSlab_past, he]

/-- Straight up from the origin. -/
def upward : Ray := (⟨0, 0, 0⟩, ⟨0, 0, 1⟩)

theorem fogSlab_seen (f : Fluid) : (fogSlab f).room.seen upward = true := by
  show decide ((0 : ℝ) < 1 ∧ (1 : ℝ) * (1 / 1000) ≤ 1 - 0) = true
  norm_num

theorem fogSlab_dist (f : Fluid) : (fogSlab f).dist upward = 1 := by
  show ((1 : ℝ) - 0) / 1 = 1
  norm_num

theorem fogSlab_inscatter (f : Fluid) (i : Fin 3) (t : ℝ) : (fogSlab f).inscatter i () upward (fun _ => 0) t = 0 := by
  have : (fogSlab f).lampsAt i () upward t = 0 := by
    unfold Fog.lampsAt
    show ∫⁻ _, ENNReal.ofReal ((0 : V3 ℝ).get i) ∂uniform = 0
    simp [get_zero]
  simp [Fog.inscatter, this]

/-- With one vertex: what passes without being scattered. -/
theorem fogSlab_light {f : Fluid} (hf : f.Lawful) (hs : ∀ i, 0 < f.sca.get i) (i : Fin 3) :
    (fogSlab f).mist.light i 1 (some ()) upward = ENNReal.ofReal (Real.exp (-f.rate * (999 / 1000))) := by
  have hS := fogSlab_lawful hf
  have hl := fog_lawful (fogSlab f) hS
  have he : (fogSlab f).mist.escapes upward = false := by
    show (!(fogSlab f).room.seen upward) = false
    rw [fogSlab_seen]
    rfl
  have h0 : (fogSlab f).mist.light i 0 (some ()) = fun _ => 0 := funext fun r => light_zero _ _ _ _
  rw [light_step (fogSlab f).mist hl i 0 (some ()) upward he, h0]
  have hG : (fun t => (fogSlab f).mist.haze i () upward t fun _ => 0) = fun _ => 0 := by
    funext t
    rw [haze_fog (fogSlab f) hS i () upward t measurable_const, fogSlab_inscatter]
  have hb : (if (fogSlab f).mist.null upward = true then
      (fogSlab f).mist.light i (0 + 1) ((fogSlab f).mist.beyond (some ()) upward) ((fogSlab f).mist.past upward)
      else (fogSlab f).mist.sheen i (some ()) upward fun _ => 0) = 1 := by
    have hn : (fogSlab f).mist.null upward = true := rfl
    rw [if_pos hn, light_escape _ _ _ _ _ (fogSlab_past f upward)]
    show ENNReal.ofReal ((⟨1, 1, 1⟩ : V3 ℝ).get i) = 1
    fin_cases i <;> exact ENNReal.ofReal_one
  rw [hb, veiled_scatter (fogSlab f) hS i () hs upward (fogSlab_seen f) (g := fun _ => 0) measurable_const
    (fun m t => (fogSlab f).mist.haze i m upward t ((fogSlab f).mist.light i 0 (some m))) (by rw [h0]; exact hG) 1]
  have he : (fogSlab f).room.eps = 1 / 1000 := rfl
  simp only [mul_zero, lintegral_zero, zero_add, mul_one, fogSlab_dist, he]
  congr 3
  norm_num

/-- A medium with coefficients that add up to two. -/
def milk : Fluid := ⟨⟨1, 1, 1⟩, ⟨1, 1, 1⟩, ⟨1, 1, 1⟩⟩

theorem milk_lawful : milk.Lawful where
  density i := by fin_cases i <;> exact one_pos
  abs i := by fin_cases i <;> exact zero_le_one
  sca := Or.inr fun i => by fin_cases i <;> exact one_pos

theorem milk_rate : milk.rate = 4 := by
  obtain ⟨j, hj⟩ := maxOp_mem (milk.D * milk.sigmaT)
  unfold Fluid.rate
  rw [hj, get_mul, D_get, sigmaT_get]
  fin_cases j <;> · simp only [Fluid.extinction, milk, V3.get]; norm_num

theorem milk_extinction (i : Fin 3) : milk.extinction i = 2 := by
  fin_cases i <;> · simp only [Fluid.extinction, milk, V3.get]; norm_num

/-- **C105, refuted in general.** Where the coefficients add up to two, radiative transfer lets `exp (-2 d)` of the
light behind the medium through, the images have `exp (-4 d)`. -/
theorem fog_transfer_refuted (quot : ℝ → ℝ → ℝ) (hq : IsQuot quot) (i : Fin 3) :
    (fogSlab milk).Lawful ∧ (fogSlab milk).room.seen upward = true ∧
    (∃ v, (fogSlab milk).mist.Renders quot 1 (some ()) upward v) ∧
    (∀ v, (fogSlab milk).mist.Renders quot 1 (some ()) upward v →
      ∫⁻ ω, ENNReal.ofReal ((v ω).get i) ∂uniform = ENNReal.ofReal (Real.exp (-4 * (999 / 1000)))) ∧
    ((fogSlab milk).fluid ()).transfer i (fogSlab milk).room.eps ((fogSlab milk).dist upward)
      ((fogSlab milk).inscatter i () upward fun _ => 0) 1 = ENNReal.ofReal (Real.exp (-2 * (999 / 1000))) ∧
    ENNReal.ofReal (Real.exp (-4 * (999 / 1000))) ≠ ENNReal.ofReal (Real.exp (-2 * (999 / 1000))) := by
  have hS := fogSlab_lawful milk_lawful
  have hs : ∀ i, 0 < milk.sca.get i := fun i => by fin_cases i <;> exact one_pos
  refine ⟨hS, fogSlab_seen _, fogSlab_renders _ _ _ _, ?_, ?_, ?_⟩
  · intro v hv
    rw [fog_image_mean (fogSlab milk) hS (fun _ => hs) ?_ quot hq 1 (some ()) upward v hv i, fogSlab_light milk_lawful hs,
      milk_rate]
    intro r j
    show (1 / 10000 : ℝ) ≤ (⟨1, 1, 1⟩ : V3 ℝ).get j
    fin_cases j <;> · simp only [V3.get]; norm_num
  · have he : (fogSlab milk).room.eps = 1 / 1000 := rfl
    have hf : (fogSlab milk).fluid () = milk := rfl
    simp only [Fluid.transfer, fogSlab_inscatter, mul_zero, lintegral_zero, zero_add, mul_one, fogSlab_dist, he, hf,
      milk_extinction]
    congr 3
    norm_num
  · intro hc
    rw [ENNReal.ofReal_eq_ofReal_iff (Real.exp_pos _).le (Real.exp_pos _).le, Real.exp_eq_exp] at hc
    norm_num at hc

/-- A medium that is three times as dense for the third channel as for the first. -/
noncomputable def tinted : Fluid := ⟨⟨1, 2, 3⟩, ⟨1 / 2, 1 / 2, 1 / 2⟩, ⟨1 / 2, 1 / 2, 1 / 2⟩⟩

theorem tinted_sca (i : Fin 3) : 0 < tinted.sca.get i := by
  fin_cases i <;> · simp only [tinted, V3.get]; norm_num

theorem tinted_lawful : tinted.Lawful where
  density i := by fin_cases i <;> · simp only [tinted, V3.get]; norm_num
  abs i := by fin_cases i <;> · simp only [tinted, V3.get]; norm_num
  sca := Or.inr tinted_sca

theorem tinted_rate : tinted.rate = 1 := by
  have hx : ∀ i, (tinted.D * tinted.sigmaT).get i = tinted.density.get i := by
    intro i
    rw [get_mul, D_get, sigmaT_get, Fluid.extinction]
    fin_cases i <;> · simp only [tinted, V3.get]; norm_num
  have h0 : (tinted.D * tinted.sigmaT).x = 1 := hx 0
  have h1 : (tinted.D * tinted.sigmaT).y = 2 := hx 1
  have h2 : (tinted.D * tinted.sigmaT).z = 3 := hx 2
  unfold Fluid.rate
  simp only [V3.maxOp, h0, h1, h2]
  norm_num

/-- **C105, refuted in general.** Coefficients that add up to one are not enough either: where the medium is three times
as dense for the third channel as for the first, the images let the same share of all channels through. -/
theorem fog_colour_refuted (quot : ℝ → ℝ → ℝ) (hq : IsQuot quot) :
    (fogSlab tinted).Lawful ∧ (∃ v, (fogSlab tinted).mist.Renders quot 1 (some ()) upward v) ∧
    (∀ v, (fogSlab tinted).mist.Renders quot 1 (some ()) upward v → ∀ i,
      ∫⁻ ω, ENNReal.ofReal ((v ω).get i) ∂uniform = ENNReal.ofReal (Real.exp (-1 * (999 / 1000)))) ∧
    tinted.extinction 2 = 3 := by
  have hS := fogSlab_lawful tinted_lawful
  refine ⟨hS, fogSlab_renders _ _ _ _, ?_, ?_⟩
  · intro v hv i
    rw [fog_image_mean (fogSlab tinted) hS (fun _ => tinted_sca) ?_ quot hq 1 (some ()) upward v hv i,
      fogSlab_light tinted_lawful tinted_sca, tinted_rate]
    intro r j
    show (1 / 10000 : ℝ) ≤ (⟨1, 1, 1⟩ : V3 ℝ).get j
    fin_cases j <;> · simp only [V3.get]; norm_num
  · simp only [Fluid.extinction, tinted, V3.get]
    norm_num

/-- Non-vacuity of `fog_transfer_partial` and `fog_image_mean`: a medium with coefficients that add up to one lets the
right share of the light through. -/
example (quot : ℝ → ℝ → ℝ) (hq : IsQuot quot) (i : Fin 3) : ∃ f : Fluid, f.Unit ∧ (∀ i, f.extinction i = 3) ∧
    (fogSlab f).Lawful ∧ ∃ v, (fogSlab f).mist.Renders quot 1 (some ()) upward v ∧
      ∫⁻ ω, ENNReal.ofReal ((v ω).get i) ∂uniform = ENNReal.ofReal (Real.exp (-3 * (999 / 1000))) := by
  let f : Fluid := ⟨⟨3, 3, 3⟩, ⟨1 / 2, 1 / 4, 1 / 4⟩, ⟨1 / 2, 3 / 4, 3 / 4⟩⟩
  have hd : ∀ i, f.density.get i = f.density.get 0 := fun i => by fin_cases i <;> rfl
  have hu : ∀ i, f.abs.get i + f.sca.get i = 1 := fun i => by
    fin_cases i <;> · simp only [f, V3.get]; norm_num
  have hs : ∀ i, 0 < f.sca.get i := fun i => by fin_cases i <;> · simp only [f, V3.get]; norm_num
  have hf : f.Lawful := ⟨fun i => by fin_cases i <;> · simp only [f, V3.get]; norm_num,
    fun i => by fin_cases i <;> · simp only [f, V3.get]; norm_num, Or.inr hs⟩
  have hx : ∀ i, f.extinction i = 3 := fun i => by
    rw [Fluid.extinction, hu, mul_one]
    fin_cases i <;> rfl
  have hS := fogSlab_lawful hf
  obtain ⟨v, hv⟩ := fogSlab_renders f quot 1 upward
  refine ⟨f, Or.inr ⟨hd, hu⟩, hx, hS, v, hv, ?_⟩
  rw [fog_image_mean (fogSlab f) hS (fun _ => hs) ?_ quot hq 1 (some ()) upward v hv i, fogSlab_light hf hs,
    unit_rate hd hu i, hx]
  intro r j
  show (1 / 10000 : ℝ) ≤ (⟨1, 1, 1⟩ : V3 ℝ).get j
  fin_cases j <;> · simp only [V3.get]; norm_num

/-- Non-vacuity of `fog_image_bounded`. -/
example (quot : ℝ → ℝ → ℝ) (hq : IsQuot quot) (i : Fin 3) (maxBounces : ℕ) (ray : Ray) :
    ∃ v, (fogSlab milk).mist.Renders quot maxBounces (some ()) ray v ∧
      ∫⁻ ω, ENNReal.ofReal ((v ω).get i) ∂uniform ≤ 1 := by
  obtain ⟨v, hv⟩ := fogSlab_renders milk quot maxBounces ray
  refine ⟨v, hv, fog_image_bounded (fogSlab milk) (fogSlab_lawful milk_lawful) quot hq maxBounces _ ray v hv i 1 ?_
    (fun _ _ _ => rfl) (fun _ _ _ _ => rfl) ?_⟩
  · intro r
    show ENNReal.ofReal ((⟨1, 1, 1⟩ : V3 ℝ).get i) ≤ 1
    fin_cases i <;> exact ENNReal.ofReal_one.le
  · intro r
    show (⟨1, 1, 1⟩ : V3 ℝ).get i ≤ 1
    fin_cases i <;> exact le_rfl

end Feign.Integrators
