import Verif.Integrators.MistProps

/-!
# C105: the equation for the light in a scene with media
-/

set_option linter.unusedSectionVars false
set_option linter.unusedSimpArgs false
set_option linter.unusedVariables false

namespace Feign.Integrators

open Sampling MeasureTheory Warp
open scoped ENNReal

variable {R M : Type} [MeasurableSpace R]

/-- Light carried back by paths of any length. -/
noncomputable def Mist.radiance (W : Mist R M) (i : Fin 3) (m : Option M) (r : R) : ℝ≥0∞ := ⨆ n, W.light i n m r

/-! ## Measurability -/

theorem measurable_directMist (W : Mist R M) (h : W.Lawful) (i : Fin 3) (m : Option M) : Measurable (W.direct i m) := by
  have : Measurable fun p : R × Stream => ENNReal.ofReal ((Vol.total (W.mat p.1) (W.lights m p.1 p.2).1).get i) :=
    ((measurable_get i).comp (measurable_fst.comp (h.lights m))).ennreal_ofReal
  exact this.lintegral_prod_right'

theorem measurable_glow (W : Mist R M) (h : W.Lawful) (i : Fin 3) (m : M) :
    Measurable fun p : R × ℝ => W.glow i m p.1 p.2 := by
  have h1 : Measurable fun p : (R × ℝ) × Stream =>
      ENNReal.ofReal ((Vol.total (fun _ => white) (W.inside m p.1.1 p.1.2 p.2).1).get i) :=
    ((measurable_get i).comp (measurable_fst.comp (h.inside m))).ennreal_ofReal
  have h2 : Measurable fun p : R × Stream => ENNReal.ofReal (W.phase m p.1 (W.turn m p.1 p.2).1) :=
    ((h.phase m).comp (measurable_fst.prodMk (measurable_fst.comp (h.turn m)))).ennreal_ofReal
  have h3 : Measurable fun r => ∫⁻ ω, ENNReal.ofReal (W.phase m r (W.turn m r ω).1) ∂uniform := h2.lintegral_prod_right'
  exact h1.lintegral_prod_right'.mul (h3.comp measurable_fst)

theorem measurable_haze (W : Mist R M) (h : W.Lawful) (i : Fin 3) (m : M) {L : R → ℝ≥0∞} (hL : Measurable L) :
    Measurable fun p : R × ℝ => W.haze i m p.1 p.2 L := by
  have ht : Measurable fun p : (R × ℝ) × Stream => (W.turn m p.1.1 p.2).1 :=
    measurable_fst.comp ((h.turn m).comp ((measurable_fst.comp measurable_fst).prodMk measurable_snd))
  have h1 : Measurable fun p : (R × ℝ) × Stream => L (W.onward p.1.1 p.1.2 (W.turn m p.1.1 p.2).1) :=
    hL.comp (h.onward.comp ((measurable_fst.comp measurable_fst).prodMk
      ((measurable_snd.comp measurable_fst).prodMk ht)))
  exact (measurable_glow W h i m).add h1.lintegral_prod_right'

theorem measurable_bounceFactor {α : Type} [MeasurableSpace α] (i : Fin 3) {b : α → Bounce R} (hb : Measurable b) :
    Measurable fun a => factor false i (b a) := by
  have h1 : Measurable fun a => (b a).pdf := measurable_fst.comp (measurable_snd.comp hb)
  have h2 : Measurable fun a => (b a).cos := measurable_fst.comp (measurable_snd.comp (measurable_snd.comp hb))
  have h3 : Measurable fun a => (b a).albedo := measurable_fst.comp hb
  unfold factor
  refine Measurable.ite (h1 (measurableSet_singleton 0)) measurable_const ?_
  exact (((measurable_get i).comp h3).mul (continuous_abs.measurable.comp h2)).div h1

theorem measurable_sheen (W : Mist R M) (h : W.Lawful) (i : Fin 3) (m : Option M) {L : R → ℝ≥0∞} (hL : Measurable L) :
    Measurable fun r => W.sheen i m r L := by
  have hb : Measurable fun p : R × Stream => (W.scatter p.1 p.2).1 := measurable_fst.comp h.scatter
  have h1 : Measurable fun p : R × Stream =>
      ENNReal.ofReal (factor false i (W.scatter p.1 p.2).1) * L (W.scatter p.1 p.2).1.ray :=
    (measurable_bounceFactor i hb).ennreal_ofReal.mul
      (hL.comp (measurable_snd.comp (measurable_snd.comp (measurable_snd.comp hb))))
  exact (measurable_directMist W h i m).add h1.lintegral_prod_right'

theorem measurable_veiled (W : Mist R M) (h : W.Lawful) (i : Fin 3) (m : Option M) {fog : R → M → ℝ → ℝ≥0∞}
    {back : R → ℝ≥0∞} (hf : ∀ m, Measurable fun p : R × ℝ => fog p.1 m p.2) (hb : Measurable back) :
    Measurable fun r => W.veiled i m r (fog r) (back r) := by
  cases m with
  | none => exact hb
  | some m =>
    have h1 : Measurable fun p : R × Stream => (W.free m p.1 p.2).1 := measurable_fst.comp (h.free m)
    have hs : Measurable fun p : R × Stream => (W.free m p.1 p.2).1.scatters :=
      measurable_fst.comp (measurable_snd.comp h1)
    have ht : Measurable fun p : R × Stream => (W.free m p.1 p.2).1.t := measurable_snd.comp (measurable_snd.comp h1)
    have h2 : Measurable fun p : R × Stream => ENNReal.ofReal ((W.free m p.1 p.2).1.weight.get i) *
        (if (W.free m p.1 p.2).1.scatters = true then fog p.1 m (W.free m p.1 p.2).1.t else back p.1) :=
      (((measurable_get i).comp (measurable_fst.comp h1)).ennreal_ofReal).mul
        (measurable_bool_ite hs ((hf m).comp (measurable_fst.prodMk ht)) (hb.comp measurable_fst))
    exact h2.lintegral_prod_right'

theorem measurable_carriedMist [Countable M] (W : Mist R M) (h : W.Lawful) (i : Fin 3) (k : ℕ) : ∀ n m,
    Measurable fun r => W.carried i k n m r := by
  induction k with
  | zero => intro n m; simp only [Mist.carried]; exact measurable_const
  | succ k ih =>
    intro n m
    cases n with
    | zero => simp only [Mist.carried]; exact measurable_const
    | succ n =>
      simp only [Mist.carried]
      refine measurable_bool_ite h.escapes ((measurable_get i).comp h.env).ennreal_ofReal ?_
      refine measurable_veiled W h i m (fun m => measurable_haze W h i m (ih n (some m)))
        (measurable_bool_ite h.null ?_ (measurable_sheen W h i m (ih n m)))
      exact (measurable_select (g := fun m' r => W.carried i k (n + 1) m' (W.past r)) (b := fun r => W.beyond m r)
        (fun m' => (ih (n + 1) m').comp h.past) (h.beyond m))

/-! ## More passes, more vertices -/

theorem haze_mono (W : Mist R M) (i : Fin 3) (m : M) (r : R) (t : ℝ) {L L' : R → ℝ≥0∞} (hL : ∀ r, L r ≤ L' r) :
    W.haze i m r t L ≤ W.haze i m r t L' :=
  add_le_add le_rfl (lintegral_mono fun _ => hL _)

theorem sheen_mono (W : Mist R M) (i : Fin 3) (m : Option M) (r : R) {L L' : R → ℝ≥0∞} (hL : ∀ r, L r ≤ L' r) :
    W.sheen i m r L ≤ W.sheen i m r L' :=
  add_le_add le_rfl (lintegral_mono fun _ => mul_le_mul_right (hL _) _)

theorem veiled_mono (W : Mist R M) (i : Fin 3) (m : Option M) (r : R) {f f' : M → ℝ → ℝ≥0∞} {b b' : ℝ≥0∞}
    (hf : ∀ m t, f m t ≤ f' m t) (hb : b ≤ b') : W.veiled i m r f b ≤ W.veiled i m r f' b' := by
  cases m with
  | none => exact hb
  | some m =>
    refine lintegral_mono fun ω => mul_le_mul_right ?_ _
    split_ifs
    · exact hf _ _
    · exact hb

theorem carried_mono_passes (W : Mist R M) (i : Fin 3) (k : ℕ) : ∀ n m r,
    W.carried i k n m r ≤ W.carried i (k + 1) n m r := by
  induction k with
  | zero => intro n m r; cases n <;> simp [Mist.carried]
  | succ k ih =>
    intro n m r
    cases n with
    | zero => simp [Mist.carried]
    | succ n =>
      rw [Mist.carried, Mist.carried]
      by_cases he : W.escapes r = true
      · rw [if_pos he, if_pos he]
      · rw [if_neg he, if_neg he]
        refine veiled_mono W i m r (fun m t => haze_mono W i m r t (ih n (some m))) ?_
        split_ifs
        · exact ih _ _ _
        · exact sheen_mono W i m r (ih n m)

theorem carried_mono_vertices (W : Mist R M) (i : Fin 3) (k : ℕ) : ∀ n m r,
    W.carried i k n m r ≤ W.carried i k (n + 1) m r := by
  induction k with
  | zero => intro n m r; simp [Mist.carried]
  | succ k ih =>
    intro n m r
    cases n with
    | zero => simp [Mist.carried]
    | succ n =>
      rw [Mist.carried, Mist.carried]
      by_cases he : W.escapes r = true
      · rw [if_pos he, if_pos he]
      · rw [if_neg he, if_neg he]
        refine veiled_mono W i m r (fun m t => haze_mono W i m r t (ih n (some m))) ?_
        split_ifs
        · exact ih _ _ _
        · exact sheen_mono W i m r (ih n m)

theorem light_mono (W : Mist R M) (i : Fin 3) (n : ℕ) (m : Option M) (r : R) :
    W.light i n m r ≤ W.light i (n + 1) m r := iSup_mono fun k => carried_mono_vertices W i k n m r

/-! ## Suprema -/

theorem haze_iSup (W : Mist R M) (h : W.Lawful) (i : Fin 3) (m : M) (r : R) (t : ℝ) {L : ℕ → R → ℝ≥0∞}
    (mL : ∀ k, Measurable (L k)) (hL : ∀ k r, L k r ≤ L (k + 1) r) :
    ⨆ k, W.haze i m r t (L k) = W.haze i m r t fun r => ⨆ k, L k r := by
  unfold Mist.haze
  rw [← ENNReal.add_iSup]
  congr 1
  have mt : Measurable fun ω => W.onward r t (W.turn m r ω).1 :=
    h.onward.comp (measurable_const.prodMk (measurable_const.prodMk
      (measurable_fst.comp (h.turn_fresh m r).1)))
  have mk : ∀ k, Measurable fun ω => L k (W.onward r t (W.turn m r ω).1) := fun k => (mL k).comp mt
  exact (lintegral_iSup mk fun a b hab ω => monotone_nat_of_le_succ (fun k => hL k _) hab).symm

theorem sheen_iSup (W : Mist R M) (h : W.Lawful) (i : Fin 3) (m : Option M) (r : R) {L : ℕ → R → ℝ≥0∞}
    (mL : ∀ k, Measurable (L k)) (hL : ∀ k r, L k r ≤ L (k + 1) r) :
    ⨆ k, W.sheen i m r (L k) = W.sheen i m r fun r => ⨆ k, L k r := by
  unfold Mist.sheen
  rw [← ENNReal.add_iSup]
  congr 1
  have mb : Measurable fun ω => (W.scatter r ω).1 := measurable_fst.comp (h.scatter_fresh r).1
  have mr : Measurable fun ω => (W.scatter r ω).1.ray := measurable_snd.comp (measurable_snd.comp (measurable_snd.comp mb))
  simp only [ENNReal.mul_iSup]
  have mk : ∀ k, Measurable fun ω => ENNReal.ofReal (factor false i (W.scatter r ω).1) * L k (W.scatter r ω).1.ray :=
    fun k => (measurable_bounceFactor i mb).ennreal_ofReal.mul ((mL k).comp mr)
  exact (lintegral_iSup mk fun a b hab ω => mul_le_mul_right (monotone_nat_of_le_succ (fun k => hL k _) hab) _).symm

theorem veiled_iSup (W : Mist R M) (h : W.Lawful) (i : Fin 3) (m : Option M) (r : R) {f : ℕ → M → ℝ → ℝ≥0∞}
    {b : ℕ → ℝ≥0∞} (mf : ∀ k m, Measurable (f k m)) (hf : ∀ k m t, f k m t ≤ f (k + 1) m t) (hb : ∀ k, b k ≤ b (k + 1)) :
    ⨆ k, W.veiled i m r (f k) (b k) = W.veiled i m r (fun m t => ⨆ k, f k m t) (⨆ k, b k) := by
  cases m with
  | none => rfl
  | some m =>
    have h1 : Measurable fun ω => (W.free m r ω).1 := measurable_fst.comp (h.free_fresh m r).1
    have hs : Measurable fun ω => (W.free m r ω).1.scatters := measurable_fst.comp (measurable_snd.comp h1)
    have ht : Measurable fun ω => (W.free m r ω).1.t := measurable_snd.comp (measurable_snd.comp h1)
    have mk : ∀ k, Measurable fun ω => ENNReal.ofReal ((W.free m r ω).1.weight.get i) *
        (if (W.free m r ω).1.scatters = true then f k m (W.free m r ω).1.t else b k) := fun k =>
      (((measurable_get i).comp (measurable_fst.comp h1)).ennreal_ofReal).mul
        (measurable_bool_ite hs ((mf k m).comp ht) measurable_const)
    simp only [Mist.veiled]
    rw [← lintegral_iSup mk]
    · refine lintegral_congr fun ω => ?_
      rw [← ENNReal.mul_iSup]
      congr 1
      split_ifs <;> rfl
    · intro a c hac ω
      refine mul_le_mul_right ?_ _
      split_ifs
      · exact monotone_nat_of_le_succ (fun k => hf k m _) hac
      · exact monotone_nat_of_le_succ hb hac

theorem step_iSup (W : Mist R M) (h : W.Lawful) (i : Fin 3) (m : Option M) (r : R) (A B : ℕ → Option M → R → ℝ≥0∞)
    (mA : ∀ k m, Measurable (A k m)) (hA : ∀ k m r, A k m r ≤ A (k + 1) m r) (hB : ∀ k m r, B k m r ≤ B (k + 1) m r) :
    ⨆ k, W.veiled i m r (fun m t => W.haze i m r t (A k (some m)))
      (if W.null r = true then B k (W.beyond m r) (W.past r) else W.sheen i m r (A k m)) =
    W.veiled i m r (fun m t => W.haze i m r t fun r => ⨆ k, A k (some m) r)
      (if W.null r = true then ⨆ k, B k (W.beyond m r) (W.past r) else W.sheen i m r fun r => ⨆ k, A k m r) := by
  have mf : ∀ k m, Measurable fun t => W.haze i m r t (A k (some m)) := by
    intro k m
    have h2 : Measurable fun t : ℝ => (r, t) := measurable_prodMk_left
    have h3 : Measurable fun p : R × ℝ => W.haze i m p.1 p.2 (A k (some m)) := measurable_haze W h i m (mA k (some m))
    have h4 := h3.comp h2
    simp only [Function.comp_def] at h4
    exact h4
  have h1 := veiled_iSup W h i m r (f := fun k m t => W.haze i m r t (A k (some m)))
    (b := fun k => if W.null r = true then B k (W.beyond m r) (W.past r) else W.sheen i m r (A k m))
    mf
    (fun k m t => haze_mono W i m r t (hA k (some m)))
    (fun k => by
      split_ifs
      · exact hB k _ _
      · exact sheen_mono W i m r (hA k m))
  rw [h1]
  have e1 : (fun m t => ⨆ k, W.haze i m r t (A k (some m))) = fun m t => W.haze i m r t fun r => ⨆ k, A k (some m) r := by
    funext m t
    exact haze_iSup W h i m r t (fun k => mA k (some m)) fun k r => hA k (some m) r
  have e2 : (⨆ k, if W.null r = true then B k (W.beyond m r) (W.past r) else W.sheen i m r (A k m)) =
      if W.null r = true then ⨆ k, B k (W.beyond m r) (W.past r) else W.sheen i m r fun r => ⨆ k, A k m r := by
    split_ifs
    · rfl
    · exact sheen_iSup W h i m r (fun k => mA k m) fun k r => hA k m r
  rw [e1, e2]

/-! ## The equation -/

/-- No light without vertices. -/
theorem light_zero (W : Mist R M) (i : Fin 3) (m : Option M) (r : R) : W.light i 0 m r = 0 := by
  unfold Mist.light
  refine le_antisymm (iSup_le fun k => ?_) zero_le
  cases k <;> simp [Mist.carried]

theorem light_shift (W : Mist R M) (i : Fin 3) (n : ℕ) (m : Option M) (r : R) :
    W.light i n m r = ⨆ k, W.carried i (k + 1) n m r := by
  refine le_antisymm (iSup_mono fun k => carried_mono_passes W i k n m r) (iSup_le fun k => ?_)
  exact le_iSup (fun k => W.carried i k n m r) (k + 1)

/-- The light along a ray that hits nothing is the environment's. -/
theorem light_escape (W : Mist R M) (i : Fin 3) (n : ℕ) (m : Option M) (r : R) (he : W.escapes r = true) :
    W.light i (n + 1) m r = ENNReal.ofReal ((W.env r).get i) := by
  rw [light_shift]
  simp only [Mist.carried, he, if_true, iSup_const]

/-- **C105, the equation.** The light along a ray that hits something is what the medium lets arrive of the light
scattered in it and of the light from what is hit: behind a null surface the light there, with as many vertices; from
another surface its direct light and the light it sends on, with one vertex less. -/
theorem light_step [Countable M] (W : Mist R M) (h : W.Lawful) (i : Fin 3) (n : ℕ) (m : Option M) (r : R)
    (he : W.escapes r = false) :
    W.light i (n + 1) m r = W.veiled i m r (fun m t => W.haze i m r t (W.light i n (some m)))
      (if W.null r = true then W.light i (n + 1) (W.beyond m r) (W.past r) else W.sheen i m r (W.light i n m)) := by
  rw [light_shift]
  simp only [Mist.carried, he, Bool.false_eq_true, if_false]
  exact step_iSup W h i m r (fun k => W.carried i k n) (fun k => W.carried i k (n + 1))
    (fun k m => measurable_carriedMist W h i k n m) (fun k m r => carried_mono_passes W i k n m r)
    fun k m r => carried_mono_passes W i k (n + 1) m r

theorem measurable_lightMist [Countable M] (W : Mist R M) (h : W.Lawful) (i : Fin 3) (n : ℕ) (m : Option M) :
    Measurable fun r => W.light i n m r := by
  unfold Mist.light
  exact Measurable.iSup fun k => measurable_carriedMist W h i k n m

theorem radiance_shift (W : Mist R M) (i : Fin 3) (m : Option M) (r : R) :
    W.radiance i m r = ⨆ n, W.light i (n + 1) m r := by
  refine le_antisymm (iSup_mono fun k => light_mono W i k m r) (iSup_le fun k => ?_)
  exact le_iSup (fun n => W.light i n m r) (k + 1)

theorem radiance_escape (W : Mist R M) (i : Fin 3) (m : Option M) (r : R) (he : W.escapes r = true) :
    W.radiance i m r = ENNReal.ofReal ((W.env r).get i) := by
  rw [radiance_shift]
  simp only [light_escape W i _ m r he, iSup_const]

/-- **C105, the equation for paths of any length.** -/
theorem radiance_step [Countable M] (W : Mist R M) (h : W.Lawful) (i : Fin 3) (m : Option M) (r : R)
    (he : W.escapes r = false) :
    W.radiance i m r = W.veiled i m r (fun m t => W.haze i m r t (W.radiance i (some m)))
      (if W.null r = true then W.radiance i (W.beyond m r) (W.past r) else W.sheen i m r (W.radiance i m)) := by
  rw [radiance_shift]
  simp only [light_step W h i _ m r he]
  rw [step_iSup W h i m r (fun n => W.light i n) (fun n => W.light i (n + 1))
    (fun n m => measurable_lightMist W h i n m) (fun n m r => light_mono W i n m r)
    fun n m r => light_mono W i (n + 1) m r, radiance_shift W i (W.beyond m r)]
  rfl

/-- **C105, more bounces.** In a scene without losses the mean tends to the light carried back by paths of any length as
the number of bounces allowed grows. -/
theorem vol_mean_tendsto [Countable M] (W : Mist R M) (h : W.Lawful) (hm : W.Matte) (hb : W.Bright) (quot : ℝ → ℝ → ℝ)
    (hq : IsQuot quot) (env : Option M) (ray : R) (v : ℕ → Stream → V3 ℝ)
    (hv : ∀ n, W.Renders quot n env ray (v n)) (i : Fin 3) :
    Filter.Tendsto (fun n => ∫⁻ ω, ENNReal.ofReal ((v n ω).get i) ∂uniform) Filter.atTop
      (nhds (W.radiance i env ray)) := by
  simp only [fun n => vol_mean_bright W h hm hb quot hq n env ray (v n) (hv n) i]
  exact tendsto_atTop_iSup (monotone_nat_of_le_succ fun n => light_mono W i n env ray)

end Feign.Integrators
