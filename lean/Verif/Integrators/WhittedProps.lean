import Verif.Integrators.WhittedLemmas

/-!
# C104: what Whitted's integrator shows on average
-/

set_option linter.unusedSectionVars false
set_option linter.unusedSimpArgs false
set_option linter.unusedVariables false

namespace Feign.Integrators

open Sampling MeasureTheory Warp
open scoped ENNReal

variable {R : Type} [MeasurableSpace R]

/-! ## It comes to an end -/

/-- **C104, depth.** The probability that the calls nest deeper than `n` is at most `0.95ⁿ`. -/
theorem whitted_depth (W : World R) (h : W.Lawful) (n : ℕ) (r : R) (t : Running) (ht : Idle t) :
    uniform {ω | W.whitted n r ω t = .ok (none, t)} ≤ ENNReal.ofReal (19 / 20) ^ n := by
  have : {ω | W.whitted n r ω t = .ok (none, t)} = {ω | W.chainDone n r ω = false} := by
    ext ω
    simp only [Set.mem_ofPred_eq, whitted_eq W n r ω t ht]
    cases W.chainDone n r ω <;> simp
  rw [this]
  exact running_le W h n r

theorem chain_ends (W : World R) (h : W.Lawful) (r : R) : ∀ᵐ ω ∂uniform, ∃ n, W.chainDone n r ω = true := by
  rw [ae_iff]
  have hle : ∀ n : ℕ, uniform {ω | ¬ ∃ n, W.chainDone n r ω = true} ≤ ENNReal.ofReal (19 / 20) ^ n := by
    intro n
    refine (measure_mono fun ω hω => ?_).trans (running_le W h n r)
    have : ¬ W.chainDone n r ω = true := fun hc => hω ⟨n, hc⟩
    simpa using this
  have hlim : Filter.Tendsto (fun n : ℕ => ENNReal.ofReal (19 / 20) ^ n) Filter.atTop (nhds 0) :=
    ENNReal.tendsto_pow_atTop_nhds_zero_of_lt_one (by rw [ENNReal.ofReal_lt_one]; norm_num)
  exact le_antisymm (ge_of_tendsto' hlim hle) zero_le

/-- **C104, termination.** Although the recursion has no limit, it ends with probability one. -/
theorem whitted_ends (W : World R) (h : W.Lawful) (r : R) :
    ∀ᵐ ω ∂uniform, ∃ fuel v, ∀ t, Idle t → W.whitted fuel r ω t = .ok (some v, t) := by
  filter_upwards [chain_ends W h r] with ω ⟨n, hn⟩
  exact ⟨n, W.chain n r ω, fun t ht => by rw [whitted_eq W n r ω t ht, if_pos hn]⟩

/-! ## The mean -/

/-- The scene as the integrator shows it: other surfaces emit twice what they do, specular ones nineteen twentieths. -/
noncomputable def World.asShown (W : World R) : World R :=
  { W with emitted := fun r => (W.emitted r).smul (if W.delta r then 19 / 20 else 2) }

/-- No specular surface reflects so little that the integrator takes it for nothing. -/
def World.Bright (W : World R) : Prop :=
  ∀ r ω, W.delta r = true → (W.scatter r ω).1.albedo = 0 ∨ 1 / 10000 ≤ (W.scatter r ω).1.albedo.maxValue

theorem mean_sup (W : World R) (h : W.Lawful) (r : R) (v : Stream → V3 ℝ) (hv : W.Whitted r v) (i : Fin 3) :
    ∫⁻ ω, ENNReal.ofReal ((v ω).get i) ∂uniform = ⨆ n, W.chainMean i n r := by
  unfold World.chainMean
  have hm : ∀ ω, Monotone fun n => ENNReal.ofReal ((W.chain n r ω).get i) := fun ω =>
    monotone_nat_of_le_succ fun n => ENNReal.ofReal_le_ofReal (chain_mono W h i n r ω)
  have mc : ∀ n, Measurable fun ω => ENNReal.ofReal ((W.chain n r ω).get i) := fun n =>
    ((measurable_get i).comp ((measurable_chain W h n).comp (measurable_const.prodMk measurable_id))).ennreal_ofReal
  rw [← lintegral_iSup mc fun a b hab ω => hm ω hab]
  refine lintegral_congr_ae ?_
  filter_upwards [chain_ends W h r] with ω ⟨n, hn⟩
  have hvω : v ω = W.chain n r ω :=
    hv ω n _ (fun _ => false) (fun _ _ => rfl) (by rw [whitted_eq W n r ω _ (fun _ _ => rfl), if_pos hn])
  rw [hvω]
  refine le_antisymm (le_iSup (fun n => ENNReal.ofReal ((W.chain n r ω).get i)) n) (iSup_le fun m => ?_)
  rcases le_total n m with hnm | hmn
  · rw [(chain_stable_le W hnm r ω hn).2]
  · exact hm ω hmn

theorem bright_zero (W : World R) (h : W.Lawful) (hb : W.Bright) (i : Fin 3) (r : R) (hd : W.delta r = true) (ω : Stream)
    (hz : isZero (chainBeta (W.scatter r ω).1) = true) : (W.scatter r ω).1.albedo.get i = 0 := by
  rcases hb r ω hd with h0 | h1
  · rw [h0, get_zero]
  · exfalso
    have hn := (h.scatter_nonneg r ω).1
    have key : ∀ j : Fin 3, |(chainBeta (W.scatter r ω).1).get j| < 1 / 10000 := by
      simp only [isZero, Bool.and_eq_true, decide_eq_true_eq] at hz
      intro j
      fin_cases j
      · exact hz.1.1
      · exact hz.1.2
      · exact hz.2
    have small : ∀ j : Fin 3, (W.scatter r ω).1.albedo.get j < 1 / 10000 := by
      intro j
      have h2 := (le_abs_self _).trans_lt (key j)
      rw [chainBeta, get_smul] at h2
      have h3 := hn.get j
      nlinarith
    have hx := small 0
    have hy := small 1
    have hz := small 2
    have : (W.scatter r ω).1.albedo.maxValue < 1 / 10000 := by
      simp only [V3.maxValue]
      split_ifs <;> assumption
    exact absurd h1 (not_le.2 this)

theorem chainMean_shown (W : World R) (h : W.Lawful) (hb : W.Bright) (i : Fin 3) (n : ℕ) : ∀ r,
    W.chainMean i n r = W.asShown.seenThrough i n r := by
  induction n with
  | zero => intro r; simp [World.chainMean, World.chain, World.seenThrough, get_zero]
  | succ n ih =>
    intro r
    rw [World.seenThrough]
    have h1 : W.asShown.escapes = W.escapes := rfl
    have h2 : W.asShown.delta = W.delta := rfl
    have h3 : W.asShown.scatter = W.scatter := rfl
    have h4 : W.asShown.direct i r = W.direct i r := rfl
    have h5 : W.asShown.env = W.env := rfl
    have h6 : W.asShown.emitted r = (W.emitted r).smul (if W.delta r then 19 / 20 else 2) := rfl
    have hE := (h.emitted_nonneg r).get i
    rw [h1, h2, h3, h4, h5, h6, get_smul]
    cases he : W.escapes r with
    | true => rw [chainMean_escape W i n r he]; simp
    | false =>
      cases hd : W.delta r with
      | true =>
        rw [chainMean_delta W h i n r he hd]
        simp only [Bool.false_eq_true, if_false, if_true]
        rw [ENNReal.ofReal_mul hE, mul_comm]
        congr 1
        refine lintegral_congr fun ω => ?_
        rw [← ih]
        split_ifs with hz
        · rw [bright_zero W h hb i r hd ω hz, ENNReal.ofReal_zero, zero_mul]
        · rfl
      | false =>
        rw [chainMean_plain W h i n r he hd]
        simp only [Bool.false_eq_true, if_false]
        rw [mul_two, ENNReal.ofReal_add hE hE, add_right_comm]

/-- **C104, what the mean is.** The mean of what the integrator returns is the light seen through specular surfaces in a
scene in which specular surfaces emit nineteen twentieths of what they do and other surfaces twice as much. -/
theorem whitted_mean_shown (W : World R) (h : W.Lawful) (hb : W.Bright) (r : R) (v : Stream → V3 ℝ)
    (hv : W.Whitted r v) (i : Fin 3) :
    ∫⁻ ω, ENNReal.ofReal ((v ω).get i) ∂uniform = W.asShown.seenLight i r := by
  rw [mean_sup W h r v hv i]
  exact iSup_congr fun n => chainMean_shown W h hb i n r

/-- **C104, mean.** In a scene whose surfaces do not emit (the light comes from the environment and from lights that are
sampled), and whose specular surfaces reflect either nothing or at least a ten-thousandth, the mean is exactly the light
seen through specular surfaces: the termination loses nothing. The full claim, for emitting and for very dark specular
surfaces too, is refuted below. -/
theorem whitted_mean_partial (W : World R) (h : W.Lawful) (hb : W.Bright) (hE : ∀ r, W.emitted r = 0) (r : R)
    (v : Stream → V3 ℝ) (hv : W.Whitted r v) (i : Fin 3) :
    ∫⁻ ω, ENNReal.ofReal ((v ω).get i) ∂uniform = W.seenLight i r := by
  rw [whitted_mean_shown W h hb r v hv i]
  have : W.asShown = W := by
    unfold World.asShown
    have he : (fun r => (W.emitted r).smul (if W.delta r then 19 / 20 else 2)) = W.emitted := by
      funext r
      rw [hE]
      ext <;> simp
    rw [he]
  rw [this]

/-- The light seen along a ray, as an equation. -/
theorem seenLight_step (W : World R) (h : W.Lawful) (i : Fin 3) (r : R) :
    W.seenLight i r = ⨆ n, W.seenThrough i (n + 1) r := by
  unfold World.seenLight
  refine le_antisymm (iSup_le fun n => ?_) (iSup_le fun n => le_iSup (fun n => W.seenThrough i n r) (n + 1))
  cases n with
  | zero => rw [World.seenThrough]; exact zero_le
  | succ n => exact le_iSup (fun n => W.seenThrough i (n + 1) r) n

/-! ## Concrete scenes -/

/-- Scenes with a fixed bounce at every surface. -/
noncomputable def plain (delta : Bool) (glow albedo sky : ℝ) : World Bool where
  escapes r := r
  env _ := ⟨sky, sky, sky⟩
  delta _ := delta
  emitted _ := ⟨glow, glow, glow⟩
  lights _ ω := ([], ω)
  scatter _ ω := ((⟨albedo, albedo, albedo⟩, 1, 1, true), ω)

theorem plain_lawful (delta : Bool) {glow albedo sky : ℝ} (h1 : 0 ≤ glow) (h2 : 0 ≤ albedo) (h3 : 0 ≤ sky) :
    (plain delta glow albedo sky).Lawful where
  escapes := measurable_id
  env := measurable_const
  env_nonneg _ := ⟨h3, h3, h3⟩
  delta := measurable_const
  emitted := measurable_const
  emitted_nonneg _ := ⟨h1, h1, h1⟩
  lights := measurable_const.prodMk measurable_snd
  lights_fresh _ := fresh_pure _
  lights_nonneg _ _ := NonNeg.zero
  scatter := measurable_const.prodMk measurable_snd
  scatter_fresh _ := fresh_pure _
  scatter_nonneg _ _ := ⟨⟨h2, h2, h2⟩, zero_le_one⟩

theorem plain_get (i : Fin 3) (c : ℝ) : (⟨c, c, c⟩ : V3 ℝ).get i = c := by fin_cases i <;> rfl

theorem plain_seen (glow albedo sky : ℝ) (i : Fin 3) :
    (plain true glow albedo sky).seenLight i false =
      ENNReal.ofReal glow + ENNReal.ofReal albedo * ENNReal.ofReal sky := by
  have h0 : ∀ n, (plain true glow albedo sky).seenThrough i (n + 1) true = ENNReal.ofReal sky := by
    intro n
    rw [World.seenThrough]
    simp [plain, plain_get]
  have h1 : ∀ n, (plain true glow albedo sky).seenThrough i (n + 2) false =
      ENNReal.ofReal glow + ENNReal.ofReal albedo * ENNReal.ofReal sky := by
    intro n
    rw [World.seenThrough]
    have : ∀ ω, (plain true glow albedo sky).seenThrough i (n + 1) ((plain true glow albedo sky).scatter false ω).1.ray =
        ENNReal.ofReal sky := fun ω => h0 n
    simp only [this]
    simp [plain, plain_get, Bounce.albedo]
  have hle : ∀ n, (plain true glow albedo sky).seenThrough i n false ≤
      ENNReal.ofReal glow + ENNReal.ofReal albedo * ENNReal.ofReal sky := by
    intro n
    match n with
    | 0 => rw [World.seenThrough]; exact zero_le
    | 1 =>
      rw [World.seenThrough]
      simp [plain, plain_get, World.seenThrough]
    | n + 2 => exact (h1 n).le
  refine le_antisymm (iSup_le hle) ?_
  rw [← h1 0]
  exact le_iSup (fun n => (plain true glow albedo sky).seenThrough i n false) 2

/-- A mirror of reflectance one half under a white sky shows one half. -/
example (v : Stream → V3 ℝ) (hv : (plain true 0 (1 / 2) 1).Whitted false v) (i : Fin 3) :
    ∫⁻ ω, ENNReal.ofReal ((v ω).get i) ∂uniform = ENNReal.ofReal (1 / 2) := by
  rw [whitted_mean_partial _ (plain_lawful true le_rfl (by norm_num) zero_le_one) ?_ (fun _ => rfl) false v hv i, plain_seen]
  · simp
  · intro r ω _
    right
    simp only [plain, Bounce.albedo, V3.maxValue]
    norm_num

/-- There is such a program. -/
theorem whitted_exists (W : World R) (r : R) : ∃ v, W.Whitted r v := by
  classical
  refine ⟨fun ω => if hn : ∃ n, W.chainDone n r ω = true then W.chain hn.choose r ω else 0, ?_⟩
  intro ω fuel x t ht hx
  rw [whitted_eq W fuel r ω t ht] at hx
  by_cases hd : W.chainDone fuel r ω = true
  · rw [if_pos hd] at hx
    have hxe : W.chain fuel r ω = x := by simpa using hx
    have hn : ∃ n, W.chainDone n r ω = true := ⟨fuel, hd⟩
    simp only [dif_pos hn]
    rw [← hxe]
    rcases le_total fuel hn.choose with h1 | h1
    · exact (chain_stable_le W h1 r ω hd).2
    · exact ((chain_stable_le W h1 r ω hn.choose_spec).2).symm
  · rw [if_neg hd] at hx
    simp at hx

/-- **C104 fails for emitting surfaces and for very dark mirrors.** A glowing diffuse surface shows twice what it emits; a
glowing mirror nineteen twentieths; a mirror of reflectance `9·10⁻⁵` under a sky of brightness `10⁶` shows nothing
instead of 90. -/
theorem whitted_mean_refuted (i : Fin 3) :
    (∀ v, (plain false 1 0 0).Whitted false v → ∫⁻ ω, ENNReal.ofReal ((v ω).get i) ∂uniform = 2) ∧
    (plain false 1 0 0).seenLight i false = 1 ∧
    (∀ v, (plain true 1 0 0).Whitted false v → ∫⁻ ω, ENNReal.ofReal ((v ω).get i) ∂uniform = ENNReal.ofReal (19 / 20)) ∧
    (plain true 1 0 0).seenLight i false = 1 ∧
    (∀ v, (plain true 0 (9 / 100000) 1000000).Whitted false v → ∫⁻ ω, ENNReal.ofReal ((v ω).get i) ∂uniform = 0) ∧
    (plain true 0 (9 / 100000) 1000000).seenLight i false = 90 := by
  have l1 := plain_lawful false (glow := 1) (albedo := 0) (sky := 0) (by norm_num) le_rfl le_rfl
  have l2 := plain_lawful true (glow := 1) (albedo := 0) (sky := 0) (by norm_num) le_rfl le_rfl
  have l3 := plain_lawful true (glow := 0) (albedo := 9 / 100000) (sky := 1000000) le_rfl (by norm_num) (by norm_num)
  have sup_const : ∀ (f : ℕ → ℝ≥0∞) (c : ℝ≥0∞), f 0 = 0 → (∀ n, f (n + 1) = c) → ⨆ n, f n = c := by
    intro f c f0 f1
    refine le_antisymm (iSup_le fun n => ?_) (by rw [← f1 0]; exact le_iSup f 1)
    cases n with
    | zero => rw [f0]; exact zero_le
    | succ n => exact (f1 n).le
  have z0 : ∀ W : World Bool, W.chainMean i 0 false = 0 := by
    intro W
    simp [World.chainMean, World.chain, get_zero]
  refine ⟨fun v hv => ?_, ?_, fun v hv => ?_, ?_, fun v hv => ?_, ?_⟩
  · rw [mean_sup _ l1 false v hv i]
    refine sup_const _ _ (z0 _) fun n => ?_
    rw [chainMean_plain _ l1 i n false rfl rfl]
    simp only [plain, plain_get, World.direct, total]
    simp [get_zero]
    norm_num
  · refine sup_const _ _ rfl fun n => ?_
    rw [World.seenThrough]
    simp only [plain, plain_get, World.direct, total]
    simp [get_zero]
  · rw [mean_sup _ l2 false v hv i]
    refine sup_const _ _ (z0 _) fun n => ?_
    rw [chainMean_delta _ l2 i n false rfl rfl]
    simp only [plain, plain_get, Bounce.albedo]
    simp
  · rw [plain_seen]; simp
  · rw [mean_sup _ l3 false v hv i]
    refine sup_const _ _ (z0 _) fun n => ?_
    rw [chainMean_delta _ l3 i n false rfl rfl]
    have hz : isZero (chainBeta (((⟨9 / 100000, 9 / 100000, 9 / 100000⟩, 1, 1, true) : Bounce Bool))) = true := by
      have : |(9 / 100000 : ℝ) * (1 / (19 / 20))| < 1 / 10000 := by rw [abs_lt]; norm_num
      simp only [isZero, chainBeta, Bounce.albedo, V3.smul_x, V3.smul_y, V3.smul_z, Bool.and_eq_true]
      exact ⟨⟨decide_eq_true this, decide_eq_true this⟩, decide_eq_true this⟩
    simp only [plain, plain_get, hz, if_true]
    simp
  · rw [plain_seen, ← ENNReal.ofReal_mul (by norm_num), ENNReal.ofReal_zero, zero_add]
    norm_num

/-- The programs the statements speak of exist. -/
example : (∃ v, (plain false 1 0 0).Whitted false v) ∧ (∃ v, (plain true 0 (1 / 2) 1).Whitted false v) :=
  ⟨whitted_exists _ _, whitted_exists _ _⟩

end Feign.Integrators
