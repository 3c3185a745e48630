import Verif.Integrators.BouncesLemmas
import Verif.Image.Unbiased

/-!
# C131: a higher bounce limit only adds light

With the same random numbers a camera ray brings back at least as much light under a higher limit; pictures rendered
with many samples get brighter, and what is still missing shrinks geometrically.
-/

set_option linter.unusedSectionVars false
set_option linter.unusedVariables false
set_option linter.unusedSimpArgs false

namespace Feign.Integrators

open Sampling MeasureTheory Warp Image _root_.Filter Topology
open scoped ENNReal

section Rays

variable {K M : Type} [Field K] [LinearOrder K] [IsStrictOrderedRing K]

/-- **C131, one ray.** Whatever the scene and the sampler answer, as long as nothing is negative: raising the limit of the
path integrator from `m` to `n` bounces lowers no channel of what a camera ray brings back. -/
theorem path_more_bounces (quot : K → K → K) (hq : IsQuot quot) {m n : ℕ} (hmn : m ≤ n) (ans : ℕ → Answer K)
    (h : ∀ k, NonNegAnswer (ans k)) (r : Running) (hr : Idle r) :
    ∃ a b, pathLi quot m ans r = .ok (a, r) ∧ pathLi quot n ans r = .ok (b, r) ∧ ∀ i, a.get i ≤ b.get i := by
  refine ⟨_, _, path_radiance quot m ans r hr, path_radiance quot n ans r hr, fun i => ?_⟩
  have hs : ∑ k ∈ Finset.range n, contribution quot ans k =
      ∑ k ∈ Finset.range m, contribution quot ans k + ∑ k ∈ Finset.Ico m n, contribution quot ans k := by
    rw [Finset.sum_range_add_sum_Ico _ hmn]
  refine get_le_add (NonNeg.sum fun k _ => ?_) hs i
  unfold contribution
  split_ifs with hre
  · exact (throughput_nonneg hq h k hre.1 fun j hj => (not_negligible_iff _).1 (hre.2 j hj.le)).mul (lightAt_nonneg h k)
  · exact NonNeg.zero

/-- **C131, the lowest limits.** No bounces: black. One bounce: what the camera sees directly, emission and direct
light. -/
theorem path_few_bounces (quot : K → K → K) (ans : ℕ → Answer K) (r : Running) (hr : Idle r) :
    pathLi quot 0 ans r = .ok (0, r) ∧
    pathLi quot 1 ans r = .ok (match ans 0 with
      | .escape _ env => env
      | .surface _ s => s.emitted + if s.delta then 0 else directLight s, r) := by
  refine ⟨by rw [path_radiance quot 0 ans r hr]; simp, ?_⟩
  rw [path_radiance quot 1 ans r hr]
  have hw : ∀ v : V3 K, white * v = v := fun v => by ext <;> simp [white]
  have h0 : Reached quot ans 0 := by
    refine ⟨fun j hj => absurd hj (Nat.not_lt_zero j), fun j hj => ?_⟩
    obtain rfl := Nat.le_zero.1 hj
    have : ¬ ((1 : K) < 10000⁻¹) := by norm_num
    simp [Negligible, throughput, white, this]
  rw [Finset.sum_range_one, contribution, if_pos h0, throughput, hw, lightAt]
  cases ans 0 with
  | escape q env => rfl
  | surface q s => cases hd : s.delta <;> simp [emissionAt, directAt, looksAt, samplesLights, hd]

/-- **C131, one ray in a scene with media.** The same for the volumetric integrators, if both calls return. -/
theorem vol_more_bounces_partial (quot : K → K → K) (hq : IsQuot quot) {m n : ℕ} (hmn : m ≤ n) (env : Option M)
    (ans : ℕ → VolAnswer K M) (h : ∀ k, Vol.NonNegEvent (Vol.eventAt env ans k))
    (hu : ∀ k, Vol.PositiveDraw (Vol.eventAt env ans k)) (fuel fuel' : ℕ) (a b : V3 K)
    (ha : volLi quot m env ans fuel = some a) (hb : volLi quot n env ans fuel' = some b) (i : Fin 3) :
    a.get i ≤ b.get i := by
  have ha' := Vol.vol_fuel quot m env ans fuel (max fuel fuel') (le_max_left _ _) a ha
  have hb' := Vol.vol_fuel quot n env ans fuel' (max fuel fuel') (le_max_right _ _) b hb
  set F := max fuel fuel'
  have value : ∀ (l : ℕ) (v : V3 K), volLi quot l env ans F = some v →
      v = ∑ k ∈ Finset.range F, Vol.contribution quot l (Vol.eventAt env ans) k := by
    intro l v hv
    by_cases he : ∃ k < F, Vol.Ends quot l (Vol.eventAt env ans) k
    · rw [Vol.vol_radiance quot l env ans F he] at hv
      exact (Option.some.inj hv).symm
    · rw [(Vol.vol_running_iff quot l env ans F).2 fun k hk hek => he ⟨k, hk, hek⟩] at hv
      cases hv
  have hnn : ∀ l k, NonNeg (Vol.contribution quot l (Vol.eventAt env ans) k) := by
    intro l k
    unfold Vol.contribution
    split_ifs with hre
    · exact ((Vol.thr_nonneg hq h hu k hre.1).mul (Vol.mediumWeight_nonneg h k)).mul (Vol.light_nonneg h k)
    · exact NonNeg.zero
  classical
  let extra : ℕ → V3 K := fun k =>
    if Vol.Reached quot m (Vol.eventAt env ans) k then 0 else Vol.contribution quot n (Vol.eventAt env ans) k
  have hk : ∀ k, Vol.contribution quot n (Vol.eventAt env ans) k =
      Vol.contribution quot m (Vol.eventAt env ans) k + extra k := by
    intro k
    by_cases hre : Vol.Reached quot m (Vol.eventAt env ans) k
    · have hre' : Vol.Reached quot n (Vol.eventAt env ans) k := ⟨hre.1, hre.2.1, lt_of_lt_of_le hre.2.2 hmn⟩
      simp only [extra, Vol.contribution, if_pos hre, if_pos hre', add_zero]
    · simp only [extra, if_neg hre]
      rw [Vol.contribution, Vol.contribution, if_neg hre, zero_add]
  refine get_le_add (b := ∑ k ∈ Finset.range F, extra k) (NonNeg.sum fun k _ => ?_) ?_ i
  · simp only [extra]
    split_ifs
    · exact NonNeg.zero
    · exact hnn n k
  · rw [value n b hb', value m a ha', ← Finset.sum_add_distrib]
    exact Finset.sum_congr rfl fun k _ => hk k

end Rays

/-- The box of fog (C85) under growing limits. -/
example : volLi (· / ·) 1 none Vol.fogBox 10 = some ⟨1 / 2, 1 / 2, 1 / 2⟩ ∧
    volLi (· / ·) 2 none Vol.fogBox 10 = some ⟨2, 2, 2⟩ ∧
    volLi (· / ·) 5 none Vol.fogBox 10 = some ⟨5 / 2, 5 / 2, 5 / 2⟩ := by decide +kernel

/-- A wall lit by a lamp (C38): what the first vertex sees, and nothing new after it. -/
example : radiance 0 (wallLamp .simple) = some 0 ∧ radiance 1 (wallLamp .simple) = some ⟨2, 2, 2⟩ ∧
    radiance 2 (wallLamp .simple) = some ⟨2, 2, 2⟩ ∧ radiance 2 (wallLamp .wireframe) = some ⟨10, 10, 10⟩ := by
  decide +kernel

section Pictures

variable {R : Type} [MeasurableSpace R] {ray : ℝ × ℝ → ℝ × ℝ → R}

/-- **C131, pictures.** Every pixel tends, as the number of samples grows, to a value that a higher bounce limit does not
lower. -/
theorem more_bounces_picture {W : World R} (h : W.Lawful) {quot : ℝ → ℝ → ℝ} (hq : IsQuot quot) {m n : ℕ} (hmn : m ≤ n)
    {Lm Ln : R → Stream → V3 ℝ × Stream} (hm : W.Traces quot m Lm) (hn : W.Traces quot n Ln) (M : ℝ)
    (hM : ∀ i r, W.carried i n true r ≤ ENNReal.ofReal M)
    (hcam : Measurable fun q : (ℝ × ℝ) × (ℝ × ℝ) => ray q.1 q.2) (w hgt : ℕ) :
    ∀ᵐ ω ∂uniform, ∃ im im' : ℕ → Int → Int → Fin 3 → ℝ,
      (∀ spp, renderWith apiDefaultFilter w hgt spp ray Lm ω = .ok (im spp)) ∧
      (∀ spp, renderWith apiDefaultFilter w hgt spp ray Ln ω = .ok (im' spp)) ∧
      ∀ (x y : ℕ) (c : Fin 3), x < w → y < hgt → ∃ a b : ℝ, a ≤ b ∧
        Tendsto (fun spp => im spp x y c) atTop (𝓝 a) ∧ Tendsto (fun spp => im' spp x y c) atTop (𝓝 b) := by
  obtain rfl := Traces.eq h hq hm
  obtain rfl := Traces.eq h hq hn
  have hMm : ∀ i r, W.carried i m true r ≤ ENNReal.ofReal M := fun i r => (carried_mono W i hmn true r).trans (hM i r)
  filter_upwards [default_filter_converges (path_lawful (ray := ray) h hcam m hMm) w hgt,
    default_filter_converges (path_lawful (ray := ray) h hcam n hM) w hgt] with ω ⟨im, h1, h2⟩ ⟨im', h1', h2'⟩
  refine ⟨im, im', h1, h1', fun x y c hx hy => ⟨_, _, ?_, h2 x y c hx hy, h2' x y c hx hy⟩⟩
  have hle : ∀ r, ∫⁻ ω, ENNReal.ofReal ((W.trace m white true r ω).1.get c) ∂uniform ≤
      ∫⁻ ω, ENNReal.ofReal ((W.trace n white true r ω).1.get c) ∂uniform := by
    intro r
    refine lintegral_mono fun ω => ENNReal.ofReal_le_ofReal ?_
    rw [trace_fst, trace_fst]
    exact gather_le W h hmn _ _ _ _ NonNeg.white c
  have hfin : filtered apiDefaultFilter w hgt x y
      (Image.lightAt ray fun r => ∫⁻ ω, ENNReal.ofReal ((W.trace n white true r ω).1.get c) ∂uniform) ≠ ∞ := by
    refine ne_top_of_le_ne_top ENNReal.ofReal_ne_top
      ((filtered_mono _ _ _ _ _ (g := fun _ => ENNReal.ofReal M) fun p => ?_).trans (filtered_const default_tame _ _ _ _ _))
    calc _ ≤ ∫⁻ _, ENNReal.ofReal M ∂square := lintegral_mono fun a => (path_mean_le h n c _).trans (hM c _)
      _ = _ := by simp
  exact ENNReal.toReal_mono hfin (filtered_mono _ _ _ _ _ fun p => lightAt_mono hle p)

/-! ## How much is missing -/

/-- **C131, the equation's smallest solution.** The light carried back along paths of any length satisfies the rendering
equation, and nothing that satisfies it is smaller anywhere. -/
theorem light_least (W : World R) (h : W.Lawful) (i : Fin 3) :
    W.Solves i (W.light i) ∧ ∀ L, W.Solves i L → ∀ look r, W.light i look r ≤ L look r :=
  ⟨fun look r => rendering_equation W h i look r, fun L hL look r => iSup_le fun n => solution_ge W hL n look r⟩

/-- **C131, the equation's only solution.** If surfaces send on at most a share `ρ < 1` of what they receive, there is no
other bounded solution. -/
theorem light_unique (W : World R) (h : W.Lawful) {i : Fin 3} {ρ : ℝ} (hρ : 0 ≤ ρ) (hρ1 : ρ < 1) (hs : W.SendsAtMost i ρ)
    (L : Bool → R → ℝ≥0∞) (hL : W.Solves i L) (M : ℝ) (hM : ∀ look r, L look r ≤ ENNReal.ofReal M) : L = W.light i := by
  funext look r
  refine le_antisymm ?_ ((light_least W h i).2 L hL look r)
  have ht : Tendsto (fun n : ℕ => W.light i look r + ENNReal.ofReal ρ ^ n * ENNReal.ofReal M) atTop
      (𝓝 (W.light i look r + 0 * ENNReal.ofReal M)) := by
    refine Tendsto.add tendsto_const_nhds (ENNReal.Tendsto.mul_const ?_ (Or.inr ENNReal.ofReal_ne_top))
    exact ENNReal.tendsto_pow_atTop_nhds_zero_of_lt_one (by simpa using hρ1)
  rw [zero_mul, add_zero] at ht
  refine ge_of_tendsto' ht fun n => ?_
  refine (solution_le W h hρ hs hL hM n look r).trans ?_
  gcongr
  exact le_iSup (fun n => W.carried i n look r) n

/-- **C131, the missing light.** If surfaces send on at most a share `ρ < 1`, and a ray finds at most `B` where it
arrives, then no ray brings back more than `B / (1 - ρ)`, and a limit of `n` bounces leaves out at most `ρ^n` of that. -/
theorem missing_light (W : World R) (h : W.Lawful) {i : Fin 3} {ρ B : ℝ} (hρ : 0 ≤ ρ) (hρ1 : ρ < 1) (hB0 : 0 ≤ B)
    (hs : W.SendsAtMost i ρ) (hB : W.FindsAtMost i B) (n : ℕ) (look : Bool) (r : R) :
    W.light i look r ≤ ENNReal.ofReal (B / (1 - ρ)) ∧ W.carried i n look r ≤ W.light i look r ∧
      W.light i look r ≤ W.carried i n look r + ENNReal.ofReal (ρ ^ n * (B / (1 - ρ))) := by
  have hb : ∀ look r, W.light i look r ≤ ENNReal.ofReal (B / (1 - ρ)) := fun look r =>
    iSup_le fun n => carried_bounded W h hρ hρ1 hB0 hs hB n look r
  refine ⟨hb look r, le_iSup (fun n => W.carried i n look r) n, ?_⟩
  rw [ENNReal.ofReal_mul (by positivity), ENNReal.ofReal_pow hρ]
  exact solution_le W h hρ hs (light_least W h i).1 hb n look r

/-- **C131, the missing light in a picture.** Each pixel tends to the filtered light of the rendering equation, less at
most the share `ρ^n` that the limit of `n` bounces leaves out and the ten-thousandth of faint paths (C100). -/
theorem missing_in_picture {W : World R} (h : W.Lawful) {quot : ℝ → ℝ → ℝ} (hq : IsQuot quot) (n : ℕ) {ρ B : ℝ}
    (hρ : 0 ≤ ρ) (hρ1 : ρ < 1) (hB0 : 0 ≤ B) (hs : ∀ i, W.SendsAtMost i ρ) (hB : ∀ i, W.FindsAtMost i B)
    {Li : R → Stream → V3 ℝ × Stream} (hLi : W.Traces quot n Li)
    (hcam : Measurable fun q : (ℝ × ℝ) × (ℝ × ℝ) => ray q.1 q.2) (w hgt : ℕ) :
    ∀ᵐ ω ∂uniform, ∃ img : ℕ → Int → Int → Fin 3 → ℝ,
      (∀ spp, renderWith apiDefaultFilter w hgt spp ray Li ω = .ok (img spp)) ∧
      ∀ (x y : ℕ) (c : Fin 3), x < w → y < hgt → ∃ L : ℝ,
        Tendsto (fun spp => img spp x y c) atTop (𝓝 L) ∧
        L ≤ (filtered apiDefaultFilter w hgt x y (Image.lightAt ray (W.light c true))).toReal ∧
        (filtered apiDefaultFilter w hgt x y (Image.lightAt ray (W.light c true))).toReal ≤
          L + (ρ ^ n + 1 / 10000) * (B / (1 - ρ)) := by
  have h1 : 0 < 1 - ρ := by linarith
  have hC : 0 ≤ B / (1 - ρ) := by positivity
  filter_upwards [path_image (ray := ray) h hq n hLi (B / (1 - ρ)) hC
    (fun i k _ look r => carried_bounded W h hρ hρ1 hB0 (hs i) (hB i) k look r) hcam w hgt] with ω ⟨img, g1, g2⟩
  refine ⟨img, g1, fun x y c hx hy => ?_⟩
  obtain ⟨L, t, l1, l2⟩ := g2 x y c hx hy
  have hm := fun r => missing_light W h hρ hρ1 hB0 (hs c) (hB c) n true r
  have hfin : filtered apiDefaultFilter w hgt x y (Image.lightAt ray (W.light c true)) ≠ ∞ := by
    refine ne_top_of_le_ne_top (b := ENNReal.ofReal (B / (1 - ρ))) ENNReal.ofReal_ne_top
      ((filtered_mono _ _ _ _ _ (g := fun _ => ENNReal.ofReal (B / (1 - ρ))) fun p => ?_).trans
        (filtered_const default_tame _ _ _ _ _))
    calc _ ≤ ∫⁻ _, ENNReal.ofReal (B / (1 - ρ)) ∂square := lintegral_mono fun a => (hm _).1
      _ = _ := by simp
  have hle := filtered_mono apiDefaultFilter w hgt x y fun p => lightAt_mono (ray := ray) (fun r => (hm r).2.1) p
  have hfin' := ne_top_of_le_ne_top hfin hle
  refine ⟨L, t, l1.trans (ENNReal.toReal_mono hfin hle), ?_⟩
  have hge : filtered apiDefaultFilter w hgt x y (Image.lightAt ray (W.light c true)) ≤
      filtered apiDefaultFilter w hgt x y (Image.lightAt ray (W.carried c n true)) +
        ENNReal.ofReal (ρ ^ n * (B / (1 - ρ))) := by
    refine (filtered_mono _ _ _ _ _ fun p => ?_).trans (filtered_add default_tame _ _ _ _ _ _)
    rw [← lightAt_add]
    exact lightAt_mono (fun r => (hm r).2.2) p
  have := ENNReal.toReal_mono (ENNReal.add_ne_top.2 ⟨hfin', ENNReal.ofReal_ne_top⟩) hge
  rw [ENNReal.toReal_add hfin' ENNReal.ofReal_ne_top, ENNReal.toReal_ofReal (by positivity)] at this
  refine this.trans ?_
  rw [add_mul]
  linarith

/-- **C131, colours.** In scenes of diffuse, mirror and glass surfaces the share is at most the largest colour value. -/
theorem room_sends (S : Room) (h : S.Lawful) (i : Fin 3) (ρ : ℝ) (hc : ∀ r, (S.albedo r).get i ≤ ρ) :
    S.world.SendsAtMost i ρ := by
  intro r
  calc _ ≤ ∫⁻ _, ENNReal.ofReal ρ ∂uniform :=
        lintegral_mono fun ω => ENNReal.ofReal_le_ofReal ((room_factor S h i r ω).trans (hc r))
    _ = _ := by simp

end Pictures

/-! ## A concrete scene: the grey floor -/

theorem floor_finds (i : Fin 3) : (floor (1 / 2)).world.FindsAtMost i 1 := by
  intro r
  split
  · fin_cases i <;> simp [Room.world, floor, V3.get]
  · have : (floor (1 / 2)).world.direct i r = 0 := by
      simp [World.direct, Room.world, floor, total, get_zero]
    rw [this]
    fin_cases i <;> simp [Room.world, floor, V3.get, get_zero]

/-- The picture of the grey floor with `n` bounces is below the true one by at most `2 (2^-n + 1/10000)`. -/
example (n w h : ℕ) {quot : ℝ → ℝ → ℝ} (hq : IsQuot quot) : ∃ Li, (floor (1 / 2)).world.Traces quot n Li ∧
    ∀ᵐ ω ∂uniform, ∃ img : ℕ → Int → Int → Fin 3 → ℝ,
      (∀ spp, renderWith apiDefaultFilter w h spp above Li ω = .ok (img spp)) ∧
      ∀ (x y : ℕ) (c : Fin 3), x < w → y < h → ∃ L : ℝ, Tendsto (fun spp => img spp x y c) atTop (𝓝 L) ∧
        (filtered apiDefaultFilter w h x y (Image.lightAt above ((floor (1 / 2)).world.light c true))).toReal ≤
          L + ((1 / 2) ^ n + 1 / 10000) * 2 := by
  have hl := floor_lawful (1 / 2) (by norm_num)
  have hw := room_lawful _ hl
  refine ⟨_, traces_trace _ hw hq n, ?_⟩
  have hs : ∀ i, (floor (1 / 2)).world.SendsAtMost i (1 / 2) := fun i =>
    room_sends _ hl i _ fun r => by fin_cases i <;> simp [floor, V3.get]
  filter_upwards [missing_in_picture hw hq n (by norm_num) (by norm_num) zero_le_one hs floor_finds
    (traces_trace _ hw hq n) measurable_above w h] with ω ⟨img, h1, h2⟩
  refine ⟨img, h1, fun x y c hx hy => ?_⟩
  obtain ⟨L, t, _, l⟩ := h2 x y c hx hy
  refine ⟨L, t, ?_⟩
  norm_num at l ⊢
  exact l

/-- The floor under growing limits, through the whole renderer. -/
example (n w h : ℕ) {quot : ℝ → ℝ → ℝ} (hq : IsQuot quot) : ∀ᵐ ω ∂uniform, ∃ im im' : ℕ → Int → Int → Fin 3 → ℝ,
    (∀ spp, renderWith apiDefaultFilter w h spp above ((floor (1 / 2)).world.trace n white true) ω = .ok (im spp)) ∧
    (∀ spp, renderWith apiDefaultFilter w h spp above ((floor (1 / 2)).world.trace (n + 2) white true) ω = .ok (im' spp)) ∧
    ∀ (x y : ℕ) (c : Fin 3), x < w → y < h → ∃ a b : ℝ, a ≤ b ∧
      Tendsto (fun spp => im spp x y c) atTop (𝓝 a) ∧ Tendsto (fun spp => im' spp x y c) atTop (𝓝 b) :=
  have hw := room_lawful _ (floor_lawful (1 / 2) (by norm_num))
  more_bounces_picture hw hq (Nat.le_add_right n 2) (traces_trace _ hw hq n) (traces_trace _ hw hq (n + 2)) 1
    (fun i r => floor_bounded n i true r) measurable_above w h

/-- The light of the floor is the only bounded solution of its rendering equation. -/
example (i : Fin 3) (L : Bool → Ray → ℝ≥0∞) (hL : (floor (1 / 2)).world.Solves i L) (M : ℝ)
    (hM : ∀ look r, L look r ≤ ENNReal.ofReal M) : L = (floor (1 / 2)).world.light i :=
  have hl := floor_lawful (1 / 2) (by norm_num)
  light_unique _ (room_lawful _ hl) (by norm_num) (by norm_num)
    (room_sends _ hl i (1 / 2) fun r => by fin_cases i <;> simp [floor, V3.get]) L hL M hM

/-! ## With few samples a pixel can get darker -/

/-- A view that is bright on the left; on the right there is a black wall that sends rays on to itself. -/
noncomputable def halfWall : World ℝ where
  escapes r := decide (r < 1 / 2)
  env _ := white
  delta _ := false
  emitted _ := 0
  lights _ ω := ([], ω)
  scatter _ ω := ((white, 1, 1, 3 / 4), drop 1 ω)

theorem halfWall_lawful : halfWall.Lawful where
  escapes := by
    refine measurable_to_bool ?_
    have : halfWall.escapes ⁻¹' {true} = Set.Iio (1 / 2) := by ext x; simp [halfWall]
    rw [this]
    exact measurableSet_Iio
  env := measurable_const
  env_nonneg _ := NonNeg.white
  delta := measurable_const
  emitted := measurable_const
  emitted_nonneg _ := NonNeg.zero
  lights := measurable_const.prodMk measurable_snd
  lights_fresh _ := fresh_pure 0
  lights_nonneg _ _ := NonNeg.zero
  scatter := measurable_const.prodMk ((measurable_drop 1).comp measurable_snd)
  scatter_fresh _ := fresh_map (f := next) (m := fun _ => ((white, 1, 1, 3 / 4) : Bounce ℝ)) fresh_next measurable_const
  scatter_nonneg _ _ := ⟨NonNeg.white, zero_le_one⟩

theorem halfWall_sky (n : ℕ) (r : ℝ) (hr : r < 1 / 2) (ω : Stream) : halfWall.trace (n + 1) white true r ω = (white, ω) := by
  have hz : ¬ isZero (white : V3 ℝ) = true := by
    have : ¬ ((1 : ℝ) < 10000⁻¹) := by norm_num
    simp [isZero, white, this]
  rw [World.trace, if_neg hz, if_pos (by simpa [halfWall] using hr)]
  ext <;> simp [halfWall, white]

theorem halfWall_wall (look : Bool) (n : ℕ) : ∀ (ω : Stream), (∀ k, ω k ≤ 1) → ∀ r : ℝ, ¬ r < 1 / 2 →
    halfWall.trace n white look r ω = (0, drop (2 * n) ω) := by
  have hz : ¬ isZero (white : V3 ℝ) = true := by
    have : ¬ ((1 : ℝ) < 10000⁻¹) := by norm_num
    simp [isZero, white, this]
  induction n generalizing look with
  | zero => intro ω _ r _; rfl
  | succ n ih =>
    intro ω hω r hr
    have hl : halfWall.lit (r, ω) = (0, ω) := by simp [World.lit, halfWall, total]
    have hm : (white : V3 ℝ).maxValue = 1 := by simp [V3.maxValue, white]
    have hst : step false (white : V3 ℝ) ((white, 1, 1, 3 / 4) : Bounce ℝ) = white := by
      have hm' : ({ x := 1, y := 1, z := 1 } : V3 ℝ).maxValue = 1 := hm
      ext <;> simp [step, white, Bounce.albedo, Bounce.cos, Bounce.pdf, hm']
    have hown : halfWall.own look r = 0 := by cases look <;> rfl
    have := ih false (drop 1 (drop 1 ω)) (fun k => hω _) (3 / 4) (by norm_num)
    rw [World.trace, if_neg hz, if_neg (by simpa [halfWall] using hr), hl]
    simp only [hm, min_self]
    rw [if_neg (not_lt.2 (hω 0))]
    have hp : (halfWall.scatter r (drop 1 ω)).1.pdf = 1 := rfl
    rw [if_neg (by rw [hp]; norm_num)]
    have e1 : step (halfWall.delta r) white (halfWall.scatter r (drop 1 ω)).1 = white := hst
    rw [e1, hown]
    have e2 : halfWall.trace n white (halfWall.delta r) (halfWall.scatter r (drop 1 ω)).1.ray
      (halfWall.scatter r (drop 1 ω)).2 = (0, drop (2 * n) (drop 1 (drop 1 ω))) := this
    rw [e2]
    refine Prod.ext ?_ ?_
    · ext <;> simp
    · funext k
      simp only [drop]
      congr 1

/-- Random numbers that are all `3 / 4` but the seventh, which is `1 / 4`. -/
noncomputable def fewNumbers : Stream := fun k => if k = 6 then 1 / 4 else 3 / 4

/-- **C131 fails with few samples.** All pixels draw from one sequence of random numbers, and longer paths take more of
it, so later samples look elsewhere: with the same seed a pixel can be darker under the higher limit. -/
theorem darker_pixel_refuted (quot : ℝ → ℝ → ℝ) (hq : IsQuot quot) :
    ∃ (W : World ℝ) (L₁ L₂ : ℝ → Stream → V3 ℝ × Stream) (ω : Stream) (im₁ im₂ : Int → Int → Fin 3 → ℝ),
      W.Lawful ∧ W.Traces quot 1 L₁ ∧ W.Traces quot 2 L₂ ∧ (∀ k, 0 < ω k ∧ ω k < 1) ∧
      renderWith defaultBox 1 1 2 (fun p _ => p.1) L₁ ω = .ok im₁ ∧
      renderWith defaultBox 1 1 2 (fun p _ => p.1) L₂ ω = .ok im₂ ∧ ∀ c, im₁ 0 0 c = 1 / 2 ∧ im₂ 0 0 c = 0 := by
  have hin : ∀ k, 0 < fewNumbers k ∧ fewNumbers k < 1 := by
    intro k
    unfold fewNumbers
    split <;> norm_num
  have pix : ∀ (L : ℝ → Stream → V3 ℝ × Stream) (a b : V3 ℝ × Stream) (p : ℝ × ℝ), p ∈ Set.Ioo (0 : ℝ) 1 ×ˢ Set.Ioo (0 : ℝ) 1 →
      L (3 / 4) (drop 4 fewNumbers) = a → (a.2 0, a.2 1) = p → L p.1 (drop 4 a.2) = b →
      ∃ im, renderWith defaultBox 1 1 2 (fun p _ => p.1) L fewNumbers = .ok im ∧
        ∀ c, im 0 0 c = (a.1.get c + b.1.get c) / 2 := by
    intro L a b p hp ha hap hb
    obtain ⟨im, e, hv⟩ := render_pixel_eq (defaultBox (K := ℝ)) (box_wellBehaved (1 / 2) (1 / 2)).support 1 1 2
      (obsAt (fun p _ => p.1) L 1 1 fewNumbers)
    refine ⟨im, by rw [renderWith_eq]; exact e, fun c => ?_⟩
    have s0 : shoot (fun (p : ℝ × ℝ) (_ : ℝ × ℝ) => p.1) L 0 0 fewNumbers = (((3 / 4, 3 / 4), a.1), a.2) := by
      have : shoot (fun (p : ℝ × ℝ) (_ : ℝ × ℝ) => p.1) L 0 0 fewNumbers =
          (((fewNumbers 0, fewNumbers 1), (L ((0 : ℕ) + fewNumbers 0) (drop 4 fewNumbers)).1),
            (L ((0 : ℕ) + fewNumbers 0) (drop 4 fewNumbers)).2) := rfl
      rw [this]
      have e0 : ((0 : ℕ) : ℝ) + fewNumbers 0 = 3 / 4 := by simp [fewNumbers]
      rw [e0, ha]
      simp [fewNumbers]
    have s1 : (shoot (fun (p : ℝ × ℝ) (_ : ℝ × ℝ) => p.1) L 0 0 a.2).1 = (p, b.1) := by
      have : (shoot (fun (p : ℝ × ℝ) (_ : ℝ × ℝ) => p.1) L 0 0 a.2).1 =
          ((a.2 0, a.2 1), (L ((0 : ℕ) + a.2 0) (drop 4 a.2)).1) := rfl
      rw [this, hap]
      have e0 : ((0 : ℕ) : ℝ) + a.2 0 = p.1 := by rw [← hap]; simp
      rw [e0, hb]
    have o0 : obsAt (fun p _ => p.1) L 1 1 fewNumbers 0 0 0 = toObs ((3 / 4, 3 / 4), a.1) := by
      show toObs (shoot _ L 0 0 fewNumbers).1 = _
      rw [s0]
    have o1 : obsAt (fun p _ => p.1) L 1 1 fewNumbers 1 0 0 = toObs (p, b.1) := by
      show toObs (shoot _ L 0 0 (shoot _ L 0 0 fewNumbers).2).1 = _
      rw [s0, s1]
    have w0 : sampleWeight (defaultBox (K := ℝ)) (obsAt (fun p _ => p.1) L 1 1 fewNumbers) 0 0 0 0 0 = 1 := by
      have := box_weight (s := (3 / 4, 3 / 4)) (by norm_num) 0 0 0 0
      simp only [sampleWeight, samplePos, o0, toObs, defaultBox]
      simpa using this
    have w1 : sampleWeight (defaultBox (K := ℝ)) (obsAt (fun p _ => p.1) L 1 1 fewNumbers) 0 0 1 0 0 = 1 := by
      have := box_weight (s := p) hp 0 0 0 0
      simp only [sampleWeight, samplePos, o1, toObs, defaultBox]
      simpa using this
    have := hv 0 0 c (by norm_num) (by norm_num)
    have tw : totalWeight (defaultBox (K := ℝ)) 1 1 2 (obsAt (fun p _ => p.1) L 1 1 fewNumbers) 0 0 = 2 := by
      simp only [totalWeight, Finset.sum_range_succ, Finset.sum_range_zero, zero_add, w0, w1]
      norm_num
    have tr : totalRadiance (defaultBox (K := ℝ)) 1 1 2 (obsAt (fun p _ => p.1) L 1 1 fewNumbers) 0 0 c =
        a.1.get c + b.1.get c := by
      simp only [totalRadiance, Finset.sum_range_succ, Finset.sum_range_zero, zero_add, w0, w1, o0, o1, toObs]
      ring
    rw [tw, tr, if_neg (by norm_num)] at this
    exact_mod_cast this
  have hle : ∀ j k, drop j fewNumbers k ≤ 1 := fun j k => (hin _).2.le
  have t1 := halfWall_wall true 1 (drop 4 fewNumbers) (hle 4) (3 / 4) (by norm_num)
  have t2 := halfWall_wall true 2 (drop 4 fewNumbers) (hle 4) (3 / 4) (by norm_num)
  obtain ⟨im₁, e₁, v₁⟩ := pix (halfWall.trace 1 white true) _ (white, drop 10 fewNumbers) (1 / 4, 3 / 4) (by norm_num) t1
    (by simp [drop, fewNumbers]) (by
      rw [halfWall_sky 0 _ (by norm_num)]
      refine Prod.ext rfl ?_
      rfl)
  obtain ⟨im₂, e₂, v₂⟩ := pix (halfWall.trace 2 white true) _ (0, drop 16 fewNumbers) (3 / 4, 3 / 4) (by norm_num) t2
    (by simp [drop, fewNumbers]) (by
      rw [halfWall_wall true 2 _ (fun k => by simp only [drop]; exact (hin _).2.le) _ (by norm_num)]
      refine Prod.ext rfl ?_
      rfl)
  refine ⟨halfWall, _, _, fewNumbers, im₁, im₂, halfWall_lawful, traces_trace _ halfWall_lawful hq 1,
    traces_trace _ halfWall_lawful hq 2, hin, e₁, e₂, fun c => ⟨?_, ?_⟩⟩
  · rw [v₁ c, get_zero, white_get]; norm_num
  · rw [v₂ c, get_zero]; norm_num

end Feign.Integrators
