import Verif.Integrators.LeftLemmas
import Verif.Integrators.RoomProps
import Verif.Image.ShootFilters

/-!
# C101 for the path integrator

The image rendered with the path integrator tends, as the number of samples per pixel grows, to the filtered light
carried back along paths of at most `max_bounces` segments.
-/

set_option linter.unusedSectionVars false
set_option linter.unusedVariables false

namespace Feign.Integrators

open Sampling MeasureTheory Warp Image _root_.Filter Topology
open scoped ENNReal

variable {R : Type} [MeasurableSpace R]

/-! ## The average over the film -/

theorem lightAt_mono {ray : ℝ × ℝ → ℝ × ℝ → R} {f g : R → ℝ≥0∞} (h : ∀ r, f r ≤ g r) (p : ℝ × ℝ) :
    Image.lightAt ray f p ≤ Image.lightAt ray g p := lintegral_mono fun a => h _

theorem lightAt_add {ray : ℝ × ℝ → ℝ × ℝ → R} (f : R → ℝ≥0∞) (e : ℝ≥0∞) (p : ℝ × ℝ) :
    Image.lightAt ray (fun r => f r + e) p = Image.lightAt ray f p + e := by
  unfold Image.lightAt
  rw [lintegral_add_right _ measurable_const, lintegral_const, measure_univ, mul_one]

theorem filtered_mono (flt : Image.Filter ℝ) (w h x y : ℕ) {f g : ℝ × ℝ → ℝ≥0∞} (hfg : ∀ p, f p ≤ g p) :
    filtered flt w h x y f ≤ filtered flt w h x y g :=
  ENNReal.div_le_div_right (lintegral_mono fun p => mul_le_mul_right (hfg p) _) _

theorem filtered_add {flt : Image.Filter ℝ} (hf : flt.Tame) (w h x y : ℕ) (f : ℝ × ℝ → ℝ≥0∞) (e : ℝ≥0∞) :
    filtered flt w h x y (fun p => f p + e) ≤ filtered flt w h x y f + e := by
  unfold filtered
  have mw := measurable_weightAt hf x y
  have : ∫⁻ p in film w h, weightAt flt x y p * (f p + e) =
      (∫⁻ p in film w h, weightAt flt x y p * f p) + e * ∫⁻ p in film w h, weightAt flt x y p := by
    simp only [mul_add]
    rw [lintegral_add_right _ (mw.mul_const e), lintegral_mul_const _ mw, mul_comm e]
  rw [this, ENNReal.add_div]
  gcongr
  exact ENNReal.div_le_of_le_mul le_rfl

theorem filtered_const {flt : Image.Filter ℝ} (hf : flt.Tame) (w h x y : ℕ) (e : ℝ≥0∞) :
    filtered flt w h x y (fun _ => e) ≤ e := by
  have := filtered_add hf w h x y (fun _ => 0) e
  simpa [filtered] using this

/-! ## The path integrator -/

variable {ray : ℝ × ℝ → ℝ × ℝ → R}

theorem path_mean_le {W : World R} (h : W.Lawful) (n : ℕ) (i : Fin 3) (r : R) :
    ∫⁻ ω, ENNReal.ofReal ((W.trace n white true r ω).1.get i) ∂uniform ≤ W.carried i n true r := by
  have := mean_le W h i n white true r NonNeg.white
  rw [white_get, ENNReal.ofReal_one, one_mul] at this
  simpa only [trace_fst, World.mean] using this

theorem path_lawful {W : World R} (h : W.Lawful) (hcam : Measurable fun q : (ℝ × ℝ) × (ℝ × ℝ) => ray q.1 q.2) (n : ℕ)
    {M : ℝ} (hM : ∀ i r, W.carried i n true r ≤ ENNReal.ofReal M) : Image.Lawful ray (W.trace n white true) where
  cam := hcam
  meas := (measurable_trace W h n).comp (measurable_const.prodMk (measurable_const.prodMk measurable_id))
  fresh r := trace_fresh W h n white true r
  nonneg r ω := by rw [trace_fst]; exact gather_nonneg W h n _ _ _ _ NonNeg.white
  bounded := ⟨ENNReal.ofReal M, ENNReal.ofReal_ne_top, fun r i => (path_mean_le h n i r).trans (hM i r)⟩

theorem default_tame : apiDefaultFilter.Tame := gauss_tame 2 2 1 (by norm_num) (by norm_num)

/-- A constant comes through the default filter unchanged. -/
theorem filtered_default_const (w h x y : ℕ) (hx : x < w) (hy : y < h) (e : ℝ≥0∞) :
    filtered apiDefaultFilter w h x y (fun _ => e) = e := by
  unfold filtered
  rw [lintegral_mul_const _ (measurable_weightAt default_tame x y), mul_comm]
  have h0 : ∫⁻ p in film w h, weightAt apiDefaultFilter x y p ≠ 0 :=
    reaches default_tame 2 (by norm_num)
      (fun a b ha hb => (gauss_pos_iff 2 2 1 (by norm_num) (by norm_num) (by norm_num) a b).2 ⟨ha, hb⟩) w h x y hx hy
  have h1 : ∫⁻ p in film w h, weightAt apiDefaultFilter x y p ≠ ∞ := by
    obtain ⟨C, hC⟩ := default_tame.bounded
    refine ne_top_of_le_ne_top (b := ENNReal.ofReal C * volume (film w h)) (ENNReal.mul_ne_top ENNReal.ofReal_ne_top ?_) ?_
    · rw [film, Measure.volume_eq_prod, Measure.prod_prod]
      simp [ENNReal.mul_ne_top]
    · calc _ ≤ ∫⁻ _ in film w h, ENNReal.ofReal C := lintegral_mono fun p => ENNReal.ofReal_le_ofReal (hC _ _)
        _ = _ := by simp
  exact ENNReal.mul_div_cancel_right h0 h1

/-- **C101, path tracing.** Let the light that paths of at most `n` segments carry back be at most `M` along every ray.
For almost every stream of random numbers the image is defined for every number of samples per pixel, and each pixel
tends to a value which is at most the filtered light carried back, and less than that by at most a ten-thousandth of
`M`. -/
theorem path_image {W : World R} (h : W.Lawful) {quot : ℝ → ℝ → ℝ} (hq : IsQuot quot) (n : ℕ)
    {Li : R → Stream → V3 ℝ × Stream} (hLi : W.Traces quot n Li) (M : ℝ) (hM0 : 0 ≤ M)
    (hM : ∀ i, ∀ k ≤ n, ∀ look r, W.carried i k look r ≤ ENNReal.ofReal M)
    (hcam : Measurable fun q : (ℝ × ℝ) × (ℝ × ℝ) => ray q.1 q.2) (w hgt : ℕ) :
    ∀ᵐ ω ∂uniform, ∃ img : ℕ → Int → Int → Fin 3 → ℝ,
      (∀ spp, renderWith apiDefaultFilter w hgt spp ray Li ω = .ok (img spp)) ∧
      ∀ (x y : ℕ) (c : Fin 3), x < w → y < hgt → ∃ L : ℝ,
        Tendsto (fun spp => img spp x y c) atTop (𝓝 L) ∧
        L ≤ (filtered apiDefaultFilter w hgt x y (Image.lightAt ray (W.carried c n true))).toReal ∧
        (filtered apiDefaultFilter w hgt x y (Image.lightAt ray (W.carried c n true))).toReal ≤ L + M / 10000 := by
  have hLi' := Traces.eq h hq hLi
  subst hLi'
  have hlaw := path_lawful (ray := ray) h hcam n fun i r => hM i n le_rfl true r
  filter_upwards [default_filter_converges hlaw w hgt] with ω ⟨img, h1, h2⟩
  refine ⟨img, h1, fun x y c hx hy => ⟨_, h2 x y c hx hy, ?_, ?_⟩⟩
  · have hle : ∀ p, Image.lightAt ray (W.carried c n true) p ≤ ENNReal.ofReal M := by
      intro p
      calc _ ≤ ∫⁻ _, ENNReal.ofReal M ∂square := lintegral_mono fun a => hM c n le_rfl true _
        _ = _ := by simp
    have hfin : filtered apiDefaultFilter w hgt x y (Image.lightAt ray (W.carried c n true)) ≠ ∞ :=
      ne_top_of_le_ne_top ENNReal.ofReal_ne_top
        ((filtered_mono _ _ _ _ _ hle).trans (filtered_const default_tame _ _ _ _ _))
    exact ENNReal.toReal_mono hfin (filtered_mono _ _ _ _ _ fun p => lightAt_mono (fun r => path_mean_le h n c r) p)
  · have hge : ∀ r, W.carried c n true r ≤
        ∫⁻ ω, ENNReal.ofReal ((W.trace n white true r ω).1.get c) ∂uniform + ENNReal.ofReal (M / 10000) := by
      intro r
      have := mean_ge W h c (ENNReal.ofReal M) n (fun k hk => hM c k hk) white true r NonNeg.white
      rw [white_get, ENNReal.ofReal_one, one_mul, ← ENNReal.ofReal_mul (by norm_num), one_div_mul_eq_div] at this
      simpa only [trace_fst, World.mean] using this
    have hmean : ∀ r, ∫⁻ ω, ENNReal.ofReal ((W.trace n white true r ω).1.get c) ∂uniform ≤ ENNReal.ofReal M :=
      fun r => (path_mean_le h n c r).trans (hM c n le_rfl true r)
    have hle : ∀ p, Image.lightAt ray (fun r => ∫⁻ ω, ENNReal.ofReal ((W.trace n white true r ω).1.get c) ∂uniform) p ≤
        ENNReal.ofReal M := by
      intro p
      calc _ ≤ ∫⁻ _, ENNReal.ofReal M ∂square := lintegral_mono fun a => hmean _
        _ = _ := by simp
    have hfin : filtered apiDefaultFilter w hgt x y
        (Image.lightAt ray fun r => ∫⁻ ω, ENNReal.ofReal ((W.trace n white true r ω).1.get c) ∂uniform) ≠ ∞ :=
      ne_top_of_le_ne_top ENNReal.ofReal_ne_top
        ((filtered_mono _ _ _ _ _ hle).trans (filtered_const default_tame _ _ _ _ _))
    have step1 : filtered apiDefaultFilter w hgt x y (Image.lightAt ray (W.carried c n true)) ≤
        filtered apiDefaultFilter w hgt x y
          (Image.lightAt ray fun r => ∫⁻ ω, ENNReal.ofReal ((W.trace n white true r ω).1.get c) ∂uniform) +
          ENNReal.ofReal (M / 10000) := by
      refine (filtered_mono _ _ _ _ _ fun p => ?_).trans (filtered_add default_tame _ _ _ _ _ _)
      rw [← lightAt_add]
      exact lightAt_mono hge p
    have := ENNReal.toReal_mono (ENNReal.add_ne_top.2 ⟨hfin, ENNReal.ofReal_ne_top⟩) step1
    rwa [ENNReal.toReal_add hfin ENNReal.ofReal_ne_top, ENNReal.toReal_ofReal (by positivity)] at this

/-- **C101, path tracing without loss.** If the factors of the sampled directions are grey and at least a ten-thousandth,
the limit is exactly the filtered light carried back. -/
theorem path_image_grey {W : World R} (h : W.Lawful) (hg : W.Grey) {quot : ℝ → ℝ → ℝ} (hq : IsQuot quot) (n : ℕ)
    {Li : R → Stream → V3 ℝ × Stream} (hLi : W.Traces quot n Li) (M : ℝ)
    (hM : ∀ i r, W.carried i n true r ≤ ENNReal.ofReal M)
    (hcam : Measurable fun q : (ℝ × ℝ) × (ℝ × ℝ) => ray q.1 q.2) (w hgt : ℕ) :
    ∀ᵐ ω ∂uniform, ∃ img : ℕ → Int → Int → Fin 3 → ℝ,
      (∀ spp, renderWith apiDefaultFilter w hgt spp ray Li ω = .ok (img spp)) ∧
      ∀ (x y : ℕ) (c : Fin 3), x < w → y < hgt →
        Tendsto (fun spp => img spp x y c) atTop
          (𝓝 (filtered apiDefaultFilter w hgt x y (Image.lightAt ray (W.carried c n true))).toReal) := by
  have hLi' := Traces.eq h hq hLi
  subst hLi'
  have hlaw := path_lawful (ray := ray) h hcam n hM
  have hmean : ∀ c : Fin 3, (fun r => ∫⁻ ω, ENNReal.ofReal ((W.trace n white true r ω).1.get c) ∂uniform) =
      W.carried c n true := by
    intro c
    funext r
    have := mean_grey W h hg c n 1 true r (by norm_num)
    rw [ENNReal.ofReal_one, one_mul] at this
    simp only [trace_fst]
    exact this
  filter_upwards [default_filter_converges hlaw w hgt] with ω ⟨img, h1, h2⟩
  refine ⟨img, h1, fun x y c hx hy => ?_⟩
  have := h2 x y c hx hy
  rwa [hmean c] at this

/-! ## A concrete scene: the grey floor seen from above -/

/-- A camera above the floor of `RoomProps` that looks straight down. -/
noncomputable def above (p _a : ℝ × ℝ) : Ray := (⟨p.1, p.2, 1⟩, ⟨0, 0, -1⟩)

theorem measurable_above : Measurable fun q : (ℝ × ℝ) × (ℝ × ℝ) => above q.1 q.2 :=
  (measurable_mk (measurable_fst.comp measurable_fst) (measurable_snd.comp measurable_fst) measurable_const).prodMk
    measurable_const

theorem floor_bounded (n : ℕ) (i : Fin 3) (look : Bool) (r : Ray) :
    (floor (1 / 2)).world.carried i (n + 2) look r ≤ ENNReal.ofReal 1 := by
  by_cases hr : 0 < r.1.z ∧ r.2.z < 0
  · rw [floor_carried _ (by norm_num) i n look r hr.1 hr.2]
    exact ENNReal.ofReal_le_ofReal (by norm_num)
  · rw [sky _ i (n + 1) look r hr, ENNReal.ofReal_one]

/-- Every pixel of the image of the floor tends to the floor's colour. -/
example (n w h : ℕ) : ∃ Li : Ray → Stream → V3 ℝ × Stream, (floor (1 / 2)).world.Traces (· / ·) (n + 2) Li ∧
    ∀ᵐ ω ∂uniform, ∃ img : ℕ → Int → Int → Fin 3 → ℝ,
      (∀ spp, renderWith apiDefaultFilter w h spp above Li ω = .ok (img spp)) ∧
      ∀ (x y : ℕ) (c : Fin 3), x < w → y < h → Tendsto (fun spp => img spp x y c) atTop (𝓝 (1 / 2)) := by
  have hl := room_lawful _ (floor_lawful (1 / 2) (by norm_num))
  have hq : IsQuot (fun a b : ℝ => a / b) := fun a b _ => rfl
  refine ⟨_, traces_trace _ hl hq (n + 2), ?_⟩
  filter_upwards [path_image_grey hl (floor_grey _ (by norm_num)) hq (n + 2) (traces_trace _ hl hq (n + 2)) 1
    (fun i r => floor_bounded n i true r) measurable_above w h] with ω ⟨img, h1, h2⟩
  refine ⟨img, h1, fun x y c hx hy => ?_⟩
  have := h2 x y c hx hy
  have hlight : Image.lightAt above ((floor (1 / 2)).world.carried c (n + 2) true) = fun _ => ENNReal.ofReal (1 / 2) := by
    funext p
    unfold Image.lightAt
    have : ∀ a, (floor (1 / 2)).world.carried c (n + 2) true (above p a) = ENNReal.ofReal (1 / 2) := fun a =>
      floor_carried _ (by norm_num) c n true _ (by simp [above]) (by simp [above])
    rw [lintegral_congr this, lintegral_const, measure_univ, mul_one]
  rw [hlight, filtered_default_const _ _ _ _ hx hy, ENNReal.toReal_ofReal (by norm_num)] at this
  exact this

end Feign.Integrators
