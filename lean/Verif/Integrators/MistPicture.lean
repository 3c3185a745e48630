import Verif.Integrators.MistLeftLemmas
import Verif.Integrators.FogProps
import Verif.Integrators.Picture

/-!
# C101 for the volumetric path integrator

The image of a scene with media tends, as the number of samples per pixel grows, to the filtered light carried back by
paths with at most `max_bounces` vertices.
-/

set_option linter.unusedSectionVars false
set_option linter.unusedVariables false

namespace Feign.Integrators

open Sampling MeasureTheory Warp Image _root_.Filter Topology
open scoped ENNReal

variable {R M : Type} [MeasurableSpace R] {ray : ℝ × ℝ → ℝ × ℝ → R}

theorem lightAt_le {f : R → ℝ≥0∞} {B : ℝ≥0∞} (h : ∀ r, f r ≤ B) (p : ℝ × ℝ) : Image.lightAt ray f p ≤ B :=
  calc Image.lightAt ray f p ≤ ∫⁻ _, B ∂square := lintegral_mono fun a => h _
    _ = _ := by simp

theorem filtered_le {f : R → ℝ≥0∞} {B : ℝ≥0∞} (h : ∀ r, f r ≤ B) (w hgt x y : ℕ) :
    filtered apiDefaultFilter w hgt x y (Image.lightAt ray f) ≤ B :=
  (filtered_mono _ _ _ _ _ fun p => lightAt_le h p).trans (filtered_const default_tame _ _ _ _ _)

/-- Light that is known up to `e` gives an image that is known up to `e`. -/
theorem filtered_between {f g : R → ℝ≥0∞} {B e : ℝ} (hB : ∀ r, g r ≤ ENNReal.ofReal B) (he : 0 ≤ e)
    (hle : ∀ r, f r ≤ g r) (hge : ∀ r, g r ≤ f r + ENNReal.ofReal e) (w hgt x y : ℕ) :
    (filtered apiDefaultFilter w hgt x y (Image.lightAt ray f)).toReal ≤
        (filtered apiDefaultFilter w hgt x y (Image.lightAt ray g)).toReal ∧
      (filtered apiDefaultFilter w hgt x y (Image.lightAt ray g)).toReal ≤
        (filtered apiDefaultFilter w hgt x y (Image.lightAt ray f)).toReal + e := by
  have fg : filtered apiDefaultFilter w hgt x y (Image.lightAt ray g) ≠ ∞ :=
    ne_top_of_le_ne_top ENNReal.ofReal_ne_top (filtered_le hB w hgt x y)
  have ff : filtered apiDefaultFilter w hgt x y (Image.lightAt ray f) ≠ ∞ :=
    ne_top_of_le_ne_top ENNReal.ofReal_ne_top (filtered_le (fun r => (hle r).trans (hB r)) w hgt x y)
  refine ⟨ENNReal.toReal_mono fg (filtered_mono _ _ _ _ _ fun p => lightAt_mono hle p), ?_⟩
  have step1 : filtered apiDefaultFilter w hgt x y (Image.lightAt ray g) ≤
      filtered apiDefaultFilter w hgt x y (Image.lightAt ray f) + ENNReal.ofReal e := by
    refine (filtered_mono _ _ _ _ _ fun p => ?_).trans (filtered_add default_tame _ _ _ _ _ _)
    rw [← lightAt_add]
    exact lightAt_mono hge p
  have := ENNReal.toReal_mono (ENNReal.add_ne_top.2 ⟨ff, ENNReal.ofReal_ne_top⟩) step1
  rwa [ENNReal.toReal_add ff ENNReal.ofReal_ne_top, ENNReal.toReal_ofReal he] at this

variable [Countable M]

theorem vol_lawful {W : Mist R M} (h : W.Lawful) (hm : W.Matte) {quot : ℝ → ℝ → ℝ} (hq : IsQuot quot) {n : ℕ}
    {env : Option M} {Li : R → Stream → V3 ℝ × Stream} (hLi : W.Traces quot n env Li)
    (hcam : Measurable fun q : (ℝ × ℝ) × (ℝ × ℝ) => ray q.1 q.2) {B : ℝ}
    (hB : ∀ i r, W.light i n env r ≤ ENNReal.ofReal B) : Image.Lawful ray Li where
  cam := hcam
  meas := hLi.measurable h hm hq
  fresh r := hLi.fresh h hm hq r
  nonneg r ω := by
    obtain ⟨fuel, h1, _⟩ := hLi r ω
    rw [Li_gather W h hm quot hq n env r ω fuel _ h1]
    exact mist_nonneg W h fuel n _ _ _ _ white_nonneg
  bounded := ⟨ENNReal.ofReal B, ENNReal.ofReal_ne_top, fun r i =>
    (vol_mean_le W h hm quot hq n env r _ (hLi.renders r) i).trans (hB i r)⟩

/-- **C101, media.** Let the light that paths with at most `n` vertices carry back be at most `B` along every ray. For
almost every stream of random numbers the image is defined for every number of samples per pixel, and each pixel tends to
a value which is at most the filtered light carried back, and less than that by at most a ten-thousandth of `B`. -/
theorem vol_image {W : Mist R M} (h : W.Lawful) (hm : W.Matte) {quot : ℝ → ℝ → ℝ} (hq : IsQuot quot) (n : ℕ)
    (env : Option M) {Li : R → Stream → V3 ℝ × Stream} (hLi : W.Traces quot n env Li) (B : ℝ) (hB0 : 0 ≤ B)
    (hB : ∀ i, ∀ k ≤ n, ∀ m r, W.light i k m r ≤ ENNReal.ofReal B)
    (hcam : Measurable fun q : (ℝ × ℝ) × (ℝ × ℝ) => ray q.1 q.2) (w hgt : ℕ) :
    ∀ᵐ ω ∂uniform, ∃ img : ℕ → Int → Int → Fin 3 → ℝ,
      (∀ spp, renderWith apiDefaultFilter w hgt spp ray Li ω = .ok (img spp)) ∧
      ∀ (x y : ℕ) (c : Fin 3), x < w → y < hgt → ∃ L : ℝ,
        Tendsto (fun spp => img spp x y c) atTop (𝓝 L) ∧
        L ≤ (filtered apiDefaultFilter w hgt x y (Image.lightAt ray (W.light c n env))).toReal ∧
        (filtered apiDefaultFilter w hgt x y (Image.lightAt ray (W.light c n env))).toReal ≤ L + B / 10000 := by
  have hlaw := vol_lawful (ray := ray) h hm hq hLi hcam fun i r => hB i n le_rfl env r
  filter_upwards [default_filter_converges hlaw w hgt] with ω ⟨img, h1, h2⟩
  refine ⟨img, h1, fun x y c hx hy => ⟨_, h2 x y c hx hy, ?_⟩⟩
  refine filtered_between (fun r => hB c n le_rfl env r) (by positivity)
    (fun r => vol_mean_le W h hm quot hq n env r _ (hLi.renders r) c) (fun r => ?_) w hgt x y
  have := vol_mean_ge W h hm quot hq n env r _ (hLi.renders r) c (ENNReal.ofReal B) (hB c)
  rwa [← ENNReal.ofReal_mul (by norm_num), one_div_mul_eq_div] at this

/-- **C101, media, without loss.** If no medium only absorbs and every surface sends on at least a ten-thousandth or
nothing, the limit is exactly the filtered light carried back. -/
theorem vol_image_bright {W : Mist R M} (h : W.Lawful) (hm : W.Matte) (hb : W.Bright) {quot : ℝ → ℝ → ℝ}
    (hq : IsQuot quot) (n : ℕ) (env : Option M) {Li : R → Stream → V3 ℝ × Stream} (hLi : W.Traces quot n env Li) (B : ℝ)
    (hB : ∀ i r, W.light i n env r ≤ ENNReal.ofReal B)
    (hcam : Measurable fun q : (ℝ × ℝ) × (ℝ × ℝ) => ray q.1 q.2) (w hgt : ℕ) :
    ∀ᵐ ω ∂uniform, ∃ img : ℕ → Int → Int → Fin 3 → ℝ,
      (∀ spp, renderWith apiDefaultFilter w hgt spp ray Li ω = .ok (img spp)) ∧
      ∀ (x y : ℕ) (c : Fin 3), x < w → y < hgt →
        Tendsto (fun spp => img spp x y c) atTop
          (𝓝 (filtered apiDefaultFilter w hgt x y (Image.lightAt ray (W.light c n env))).toReal) := by
  have hlaw := vol_lawful (ray := ray) h hm hq hLi hcam hB
  have hmean : ∀ c : Fin 3, (fun r => ∫⁻ ω, ENNReal.ofReal ((Li r ω).1.get c) ∂uniform) = W.light c n env := fun c =>
    funext fun r => vol_mean_bright W h hm hb quot hq n env r _ (hLi.renders r) c
  filter_upwards [default_filter_converges hlaw w hgt] with ω ⟨img, h1, h2⟩
  refine ⟨img, h1, fun x y c hx hy => ?_⟩
  have := h2 x y c hx hy
  rwa [hmean c] at this

/-- **C101, media, diffuse scenes lit by the environment.** Let all surfaces be diffuse and send on between a
ten-thousandth and all of what they receive, all media scatter, no lights be sampled and the environment be at most `B`.
Then each pixel tends to the filtered light that paths with at most `n` vertices carry back, and that is at most `B`. -/
theorem fog_image {S : Fog M} (h : S.Lawful) (hs : ∀ m i, 0 < (S.fluid m).sca.get i)
    (ha : ∀ r i, 1 / 10000 ≤ (S.room.albedo r).get i) (ha1 : ∀ r i, (S.room.albedo r).get i ≤ 1)
    (hl : ∀ m r ω, (S.glints m r ω).1 = []) (hmo : ∀ m r t ω, (S.motes m r t ω).1 = []) (B : ℝ) (hB0 : 0 ≤ B)
    (hB : ∀ r i, (S.room.env r).get i ≤ B) {quot : ℝ → ℝ → ℝ} (hq : IsQuot quot) (n : ℕ) (env : Option M)
    {Li : Ray → Stream → V3 ℝ × Stream} (hLi : S.mist.Traces quot n env Li) {ray : ℝ × ℝ → ℝ × ℝ → Ray}
    (hcam : Measurable fun q : (ℝ × ℝ) × (ℝ × ℝ) => ray q.1 q.2) (w hgt : ℕ) :
    ∀ᵐ ω ∂uniform, ∃ img : ℕ → Int → Int → Fin 3 → ℝ,
      (∀ spp, renderWith apiDefaultFilter w hgt spp ray Li ω = .ok (img spp)) ∧
      ∀ (x y : ℕ) (c : Fin 3), x < w → y < hgt → ∃ L ≤ B, Tendsto (fun spp => img spp x y c) atTop (𝓝 L) ∧
        L = (filtered apiDefaultFilter w hgt x y (Image.lightAt ray (S.mist.light c n env))).toReal := by
  have hb : ∀ i r, S.mist.light i n env r ≤ ENNReal.ofReal B := fun i r =>
    fog_bounded S h i (ENNReal.ofReal B) (fun r => ENNReal.ofReal_le_ofReal (hB r i)) hl hmo (fun r => ha1 r i) n env r
  filter_upwards [vol_image_bright (ray := ray) (fog_lawful S h) (fog_matte S h) (fog_bright S h hs ha) hq n env hLi B hb
    hcam w hgt] with ω ⟨img, h1, h2⟩
  refine ⟨img, h1, fun x y c hx hy => ⟨_, ?_, h2 x y c hx hy, rfl⟩⟩
  rw [← ENNReal.toReal_ofReal hB0]
  exact ENNReal.toReal_mono ENNReal.ofReal_ne_top (filtered_le (hb c) w hgt x y)

/-! ## A concrete scene: a camera in a medium that looks up at a bright sky -/

/-- A camera in the plane `z = 0` that looks straight up. -/
noncomputable def below (p _a : ℝ × ℝ) : Ray := (⟨p.1, p.2, 0⟩, ⟨0, 0, 1⟩)

theorem measurable_below : Measurable fun q : (ℝ × ℝ) × (ℝ × ℝ) => below q.1 q.2 :=
  (measurable_mk (measurable_fst.comp measurable_fst) (measurable_snd.comp measurable_fst) measurable_const).prodMk
    measurable_const

/-- The medium below the plane is the same everywhere. -/
theorem fogSlab_below {f : Fluid} (hf : f.Lawful) (hs : ∀ i, 0 < f.sca.get i) (i : Fin 3) (p a : ℝ × ℝ) :
    (fogSlab f).mist.light i 1 (some ()) (below p a) = ENNReal.ofReal (Real.exp (-f.rate * (999 / 1000))) := by
  have hS := fogSlab_lawful hf
  have hl := fog_lawful (fogSlab f) hS
  have hseen : (fogSlab f).room.seen (below p a) = true := by
    show decide ((0 : ℝ) < 1 ∧ (1 : ℝ) * (1 / 1000) ≤ 1 - 0) = true
    norm_num
  have hdist : (fogSlab f).dist (below p a) = 1 := by
    show ((1 : ℝ) - 0) / 1 = 1
    norm_num
  have he : (fogSlab f).mist.escapes (below p a) = false := by
    show (!(fogSlab f).room.seen (below p a)) = false
    rw [hseen]
    rfl
  have h0 : (fogSlab f).mist.light i 0 (some ()) = fun _ => 0 := funext fun r => light_zero _ _ _ _
  rw [light_step (fogSlab f).mist hl i 0 (some ()) (below p a) he, h0]
  have hin : ∀ t, (fogSlab f).inscatter i () (below p a) (fun _ => 0) t = 0 := by
    intro t
    have : (fogSlab f).lampsAt i () (below p a) t = 0 := by
      unfold Fog.lampsAt
      show ∫⁻ _, ENNReal.ofReal ((0 : V3 ℝ).get i) ∂uniform = 0
      simp [get_zero]
    simp [Fog.inscatter, this]
  have hG : (fun t => (fogSlab f).mist.haze i () (below p a) t fun _ => 0) = fun _ => 0 := by
    funext t
    rw [haze_fog (fogSlab f) hS i () (below p a) t measurable_const, hin]
  have hb : (if (fogSlab f).mist.null (below p a) = true then
      (fogSlab f).mist.light i (0 + 1) ((fogSlab f).mist.beyond (some ()) (below p a))
        ((fogSlab f).mist.past (below p a))
      else (fogSlab f).mist.sheen i (some ()) (below p a) fun _ => 0) = 1 := by
    have hn : (fogSlab f).mist.null (below p a) = true := rfl
    rw [if_pos hn, light_escape _ _ _ _ _ (fogSlab_past f (below p a))]
    show ENNReal.ofReal ((⟨1, 1, 1⟩ : V3 ℝ).get i) = 1
    fin_cases i <;> exact ENNReal.ofReal_one
  rw [hb, veiled_scatter (fogSlab f) hS i () hs (below p a) hseen (g := fun _ => 0) measurable_const
    (fun m t => (fogSlab f).mist.haze i m (below p a) t ((fogSlab f).mist.light i 0 (some m))) (by rw [h0]; exact hG) 1]
  have heps : (fogSlab f).room.eps = 1 / 1000 := rfl
  simp only [mul_zero, lintegral_zero, zero_add, mul_one, hdist, heps]
  congr 3
  norm_num

/-- **C101, media: an image that is known.** Every pixel of the image of a white sky seen through `999/1000` of a medium
whose coefficients add up to two tends to `exp (-4 · 999/1000)`. -/
theorem milk_image {quot : ℝ → ℝ → ℝ} (hq : IsQuot quot) (w h : ℕ) :
    ∃ Li, (fogSlab milk).mist.Traces quot 1 (some ()) Li ∧
      ∀ᵐ ω ∂uniform, ∃ img : ℕ → Int → Int → Fin 3 → ℝ,
        (∀ spp, renderWith apiDefaultFilter w h spp below Li ω = .ok (img spp)) ∧
        ∀ (x y : ℕ) (c : Fin 3), x < w → y < h →
          Tendsto (fun spp => img spp x y c) atTop (𝓝 (Real.exp (-4 * (999 / 1000)))) := by
  have hs : ∀ i, 0 < milk.sca.get i := fun i => by fin_cases i <;> exact one_pos
  obtain ⟨Li, hLi⟩ := mist_traces (fogSlab milk).mist 1
    (fun r => if (fogSlab milk).mist.escapes r = true then 0 else 1)
    (fun r => by split_ifs <;> omega) (fun r he _ => by simp [fogSlab_past, he]) quot 1 (some ())
  refine ⟨Li, hLi, ?_⟩
  have hone : ∀ j, (⟨1, 1, 1⟩ : V3 ℝ).get j = 1 := fun j => by fin_cases j <;> rfl
  filter_upwards [fog_image (ray := below) (fogSlab_lawful milk_lawful) (fun _ => hs)
    (fun r j => by show (1 / 10000 : ℝ) ≤ (⟨1, 1, 1⟩ : V3 ℝ).get j; rw [hone]; norm_num)
    (fun r j => by show (⟨1, 1, 1⟩ : V3 ℝ).get j ≤ 1; rw [hone])
    (fun _ _ _ => rfl) (fun _ _ _ _ => rfl) 1 zero_le_one
    (fun r j => by show (⟨1, 1, 1⟩ : V3 ℝ).get j ≤ 1; rw [hone]) hq 1 (some ()) hLi measurable_below w h]
    with ω ⟨img, h1, h2⟩
  refine ⟨img, h1, fun x y c hx hy => ?_⟩
  obtain ⟨L, _, hL, e⟩ := h2 x y c hx hy
  have hlight : Image.lightAt below ((fogSlab milk).mist.light c 1 (some ())) =
      fun _ => ENNReal.ofReal (Real.exp (-4 * (999 / 1000))) := by
    funext p
    unfold Image.lightAt
    rw [lintegral_congr fun a => fogSlab_below milk_lawful hs c p a, lintegral_const, measure_univ, mul_one, milk_rate]
  rw [hlight, filtered_default_const _ _ _ _ hx hy, ENNReal.toReal_ofReal (Real.exp_pos _).le] at e
  rwa [e] at hL

end Feign.Integrators
