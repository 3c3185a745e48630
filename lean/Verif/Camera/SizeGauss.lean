import Verif.Camera.SizeProps

/-!
# C129 with the filter that scenes get: a finer picture is not a more detailed version of the same picture

The filter reaches two pixels in every picture, so a finer picture is filtered more narrowly.
-/

set_option linter.unusedSectionVars false
set_option linter.unusedVariables false

namespace Feign.Image

open Sampling MeasureTheory Warp Integrators _root_.Filter Topology
open scoped ENNReal

/-- The default filter counts the positions less than two pixels away from the centre of the pixel, in both directions. -/
theorem default_reach (x y : ℕ) (p : ℝ × ℝ) :
    weightAt apiDefaultFilter x y p ≠ 0 ↔ |(x : ℝ) + 1 / 2 - p.1| < 2 ∧ |(y : ℝ) + 1 / 2 - p.2| < 2 := by
  rw [weightAt, ← pos_iff_ne_zero, ENNReal.ofReal_pos]
  exact gauss_pos_iff 2 2 1 (by norm_num) (by norm_num) (by norm_num) _ _

/-- No light within reach, no light in the pixel. -/
theorem filtered_dark {light : ℝ × ℝ → ℝ≥0∞} (w h x y : ℕ)
    (hd : ∀ p, |(x : ℝ) + 1 / 2 - p.1| < 2 → |(y : ℝ) + 1 / 2 - p.2| < 2 → light p = 0) :
    filtered apiDefaultFilter w h x y light = 0 := by
  have : ∀ p, weightAt apiDefaultFilter x y p * light p = 0 := by
    intro p
    by_cases hp : weightAt apiDefaultFilter x y p = 0
    · rw [hp, zero_mul]
    · obtain ⟨h1, h2⟩ := (default_reach x y p).1 hp
      rw [hd p h1 h2, mul_zero]
  simp [filtered, this]

/-- Light in a rectangle of the film within reach shows in the pixel. -/
theorem filtered_lit {light : ℝ × ℝ → ℝ≥0∞} (hm : Measurable light) (w h x y : ℕ) (hx : x < w) (hy : y < h) {a b c d : ℝ}
    (hab : a < b) (hcd : c < d) (hsub : Set.Ioo a b ×ˢ Set.Ioo c d ⊆ film w h)
    (hlit : ∀ p ∈ Set.Ioo a b ×ˢ Set.Ioo c d, |(x : ℝ) + 1 / 2 - p.1| < 2 ∧ |(y : ℝ) + 1 / 2 - p.2| < 2 ∧ light p ≠ 0) :
    filtered apiDefaultFilter w h x y light ≠ 0 := by
  have ht : apiDefaultFilter.Tame := api_tame
  have mfilm : MeasurableSet (film w h) := measurableSet_Ioo.prod measurableSet_Ioo
  have mw := measurable_weightAt ht x y
  have hnum : ∫⁻ p in film w h, weightAt apiDefaultFilter x y p * light p ≠ 0 := by
    intro h0
    have h1 := (ae_restrict_iff' mfilm).1 ((lintegral_eq_zero_iff (mw.mul hm)).1 h0)
    have hS : volume (Set.Ioo a b ×ˢ Set.Ioo c d) = 0 := by
      refine measure_mono_null (fun p hp => ?_) h1
      obtain ⟨p1, p2, p3⟩ := hlit p hp
      intro hc
      exact mul_ne_zero ((default_reach x y p).2 ⟨p1, p2⟩) p3 (hc (hsub hp))
    rw [Measure.volume_eq_prod, Measure.prod_prod, Real.volume_Ioo, Real.volume_Ioo] at hS
    rcases mul_eq_zero.1 hS with h | h
    · exact absurd h (ENNReal.ofReal_pos.2 (by linarith)).ne'
    · exact absurd h (ENNReal.ofReal_pos.2 (by linarith)).ne'
  have hden : ∫⁻ p in film w h, weightAt apiDefaultFilter x y p ≠ ∞ := by
    obtain ⟨C, hC⟩ := ht.bounded
    refine ne_top_of_le_ne_top ?_ (lintegral_mono (g := fun _ => ENNReal.ofReal C) fun p => ENNReal.ofReal_le_ofReal (hC _ _))
    rw [lintegral_const, Measure.restrict_apply_univ, film, Measure.volume_eq_prod, Measure.prod_prod, Real.volume_Ioo,
      Real.volume_Ioo]
    exact ENNReal.mul_ne_top ENNReal.ofReal_ne_top (ENNReal.mul_ne_top ENNReal.ofReal_ne_top ENNReal.ofReal_ne_top)
  exact ENNReal.div_ne_zero.2 ⟨hnum, hden⟩

/-- Light up to white shows as at most white. -/
theorem filtered_le {light : ℝ × ℝ → ℝ≥0∞} (w h x y : ℕ) (hl : ∀ p, light p ≤ 1) : filtered apiDefaultFilter w h x y light ≤ 1 := by
  refine ENNReal.div_le_of_le_mul ?_
  rw [one_mul]
  refine lintegral_mono fun p => ?_
  calc weightAt apiDefaultFilter x y p * light p ≤ weightAt apiDefaultFilter x y p * 1 := by gcongr; exact hl p
    _ = _ := mul_one _

/-- The light around the film position `(u, v)`, weighted with the filter. -/
noncomputable def around (flt : Image.Filter ℝ) (w h : ℕ) (u v : ℝ) (light : ℝ × ℝ → ℝ≥0∞) : ℝ≥0∞ :=
  (∫⁻ p in film w h, ENNReal.ofReal (flt.eval (u - p.1) (v - p.2)) * light p) /
    ∫⁻ p in film w h, ENNReal.ofReal (flt.eval (u - p.1) (v - p.2))

/-- What a film measures, on a film enlarged by `j`. -/
theorem enlarged_film (F : ℝ × ℝ → ℝ≥0∞) (w h j : ℕ) (hj : 0 < j) :
    ∫⁻ q in film (j * w) (j * h), F q = (j : ℝ≥0∞) ^ 2 * ∫⁻ p in film w h, F (j * p.1, j * p.2) := by
  have hr : (j : ℝ) ≠ 0 := by exact_mod_cast hj.ne'
  have hr0 : (0 : ℝ) < j := by exact_mod_cast hj
  have hmap := Measure.map_addHaar_smul (volume : Measure (ℝ × ℝ)) hr
  have hemb : MeasurableEmbedding (fun p : ℝ × ℝ => (j : ℝ) • p) := (Homeomorph.smulOfNeZero (j : ℝ) hr).measurableEmbedding
  have hd : Module.finrank ℝ (ℝ × ℝ) = 2 := by simp
  rw [hd] at hmap
  have hpre : (fun p : ℝ × ℝ => (j : ℝ) • p) ⁻¹' film (j * w) (j * h) = film w h := by
    ext ⟨s, t⟩
    have e : ∀ a b : ℝ, (j * a < j * b ↔ a < b) := fun a b => mul_lt_mul_iff_right₀ hr0
    simp only [film, Set.mem_preimage, Set.mem_prod, Set.mem_Ioo, Prod.smul_fst, Prod.smul_snd, smul_eq_mul, Nat.cast_mul, e]
    have e0 : ∀ a : ℝ, (0 < j * a ↔ 0 < a) := fun a => mul_pos_iff_of_pos_left hr0
    simp only [e0]
  have key : ∫⁻ q in film (j * w) (j * h), F q ∂(Measure.map (fun p : ℝ × ℝ => (j : ℝ) • p) volume) =
      ∫⁻ p in film w h, F ((j : ℝ) • p) := by
    rw [hemb.restrict_map, hpre, hemb.lintegral_map]
  rw [hmap, setLIntegral_smul_measure] at key
  have hc : ENNReal.ofReal |((j : ℝ) ^ 2)⁻¹| = ((j : ℝ≥0∞) ^ 2)⁻¹ := by
    rw [abs_of_pos (by positivity), ENNReal.ofReal_inv_of_pos (by positivity), ENNReal.ofReal_pow hr0.le, ENNReal.ofReal_natCast]
  rw [hc, smul_eq_mul] at key
  have h0 : ((j : ℝ≥0∞) ^ 2) ≠ 0 := by simp [hj.ne']
  have ht : ((j : ℝ≥0∞) ^ 2) ≠ ∞ := by simp
  have : ∀ p : ℝ × ℝ, (j : ℝ) • p = (j * p.1, j * p.2) := fun p => rfl
  simp only [this] at key
  rw [← key, ← mul_assoc, ENNReal.mul_inv_cancel h0 ht, one_mul]

/-- The default filter on an enlarged film is a narrower Gaussian on the original one. -/
theorem narrower (j : ℕ) (hj : 0 < j) (a b : ℝ) :
    apiDefaultFilter.eval (j * a) (j * b) = (gaussFilter (2 / j) (2 / j) (1 / j)).eval a b := by
  have hr : (j : ℝ) ≠ 0 := by exact_mod_cast hj.ne'
  have e : ∀ t : ℝ, -1 / (2 * 1 * 1) * ((j : ℝ) * t) * (j * t) = -1 / (2 * (1 / j) * (1 / j)) * t * t := by
    intro t; field_simp
  have e2 : -1 / (2 * 1 * 1) * (2 : ℝ) * 2 = -1 / (2 * (1 / (j : ℝ)) * (1 / j)) * (2 / j) * (2 / j) := by field_simp
  simp only [apiDefaultFilter, gaussFilter, e, e2]

variable {R : Type} [MeasurableSpace R] {ray ray' : ℝ × ℝ → ℝ × ℝ → R} {Li : R → Stream → V3 ℝ × Stream}

/-- **C129, what a finer picture shows.** With the filter that every scene gets, a picture `j` times as wide and as high shows
the same view through a filter `j` times as narrow: each of its pixels tends to the light around the pixel's centre, weighted
with the Gaussian of half width `2 / j` and deviation `1 / j`, measured in pixels of the original picture. -/
theorem finer_gauss (hL' : Lawful ray' Li) (j : ℕ) (hj : 0 < j) (hr : ∀ p a, ray' (j * p.1, j * p.2) a = ray p a) (w h : ℕ) :
    ∀ᵐ ω ∂uniform, ∃ img' : ℕ → Int → Int → Fin 3 → ℝ,
      (∀ spp, renderWith apiDefaultFilter (j * w) (j * h) spp ray' Li ω = .ok (img' spp)) ∧
      ∀ (x y : ℕ) (c : Fin 3), x < j * w → y < j * h →
        Tendsto (fun spp => img' spp x y c) atTop
          (𝓝 (around (gaussFilter (2 / j) (2 / j) (1 / j)) w h (((x : ℝ) + 1 / 2) / j) (((y : ℝ) + 1 / 2) / j)
            (lightAt ray fun r => ∫⁻ ω, ENNReal.ofReal ((Li r ω).1.get c) ∂uniform)).toReal) := by
  filter_upwards [default_filter_converges hL' (j * w) (j * h)] with ω ⟨img', h1, h2⟩
  refine ⟨img', h1, fun x y c hx hy => ?_⟩
  have hjr : (j : ℝ) ≠ 0 := by exact_mod_cast hj.ne'
  have hW : ∀ p : ℝ × ℝ, weightAt apiDefaultFilter x y (j * p.1, j * p.2) =
      ENNReal.ofReal ((gaussFilter (2 / j) (2 / j) (1 / j)).eval (((x : ℝ) + 1 / 2) / j - p.1) (((y : ℝ) + 1 / 2) / j - p.2)) := by
    intro p
    rw [← narrower j hj, weightAt]
    congr 2 <;> field_simp
  have hl : ∀ p : ℝ × ℝ, lightAt ray' (fun r => ∫⁻ ω, ENNReal.ofReal ((Li r ω).1.get c) ∂uniform) (j * p.1, j * p.2) =
      lightAt ray (fun r => ∫⁻ ω, ENNReal.ofReal ((Li r ω).1.get c) ∂uniform) p := by
    intro p
    simp only [lightAt, hr]
  have := h2 x y c hx hy
  rw [filtered, enlarged_film _ w h j hj, enlarged_film _ w h j hj] at this
  simp only [hW, hl] at this
  rw [ENNReal.mul_div_mul_left _ _ (by simp [hj.ne']) (by simp)] at this
  exact this

/-- For one and the same size this is the limit of the picture. -/
example (flt : Image.Filter ℝ) (w h x y : ℕ) (light : ℝ × ℝ → ℝ≥0∞) :
    filtered flt w h x y light = around flt w h ((x : ℝ) + 1 / 2) ((y : ℝ) + 1 / 2) light := rfl

/-- The right third of the view is white and the rest is black. -/
noncomputable def third (u : ℝ × ℝ) : ℝ := if 2 / 3 < u.1 then 1 else 0

/-- An integrator that draws nothing and shows `third`. -/
noncomputable def thirdLi (u : ℝ × ℝ) (ω : Stream) : V3 ℝ × Stream := (⟨third u, third u, third u⟩, ω)

theorem third_get (u : ℝ × ℝ) (ω : Stream) (c : Fin 3) : (thirdLi u ω).1.get c = third u := by fin_cases c <;> rfl

theorem measurable_third : Measurable third := by
  unfold third
  exact Measurable.ite (measurableSet_lt measurable_const measurable_fst) measurable_const measurable_const

theorem third_nonneg (u : ℝ × ℝ) : 0 ≤ third u := by unfold third; split_ifs <;> norm_num
theorem third_le (u : ℝ × ℝ) : third u ≤ 1 := by unfold third; split_ifs <;> norm_num

/-- The view in a picture of `w × h` pixels: each film position as a share of width and height. -/
noncomputable def viewAt (w h : ℕ) (p _a : ℝ × ℝ) : ℝ × ℝ := (p.1 / w, p.2 / h)

theorem measurable_viewAt (w h : ℕ) : Measurable fun p : ℝ × ℝ => ((p.1 / w, p.2 / h) : ℝ × ℝ) :=
  (measurable_fst.div_const _).prodMk (measurable_snd.div_const _)

theorem third_lawful (w h : ℕ) : Lawful (viewAt w h) thirdLi where
  cam := (measurable_viewAt w h).comp measurable_fst
  meas := by
    have mb : Measurable fun q : (ℝ × ℝ) × Stream => third q.1 := measurable_third.comp measurable_fst
    have mv : Measurable fun q : (ℝ × ℝ) × Stream => (⟨third q.1, third q.1, third q.1⟩ : V3 ℝ) := by
      apply measurable_of <;> exact mb
    exact mv.prodMk measurable_snd
  fresh r := fresh_pure _
  nonneg r ω := ⟨third_nonneg r, third_nonneg r, third_nonneg r⟩
  bounded := by
    refine ⟨1, ENNReal.one_ne_top, fun r c => ?_⟩
    simp only [third_get, lintegral_const, measure_univ, mul_one]
    exact (ENNReal.ofReal_le_ofReal (third_le r)).trans ENNReal.ofReal_one.le

theorem third_light (w h : ℕ) (c : Fin 3) :
    (lightAt (viewAt w h) fun r => ∫⁻ ω, ENNReal.ofReal ((thirdLi r ω).1.get c) ∂uniform) =
      fun p => ENNReal.ofReal (third (p.1 / w, p.2 / h)) := by
  funext p
  simp [lightAt, third_get, viewAt]

/-- **C129, means, refuted** for the filter that every scene gets. A picture of 3 by 1 pixels and one twice as fine, of the same
view: its right third is white. The left pixel of the small picture tends to a value above zero, because the filter reaches
two pixels. The four pixels that replace it in the finer picture tend to zero. So the average of the pixels that replace a
pixel does not tend to what that pixel tends to. -/
theorem finer_gauss_refuted :
    (∀ p a, viewAt 6 2 (2 * p.1, 2 * p.2) a = viewAt 3 1 p a) ∧
    ∃ v : ℝ, 0 < v ∧ ∀ᵐ ω ∂uniform, ∃ img img' : ℕ → Int → Int → Fin 3 → ℝ,
      (∀ spp, renderWith apiDefaultFilter 3 1 spp (viewAt 3 1) thirdLi ω = .ok (img spp)) ∧
      (∀ spp, renderWith apiDefaultFilter (2 * 3) (2 * 1) spp (viewAt 6 2) thirdLi ω = .ok (img' spp)) ∧
      (∀ c, Tendsto (fun spp => img spp 0 0 c) atTop (𝓝 v)) ∧
      (∀ a < 2, ∀ b < 2, ∀ c, Tendsto (fun spp => img' spp ((a : ℕ) : Int) ((b : ℕ) : Int) c) atTop (𝓝 0)) ∧
      ∀ c, ¬ Tendsto (fun spp => (∑ a ∈ Finset.range 2, ∑ b ∈ Finset.range 2, img' spp (a : Int) (b : Int) c) / 4) atTop (𝓝 v) := by
  refine ⟨fun p a => ?_, ?_⟩
  · unfold viewAt
    ext <;> dsimp only <;> push_cast <;> ring
  let L : ℝ × ℝ → ℝ≥0∞ := fun p => ENNReal.ofReal (third (p.1 / (3 : ℕ), p.2 / (1 : ℕ)))
  have mL : Measurable L := (measurable_third.comp (measurable_viewAt 3 1)).ennreal_ofReal
  have hpos : filtered apiDefaultFilter 3 1 0 0 L ≠ 0 := by
    refine filtered_lit mL 3 1 0 0 (by norm_num) (by norm_num) (a := 2) (b := 5 / 2) (c := 0) (d := 1) (by norm_num) (by norm_num)
      ?_ ?_
    · rintro ⟨a, b⟩ ⟨⟨a1, a2⟩, b1, b2⟩
      dsimp only at a1 a2 b1 b2
      refine ⟨⟨?_, ?_⟩, ?_, ?_⟩ <;> norm_num <;> linarith
    · rintro ⟨a, b⟩ ⟨⟨a1, a2⟩, b1, b2⟩
      dsimp only at a1 a2 b1 b2
      refine ⟨?_, ?_, ?_⟩
      · rw [abs_lt]; constructor <;> norm_num <;> linarith
      · rw [abs_lt]; constructor <;> norm_num <;> linarith
      · have : (2 : ℝ) / 3 < a / (3 : ℕ) := by push_cast; linarith
        show ENNReal.ofReal (if (2 : ℝ) / 3 < a / (3 : ℕ) then 1 else 0) ≠ 0
        rw [if_pos this]; simp
  have hfin : filtered apiDefaultFilter 3 1 0 0 L ≠ ∞ :=
    ne_top_of_le_ne_top ENNReal.one_ne_top (filtered_le 3 1 0 0 fun p =>
      (ENNReal.ofReal_le_ofReal (third_le _)).trans ENNReal.ofReal_one.le)
  have hv : 0 < (filtered apiDefaultFilter 3 1 0 0 L).toReal := ENNReal.toReal_pos hpos hfin
  refine ⟨_, hv, ?_⟩
  filter_upwards [default_filter_converges (third_lawful 3 1) 3 1, default_filter_converges (third_lawful 6 2) (2 * 3) (2 * 1)]
    with ω ⟨img, h1, h2⟩ ⟨img', h1', h2'⟩
  have hz : ∀ a < 2, ∀ b < 2, ∀ c, Tendsto (fun spp => img' spp ((a : ℕ) : Int) ((b : ℕ) : Int) c) atTop (𝓝 0) := by
    intro a ha b hb c
    have := h2' a b c (by omega) (by omega)
    rw [third_light, filtered_dark, ENNReal.toReal_zero] at this
    · exact this
    · intro p hp _
      have ha' : (a : ℝ) ≤ 1 := by exact_mod_cast Nat.lt_succ_iff.1 ha
      have : ¬ (2 : ℝ) / 3 < p.1 / (6 : ℕ) := by
        push_cast
        have := (abs_lt.1 hp).1
        linarith
      show ENNReal.ofReal (if (2 : ℝ) / 3 < p.1 / (6 : ℕ) then 1 else 0) = 0
      rw [if_neg this]; simp
  refine ⟨img, img', h1, h1', fun c => ?_, hz, fun c hc => ?_⟩
  · have := h2 0 0 c (by norm_num) (by norm_num)
    rw [third_light] at this
    exact this
  · have hs : Tendsto (fun spp => (∑ a ∈ Finset.range 2, ∑ b ∈ Finset.range 2, img' spp (a : Int) (b : Int) c) / 4) atTop
        (𝓝 ((∑ a ∈ Finset.range 2, ∑ b ∈ Finset.range 2, (0 : ℝ)) / 4)) := by
      refine Tendsto.div_const (tendsto_finsetSum _ fun a ha => tendsto_finsetSum _ fun b hb => ?_) _
      exact hz a (Finset.mem_range.1 ha) b (Finset.mem_range.1 hb) c
    have := tendsto_nhds_unique hs hc
    simp at this
    linarith

/-- `finer_gauss` for the two pictures of `finer_gauss_refuted`. -/
example := finer_gauss (ray := viewAt 3 1) (third_lawful 6 2) 2 (by norm_num)
  (fun p a => by have := finer_gauss_refuted.1 p a; exact_mod_cast this) 3 1

end Feign.Image
