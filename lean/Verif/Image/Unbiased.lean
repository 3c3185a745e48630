import Verif.Image.ShootFilters

/-!
# C102: the mean of the image for a fixed number of samples

With the box filter of one pixel the mean of every pixel is the filtered light whatever the number of samples. With the
filter that scenes get this only holds in the limit: the weights are random too, and one sample in a one-pixel image is
not weighted at all.
-/

set_option linter.unusedSectionVars false
set_option linter.unusedVariables false

namespace Feign.Image

open Sampling MeasureTheory Warp Integrators _root_.Filter Topology
open scoped ENNReal

variable {R : Type} [MeasurableSpace R] {ray : ℝ × ℝ → ℝ × ℝ → R} {Li : R → Stream → V3 ℝ × Stream}

/-- Every sample of a pixel has the distribution of a single one. -/
theorem obs_law (hL : Lawful ray Li) (w h : ℕ) (p : ℕ × ℕ) (hp : p ∈ scan w h) (k : ℕ)
    (F : (ℝ × ℝ) × V3 ℝ → ℝ≥0∞) (mF : Measurable F) :
    ∫⁻ ω, F (result (frame ray Li w h p) k ω) ∂uniform = ∫⁻ ω, F (shoot ray Li p.1 p.2 ω).1 ∂uniform := by
  have hfr := frame_fresh hL w h p hp
  have e1 := (later_preserving hfr k).lintegral_comp (f := fun ω => F (frame ray Li w h p ω).1)
    (mF.comp (measurable_fst.comp hfr.1))
  refine e1.trans ?_
  exact (after_preserving hL (before w h p)).lintegral_comp
    (f := fun ω => F (shoot ray Li p.1 p.2 ω).1) (mF.comp (measurable_fst.comp (measurable_shoot hL p.1 p.2)))

theorem square_inside : ∀ᵐ s ∂square, s ∈ Set.Ioo (0 : ℝ) 1 ×ˢ Set.Ioo (0 : ℝ) 1 := by
  rw [ae_iff]
  have hm : MeasurableSet (Set.Ioo (0 : ℝ) 1 ×ˢ Set.Ioo (0 : ℝ) 1) := measurableSet_Ioo.prod measurableSet_Ioo
  have h1 : square (Set.Ioo (0 : ℝ) 1 ×ˢ Set.Ioo (0 : ℝ) 1) = 1 := by
    rw [square, Measure.prod_prod]
    simp
  have := prob_compl_eq_zero_iff (μ := square) hm
  exact this.2 h1

/-- Almost surely every sample lies inside its pixel. -/
theorem inside (hL : Lawful ray Li) (w h : ℕ) : ∀ᵐ ω ∂uniform, ∀ (p : ℕ × ℕ) (k : ℕ), p ∈ scan w h →
    (result (frame ray Li w h p) k ω).1 ∈ Set.Ioo (0 : ℝ) 1 ×ˢ Set.Ioo (0 : ℝ) 1 := by
  refine ae_all_iff.2 fun p => ae_all_iff.2 fun k => ?_
  by_cases hp : p ∈ scan w h
  · let S : Set (ℝ × ℝ) := Set.Ioo (0 : ℝ) 1 ×ˢ Set.Ioo (0 : ℝ) 1
    have mS : MeasurableSet S := measurableSet_Ioo.prod measurableSet_Ioo
    let g : ℝ × ℝ → ℝ≥0∞ := Sᶜ.indicator 1
    have mg : Measurable g := measurable_one.indicator mS.compl
    have e : ∫⁻ ω, g (result (frame ray Li w h p) k ω).1 ∂uniform = 0 := by
      rw [obs_law hL w h p hp k (fun a => g a.1) (mg.comp measurable_fst), shoot_position hL p.1 p.2 g mg,
        lintegral_indicator_one mS.compl]
      exact square_inside
    have mr := measurable_result (frame_fresh hL w h p hp) k
    have m1 : Measurable fun ω => g (result (frame ray Li w h p) k ω).1 := mg.comp (measurable_fst.comp mr)
    rw [lintegral_eq_zero_iff m1] at e
    filter_upwards [e] with ω hω _
    by_contra hc
    have : g (result (frame ray Li w h p) k ω).1 = 1 := Set.indicator_of_mem (s := Sᶜ) hc 1
    rw [this] at hω
    exact one_ne_zero hω
  · exact _root_.Filter.Eventually.of_forall fun ω h => absurd h hp

theorem box_weight {s : ℝ × ℝ} (hs : s ∈ Set.Ioo (0 : ℝ) 1 ×ˢ Set.Ioo (0 : ℝ) 1) (x y i j : ℕ) :
    (boxFilter (1 / 2 : ℝ) (1 / 2)).eval ((x : ℝ) + 1 / 2 - ((j : ℝ) + s.1)) ((y : ℝ) + 1 / 2 - ((i : ℝ) + s.2)) =
      if i = y ∧ j = x then 1 else 0 := by
  obtain ⟨⟨a1, a2⟩, b1, b2⟩ := hs
  have key : ∀ (m n : ℕ) (t : ℝ), 0 < t → t < 1 → (|(m : ℝ) + 1 / 2 - ((n : ℝ) + t)| < 1 / 2 ↔ n = m) := by
    intro m n t t0 t1
    constructor
    · intro h
      rw [abs_lt] at h
      have h1 : (n : ℝ) < m + 1 := by linarith
      have h2 : (m : ℝ) < n + 1 := by linarith
      have h1' : n < m + 1 := by exact_mod_cast h1
      have h2' : m < n + 1 := by exact_mod_cast h2
      omega
    · rintro rfl
      rw [abs_lt]
      constructor <;> linarith
  simp only [boxFilter, boxEval]
  exact if_congr ((and_congr (key x j s.1 a1 a2) (key y i s.2 b1 b2)).trans and_comm) rfl rfl

/-- The mean of one pixel of the film, as an integral over the pixel. -/
theorem pixel_integral (F : ℝ × ℝ → ℝ≥0∞) (hF : Measurable F) (x y : ℕ) :
    ∫⁻ s, F ((x : ℝ) + s.1, (y : ℝ) + s.2) ∂square =
      ∫⁻ p in Set.Ioo (x : ℝ) (x + 1) ×ˢ Set.Ioo (y : ℝ) (y + 1), F p := by
  have hsq : square = (volume : Measure (ℝ × ℝ)).restrict (Set.Ioo 0 1 ×ˢ Set.Ioo 0 1) := by
    rw [Measure.volume_eq_prod, ← Measure.prod_restrict]; rfl
  rw [hsq]
  have hp : (fun s : ℝ × ℝ => ((x : ℝ), (y : ℝ)) + s) ⁻¹' (Set.Ioo (x : ℝ) (x + 1) ×ˢ Set.Ioo (y : ℝ) (y + 1)) =
      Set.Ioo (0 : ℝ) 1 ×ˢ Set.Ioo (0 : ℝ) 1 := by
    ext s
    simp only [Set.mem_preimage, Set.mem_prod, Set.mem_Ioo, Prod.fst_add, Prod.snd_add]
    constructor
    · rintro ⟨⟨h1, h2⟩, h3, h4⟩
      exact ⟨⟨by linarith, by linarith⟩, by linarith, by linarith⟩
    · rintro ⟨⟨h1, h2⟩, h3, h4⟩
      exact ⟨⟨by linarith, by linarith⟩, by linarith, by linarith⟩
  have := (measurePreserving_add_left (volume : Measure (ℝ × ℝ)) ((x : ℝ), (y : ℝ))).setLIntegral_comp_preimage_emb
    (measurableEmbedding_addLeft ((x : ℝ), (y : ℝ))) F (Set.Ioo (x : ℝ) (x + 1) ×ˢ Set.Ioo (y : ℝ) (y + 1))
  rw [hp] at this
  exact this

/-- **C102 for the box filter** (missing: the filter that scenes get, for which it fails, `mean_refuted`). With the box filter of one pixel, for every number of samples, the mean of each pixel is
the average of the light over the area of that pixel. -/
theorem box_mean_partial (hL : Lawful ray Li) (w h spp : ℕ) (hspp : 0 < spp) :
    ∃ img : Stream → Int → Int → Fin 3 → ℝ, (∀ ω, renderWith defaultBox w h spp ray Li ω = .ok (img ω)) ∧
      ∀ (x y : ℕ) (c : Fin 3), x < w → y < h →
        ∫⁻ ω, ENNReal.ofReal (img ω x y c) ∂uniform =
          ∫⁻ p in Set.Ioo (x : ℝ) (x + 1) ×ˢ Set.Ioo (y : ℝ) (y + 1),
            lightAt ray (fun r => ∫⁻ ω, ENNReal.ofReal ((Li r ω).1.get c) ∂uniform) p := by
  have hr := fun ω => render_pixel_eq (defaultBox (K := ℝ)) (box_wellBehaved (1 / 2) (1 / 2)).support w h spp
    (obsAt ray Li w h ω)
  choose img himg hval using hr
  refine ⟨img, fun ω => by rw [renderWith_eq]; exact himg ω, fun x y c hx hy => ?_⟩
  have hmem : (y, x) ∈ scan w h := mem_scan.2 ⟨hy, hx⟩
  have hn : (spp : ℝ) ≠ 0 := by exact_mod_cast hspp.ne'
  have hn' : (spp : ℝ≥0∞) ≠ 0 := by exact_mod_cast hspp.ne'
  -- almost surely the pixel is the plain mean of its own samples
  have hpix : ∀ᵐ ω ∂uniform, ENNReal.ofReal (img ω x y c) =
      (∑ k ∈ Finset.range spp, ENNReal.ofReal ((result (frame ray Li w h (y, x)) k ω).2.get c)) / spp := by
    filter_upwards [inside hL w h] with ω hω
    have hwt : ∀ k i j, i < h → j < w → sampleWeight (defaultBox (K := ℝ)) (obsAt ray Li w h ω) x y k i j =
        if i = y ∧ j = x then 1 else 0 := by
      intro k i j hi hj
      exact box_weight (hω (i, j) k (mem_scan.2 ⟨hi, hj⟩)) x y i j
    have pick : ∀ (G : ℕ → ℕ → ℝ), ∑ i ∈ Finset.range h, ∑ j ∈ Finset.range w, (if i = y ∧ j = x then G i j else 0) =
        G y x := by
      intro G
      rw [Finset.sum_eq_single y, Finset.sum_eq_single x]
      · rw [if_pos ⟨rfl, rfl⟩]
      · intro j _ hj; rw [if_neg fun hc => hj hc.2]
      · intro hc; exact absurd (Finset.mem_range.2 hx) hc
      · intro i _ hi
        exact Finset.sum_eq_zero fun j _ => if_neg fun hc => hi hc.1
      · intro hc; exact absurd (Finset.mem_range.2 hy) hc
    have tw : totalWeight (defaultBox (K := ℝ)) w h spp (obsAt ray Li w h ω) x y = spp := by
      unfold totalWeight
      have : ∀ k ∈ Finset.range spp, ∑ i ∈ Finset.range h, ∑ j ∈ Finset.range w,
          sampleWeight (defaultBox (K := ℝ)) (obsAt ray Li w h ω) x y k i j = 1 := by
        intro k _
        rw [← pick fun _ _ => 1]
        exact Finset.sum_congr rfl fun i hi => Finset.sum_congr rfl fun j hj =>
          hwt k i j (Finset.mem_range.1 hi) (Finset.mem_range.1 hj)
      rw [Finset.sum_congr rfl this]
      simp
    have tr : totalRadiance (defaultBox (K := ℝ)) w h spp (obsAt ray Li w h ω) x y c =
        ∑ k ∈ Finset.range spp, (result (frame ray Li w h (y, x)) k ω).2.get c := by
      unfold totalRadiance
      refine Finset.sum_congr rfl fun k _ => ?_
      have e : (result (frame ray Li w h (y, x)) k ω).2.get c = (obsAt ray Li w h ω k y x).rad c := rfl
      rw [e, ← pick fun i j => (obsAt ray Li w h ω k i j).rad c]
      refine Finset.sum_congr rfl fun i hi => Finset.sum_congr rfl fun j hj => ?_
      rw [hwt k i j (Finset.mem_range.1 hi) (Finset.mem_range.1 hj)]
      split_ifs <;> simp
    rw [hval ω x y c hx hy, tw, tr, if_neg hn, ENNReal.ofReal_div_of_pos (by exact_mod_cast hspp),
      ENNReal.ofReal_sum_of_nonneg fun k _ => ?_, ENNReal.ofReal_natCast]
    exact (hL.nonneg _ _).get c
  rw [lintegral_congr_ae hpix]
  have mk : ∀ k, Measurable fun ω => ENNReal.ofReal ((result (frame ray Li w h (y, x)) k ω).2.get c) := fun k =>
    ((measurable_get c).comp (measurable_snd.comp (measurable_result (frame_fresh hL w h (y, x) hmem) k))).ennreal_ofReal
  have one : ∀ k, ∫⁻ ω, ENNReal.ofReal ((result (frame ray Li w h (y, x)) k ω).2.get c) ∂uniform =
      ∫⁻ s, lightAt ray (meanLi Li c) ((x : ℝ) + s.1, (y : ℝ) + s.2) ∂square := by
    intro k
    rw [obs_law hL w h (y, x) hmem k (fun a => ENNReal.ofReal (a.2.get c))
      ((measurable_get c).comp measurable_snd).ennreal_ofReal]
    have := shoot_mean hL y x c (fun _ => 1) measurable_const
    simpa using this
  have hdiv : ∀ ω, (∑ k ∈ Finset.range spp, ENNReal.ofReal ((result (frame ray Li w h (y, x)) k ω).2.get c)) / (spp : ℝ≥0∞)
      = (spp : ℝ≥0∞)⁻¹ * ∑ k ∈ Finset.range spp, ENNReal.ofReal ((result (frame ray Li w h (y, x)) k ω).2.get c) :=
    fun ω => by rw [div_eq_mul_inv, mul_comm]
  simp only [hdiv]
  rw [lintegral_const_mul _ (Finset.measurable_sum _ fun k _ => mk k), lintegral_finsetSum _ fun k _ => mk k]
  simp only [one]
  rw [Finset.sum_const, Finset.card_range, nsmul_eq_mul, ← mul_assoc,
    ENNReal.inv_mul_cancel hn' (ENNReal.natCast_ne_top spp), one_mul]
  exact pixel_integral _ (measurable_lightAt hL c) x y

/-! ## The filter that scenes get -/

/-- One sample in an image of one pixel is not weighted: with any filter that is positive on the pixel, the mean is the
plain average of the light. -/
theorem one_sample_mean {flt : Image.Filter ℝ} (hf : flt.Tame) (hpos : ∀ a b, |a| < 1 / 2 → |b| < 1 / 2 → 0 < flt.eval a b)
    (hL : Lawful ray Li) :
    ∃ img : Stream → Int → Int → Fin 3 → ℝ, (∀ ω, renderWith flt 1 1 1 ray Li ω = .ok (img ω)) ∧
      ∀ c : Fin 3, ∫⁻ ω, ENNReal.ofReal (img ω 0 0 c) ∂uniform =
        ∫⁻ p in film 1 1, lightAt ray (fun r => ∫⁻ ω, ENNReal.ofReal ((Li r ω).1.get c) ∂uniform) p := by
  have hr := fun ω => render_pixel_eq flt hf.well.support 1 1 1 (obsAt ray Li 1 1 ω)
  choose img himg hval using hr
  refine ⟨img, fun ω => by rw [renderWith_eq]; exact himg ω, fun c => ?_⟩
  have hmem : ((0, 0) : ℕ × ℕ) ∈ scan 1 1 := mem_scan.2 ⟨one_pos, one_pos⟩
  have hpix : ∀ᵐ ω ∂uniform, ENNReal.ofReal (img ω 0 0 c) =
      ENNReal.ofReal ((result (frame ray Li 1 1 (0, 0)) 0 ω).2.get c) := by
    filter_upwards [inside hL 1 1] with ω hω
    obtain ⟨⟨a1, a2⟩, b1, b2⟩ := hω (0, 0) 0 hmem
    have hw : 0 < sampleWeight flt (obsAt ray Li 1 1 ω) 0 0 0 0 0 := by
      refine hpos _ _ ?_ ?_
      · have e : (samplePos (obsAt ray Li 1 1 ω) 0 0 0).1 = (result (frame ray Li 1 1 (0, 0)) 0 ω).1.1 := by
          simp only [samplePos, Nat.cast_zero, zero_add]; rfl
        rw [e, abs_lt]
        constructor <;> push_cast <;> linarith
      · have e : (samplePos (obsAt ray Li 1 1 ω) 0 0 0).2 = (result (frame ray Li 1 1 (0, 0)) 0 ω).1.2 := by
          simp only [samplePos, Nat.cast_zero, zero_add]; rfl
        rw [e, abs_lt]
        constructor <;> push_cast <;> linarith
    have hv := hval ω 0 0 c one_pos one_pos
    simp only [totalWeight, totalRadiance, Finset.sum_range_one] at hv
    rw [if_neg hw.ne', mul_div_cancel_left₀ _ hw.ne'] at hv
    rw [show img ω 0 0 c = img ω ((0 : ℕ) : Int) ((0 : ℕ) : Int) c from rfl, hv]
    rfl
  rw [lintegral_congr_ae hpix, obs_law hL 1 1 (0, 0) hmem 0 (fun a => ENNReal.ofReal (a.2.get c))
    ((measurable_get c).comp measurable_snd).ennreal_ofReal]
  have h1 := shoot_mean hL 0 0 c (fun _ => 1) measurable_const
  have h2 := film_integral (lightAt ray (meanLi Li c)) (measurable_lightAt hL c) 1 1
  simp only [Finset.sum_range_one] at h2
  refine Eq.trans ?_ h2
  simpa using h1

/-- A scene whose light on the film is the weight of its only pixel. -/
noncomputable def bump (r : ℝ × ℝ) : ℝ := apiDefaultFilter.eval (((0 : ℕ) : ℝ) + 1 / 2 - r.1) (((0 : ℕ) : ℝ) + 1 / 2 - r.2)

noncomputable def bumpLi (r : ℝ × ℝ) (ω : Stream) : V3 ℝ × Stream := (⟨bump r, bump r, bump r⟩, ω)

theorem api_tame : apiDefaultFilter.Tame := gauss_tame 2 2 1 (by norm_num) (by norm_num)

theorem bump_nonneg (r : ℝ × ℝ) : 0 ≤ bump r := api_tame.well.nonneg _ _

theorem bump_continuous : Continuous bump := by
  unfold bump apiDefaultFilter gaussFilter
  fun_prop

theorem bump_le : ∃ C : ℝ, ∀ r, bump r ≤ C := by
  obtain ⟨C, hC⟩ := api_tame.bounded
  exact ⟨C, fun r => hC _ _⟩

theorem bump_get (r : ℝ × ℝ) (ω : Stream) (c : Fin 3) : (bumpLi r ω).1.get c = bump r := by fin_cases c <;> rfl

theorem bump_lawful : Lawful (fun p (_ : ℝ × ℝ) => p) bumpLi where
  cam := measurable_fst
  meas := by
    have mb : Measurable fun q : (ℝ × ℝ) × Stream => bump q.1 := bump_continuous.measurable.comp measurable_fst
    have mv : Measurable fun q : (ℝ × ℝ) × Stream => (⟨bump q.1, bump q.1, bump q.1⟩ : V3 ℝ) := by
      apply measurable_of <;> exact mb
    exact mv.prodMk measurable_snd
  fresh r := fresh_pure _
  nonneg r ω := ⟨bump_nonneg r, bump_nonneg r, bump_nonneg r⟩
  bounded := by
    obtain ⟨C, hC⟩ := bump_le
    refine ⟨ENNReal.ofReal C, ENNReal.ofReal_ne_top, fun r c => ?_⟩
    simp only [bump_get, lintegral_const, measure_univ, mul_one]
    exact ENNReal.ofReal_le_ofReal (hC r)

/-- The assumptions hold for this scene, with a light that varies over the pixel. -/
example : ∃ img : Stream → Int → Int → Fin 3 → ℝ,
    (∀ ω, renderWith defaultBox 2 3 4 (fun p (_ : ℝ × ℝ) => p) bumpLi ω = .ok (img ω)) ∧
    ∫⁻ ω, ENNReal.ofReal (img ω 1 2 0) ∂uniform =
      ∫⁻ p in Set.Ioo (1 : ℝ) 2 ×ˢ Set.Ioo (2 : ℝ) 3, ENNReal.ofReal (bump p) := by
  obtain ⟨img, h1, h2⟩ := box_mean_partial bump_lawful 2 3 4 (by norm_num)
  refine ⟨img, h1, (h2 1 2 0 (by norm_num) (by norm_num)).trans ?_⟩
  norm_num [lightAt, bump_get]

theorem bump_varies : bump (1 / 2, 1 / 2) ≠ bump (1 / 4, 1 / 2) := by
  have h1 : Real.exp (-2 : ℝ) < 1 := by rw [Real.exp_lt_one_iff]; norm_num
  have h2 : Real.exp (-1 / 32 : ℝ) < 1 := by rw [Real.exp_lt_one_iff]; norm_num
  have h3 : Real.exp (-2 : ℝ) < Real.exp (-1 / 32) := Real.exp_lt_exp.2 (by norm_num)
  have e1 : bump (1 / 2, 1 / 2) = (1 - Real.exp (-2)) * (1 - Real.exp (-2)) := by
    simp only [bump, apiDefaultFilter, gaussFilter]
    norm_num
  have e2 : bump (1 / 4, 1 / 2) = (Real.exp (-1 / 32) - Real.exp (-2)) * (1 - Real.exp (-2)) := by
    simp only [bump, apiDefaultFilter, gaussFilter]
    norm_num
  rw [e1, e2]
  intro h
  have := mul_right_cancel₀ (by linarith : (1 - Real.exp (-2) : ℝ) ≠ 0) h
  linarith

/-- **C102 fails** for the filter that scenes get: the mean of an image with a fixed number of samples is not the
filtered light. -/
theorem mean_refuted : ¬ ∀ (R : Type) [MeasurableSpace R] (ray : ℝ × ℝ → ℝ × ℝ → R) (Li : R → Stream → V3 ℝ × Stream),
    Lawful ray Li → ∀ (w h spp : ℕ), 0 < spp → ∀ img : Stream → Int → Int → Fin 3 → ℝ,
      (∀ ω, renderWith apiDefaultFilter w h spp ray Li ω = .ok (img ω)) → ∀ (x y : ℕ) (c : Fin 3), x < w → y < h →
        ∫⁻ ω, ENNReal.ofReal (img ω x y c) ∂uniform =
          filtered apiDefaultFilter w h x y (lightAt ray fun r => ∫⁻ ω, ENNReal.ofReal ((Li r ω).1.get c) ∂uniform) := by
  intro hall
  have hpos : ∀ a b : ℝ, |a| < 1 / 2 → |b| < 1 / 2 → 0 < apiDefaultFilter.eval a b := fun a b ha hb =>
    (gauss_pos_iff 2 2 1 (by norm_num) (by norm_num) (by norm_num) a b).2 ⟨by linarith, by linarith⟩
  obtain ⟨img, himg, hmean⟩ := one_sample_mean api_tame hpos bump_lawful
  have h1 := hall _ _ _ bump_lawful 1 1 1 one_pos img himg 0 0 0 one_pos one_pos
  have h2 := hmean 0
  have hl : (lightAt (fun p (_ : ℝ × ℝ) => p) fun r => ∫⁻ ω, ENNReal.ofReal ((bumpLi r ω).1.get 0) ∂uniform) =
      fun p => ENNReal.ofReal (bump p) := by
    funext p
    simp [lightAt, bump_get]
  rw [hl] at h1 h2
  have h3 : ∫⁻ p in film 1 1, ENNReal.ofReal (bump p) =
      (∫⁻ p in film 1 1, ENNReal.ofReal (bump p) * ENNReal.ofReal (bump p)) / ∫⁻ p in film 1 1, ENNReal.ofReal (bump p) :=
    h2.symm.trans h1
  let μ : Measure (ℝ × ℝ) := volume.restrict (film 1 1)
  have mf : MeasurableSet (film 1 1) := measurableSet_Ioo.prod measurableSet_Ioo
  have hμ : IsProbabilityMeasure μ := by
    refine ⟨?_⟩
    rw [Measure.restrict_apply_univ, film, Measure.volume_eq_prod, Measure.prod_prod]
    simp
  obtain ⟨C, hC⟩ := bump_le
  have int1 : Integrable bump μ := Integrable.of_bound bump_continuous.aestronglyMeasurable C
    (_root_.Filter.Eventually.of_forall fun r => by rw [Real.norm_of_nonneg (bump_nonneg r)]; exact hC r)
  have int2 : Integrable (fun r => bump r * bump r) μ :=
    Integrable.of_bound (bump_continuous.mul bump_continuous).aestronglyMeasurable (C * C)
      (_root_.Filter.Eventually.of_forall fun r => by
        rw [Real.norm_of_nonneg (mul_self_nonneg _)]
        exact mul_self_le_mul_self (bump_nonneg r) (hC r))
  have e1 : ∫⁻ p in film 1 1, ENNReal.ofReal (bump p) = ENNReal.ofReal (∫ p, bump p ∂μ) :=
    (ofReal_integral_eq_lintegral_ofReal int1 (_root_.Filter.Eventually.of_forall bump_nonneg)).symm
  have e2 : ∫⁻ p in film 1 1, ENNReal.ofReal (bump p) * ENNReal.ofReal (bump p) =
      ENNReal.ofReal (∫ p, bump p * bump p ∂μ) := by
    rw [ofReal_integral_eq_lintegral_ofReal int2 (_root_.Filter.Eventually.of_forall fun r => mul_self_nonneg _)]
    refine lintegral_congr fun r => ?_
    rw [ENNReal.ofReal_mul (bump_nonneg r)]
  have hne : ∫⁻ p in film 1 1, ENNReal.ofReal (bump p) ≠ 0 := reaches api_tame (1 / 2) (by norm_num) hpos 1 1 0 0 one_pos one_pos
  set m := ∫ p, bump p ∂μ with hm
  have hm0 : 0 < m := by
    rw [e1] at hne
    exact ENNReal.ofReal_pos.1 (pos_iff_ne_zero.2 hne)
  rw [e1, e2, ← ENNReal.ofReal_div_of_pos hm0] at h3
  have h4 : m = (∫ p, bump p * bump p ∂μ) / m := by
    have := congrArg ENNReal.toReal h3
    rwa [ENNReal.toReal_ofReal hm0.le,
      ENNReal.toReal_ofReal (div_nonneg (integral_nonneg fun r => mul_self_nonneg _) hm0.le)] at this
  have h5 : ∫ p, bump p * bump p ∂μ = m * m := by
    rw [eq_div_iff hm0.ne'] at h4
    exact h4.symm
  have h6 : ∫ p, (bump p - m) * (bump p - m) ∂μ = 0 := by
    have : ∀ p, (bump p - m) * (bump p - m) = bump p * bump p - 2 * m * bump p + m * m := fun p => by ring
    simp only [this]
    have int4 : Integrable (fun p => bump p * bump p - 2 * m * bump p) μ := int2.sub (int1.const_mul _)
    rw [integral_add int4 (integrable_const _), integral_sub int2 (int1.const_mul _),
      integral_const_mul, h5, ← hm, integral_const]
    simp
    ring
  have int3 : Integrable (fun p => (bump p - m) * (bump p - m)) μ := by
    have : (fun p => (bump p - m) * (bump p - m)) = fun p => bump p * bump p - 2 * m * bump p + m * m := by
      funext p; ring
    rw [this]
    exact (int2.sub (int1.const_mul _)).add (integrable_const _)
  have h7 := (integral_eq_zero_iff_of_nonneg (fun p => mul_self_nonneg _) int3).1 h6
  have h8 : volume (film 1 1 ∩ {p | bump p ≠ m}) = 0 := by
    have := (ae_restrict_iff' mf).1 h7
    refine measure_mono_null ?_ this
    rintro p ⟨hp, hne⟩ hc
    have := mul_self_eq_zero.1 (hc hp)
    exact hne (by linarith)
  have hopen : IsOpen (film 1 1 ∩ {p | bump p ≠ m}) :=
    (isOpen_Ioo.prod isOpen_Ioo).inter (isOpen_ne_fun bump_continuous continuous_const)
  have hempty := (hopen.measure_eq_zero_iff volume).1 h8
  have hin : ∀ p ∈ film 1 1, bump p = m := by
    intro p hp
    by_contra hc
    have : p ∈ film 1 1 ∩ {p | bump p ≠ m} := ⟨hp, hc⟩
    rw [hempty] at this
    exact this
  refine bump_varies ((hin _ ?_).trans (hin _ ?_).symm)
  · norm_num [film]
  · norm_num [film]

end Feign.Image
