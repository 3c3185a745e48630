import Verif.Camera.PerspectiveProps
import Verif.Camera.LensProps
import Verif.Image.Unbiased
import Mathlib.MeasureTheory.Measure.Lebesgue.EqHaar
import Mathlib.Tactic.FieldSimp
import Mathlib.Tactic.NormNum

/-!
# C129: the size of the picture decides how finely the view is sampled, not what is in view
-/

set_option linter.unusedSectionVars false
set_option linter.unusedVariables false

namespace Feign.Camera
open V3

/-- The camera with another picture size. -/
def Persp.sized (c : Persp) (w h : ℕ) : Persp := { c with width := w, height := h }

/-- **C129, rays.** Two picture sizes of the same proportions: the rays at corresponding film positions are the same, for
every lens, field of view and placement, and also where the camera is not usable. -/
theorem same_proportions (c : Persp) (w h w' h' : ℕ) (hw : w ≠ 0) (hh : h ≠ 0) (hw' : w' ≠ 0) (hh' : h' ≠ 0)
    (hp : w * h' = w' * h) (t : Xf ℝ) (film film' app : V2 ℝ) (hx : film.x / w = film'.x / w') (hy : film.y / h = film'.y / h') :
    (c.sized w h).sampleRay t film app = (c.sized w' h').sampleRay t film' app := by
  have ha : (w : ℝ) / h = w' / h' := by
    rw [div_eq_div_iff (by exact_mod_cast hh) (by exact_mod_cast hh')]
    exact_mod_cast hp
  have hs : (c.sized w h).sampleToCamera = (c.sized w' h').sampleToCamera := by
    unfold Persp.sampleToCamera Persp.sized
    simp only [hw, hh, hw', hh', false_or, ha]
  unfold Persp.sampleRay
  rw [hs]
  show ((c.sized w' h').sampleToCamera.bind fun s => (s.point ⟨film.x / w, film.y / h, 0⟩).bind _) =
    ((c.sized w' h').sampleToCamera.bind fun s => (s.point ⟨film'.x / w', film'.y / h', 0⟩).bind _)
  rw [hx, hy]
  rfl

/-- **C129, height.** The field of view is that of the width: a taller picture of the same width shows the same rays in its
middle rows and adds rows above and below. -/
theorem taller_picture (c : Persp) (w h h' : ℕ) (hc : (c.sized w h).Ok) (hc' : (c.sized w h').Ok) (hf : 0 < c.focal)
    (t : Xf ℝ) (ht : t.Aff) (x y : ℝ) (app : V2 ℝ) :
    (c.sized w h').sampleRay t ⟨x, y + ((h' : ℝ) - h) / 2⟩ app = (c.sized w h).sampleRay t ⟨x, y⟩ app := by
  obtain ⟨ap, r, hr, hap, hro, hd, hn, hfa⟩ := sampleRay_spec (c.sized w h) hc hf t ht ⟨x, y⟩ app
  obtain ⟨ap', r', hr', hap', hro', hd', hn', hfa'⟩ :=
    sampleRay_spec (c.sized w h') hc' hf t ht ⟨x, y + ((h' : ℝ) - h) / 2⟩ app
  have hh : (h : ℝ) ≠ 0 := Nat.cast_ne_zero.mpr hc.h
  have hh' : (h' : ℝ) ≠ 0 := Nat.cast_ne_zero.mpr hc'.h
  have hw : (w : ℝ) ≠ 0 := Nat.cast_ne_zero.mpr hc.w
  have hfp : (c.sized w h').filmPoint ⟨x, y + ((h' : ℝ) - h) / 2⟩ = (c.sized w h).filmPoint ⟨x, y⟩ := by
    unfold Persp.filmPoint Persp.sized
    dsimp only
    ext
    · rfl
    · dsimp only
      field_simp
      ring
    · rfl
  have happ : ap' = ap := by rw [hap', hap]; rfl
  subst happ
  rw [hfp] at hd' hn' hfa'
  rw [hr, hr']
  have ho : r'.origin = r.origin := Option.some.inj (hro'.symm.trans hro)
  have hdd : r'.dir = r.dir := hd'.1.trans hd.1.symm
  have hnn : r'.near = r.near := hn'.trans hn.symm
  have hff : r'.far = r.far := hfa'.trans hfa.symm
  cases r; cases r'
  simp only at ho hdd hnn hff
  subst ho hdd hnn hff
  rfl

end Feign.Camera

namespace Feign.Image

open Sampling MeasureTheory Warp Integrators _root_.Filter Topology
open scoped ENNReal

theorem cells (u : ℝ) (j : ℕ) (t : ℝ) : t ∈ Set.Ico u (u + j) ↔ ∃ a ∈ Finset.range j, t ∈ Set.Ico (u + (a : ℝ)) (u + a + 1) := by
  constructor
  · rintro ⟨h1, h2⟩
    have h0 : 0 ≤ t - u := by linarith
    refine ⟨⌊t - u⌋₊, ?_, ?_, ?_⟩
    · rw [Finset.mem_range, Nat.floor_lt h0]; linarith
    · have := Nat.floor_le h0; linarith
    · have := Nat.lt_floor_add_one (t - u); linarith
  · rintro ⟨a, ha, h1, h2⟩
    have : (a : ℝ) + 1 ≤ j := by exact_mod_cast Finset.mem_range.mp ha
    have h0 : (0 : ℝ) ≤ a := Nat.cast_nonneg a
    exact ⟨by linarith, by linarith⟩

theorem cell_unique (u t : ℝ) (a b : ℕ) (ha : t ∈ Set.Ico (u + (a : ℝ)) (u + a + 1)) (hb : t ∈ Set.Ico (u + (b : ℝ)) (u + b + 1)) :
    a = b := by
  obtain ⟨h1, h2⟩ := ha
  obtain ⟨h3, h4⟩ := hb
  have h5 : (a : ℝ) < b + 1 := by linarith
  have h6 : (b : ℝ) < a + 1 := by linarith
  have h7 : a < b + 1 := by exact_mod_cast h5
  have h8 : b < a + 1 := by exact_mod_cast h6
  omega

theorem open_square (a b c d : ℝ) : (Set.Ioo a b ×ˢ Set.Ioo c d : Set (ℝ × ℝ)) =ᵐ[volume] Set.Ico a b ×ˢ Set.Ico c d := by
  rw [Measure.volume_eq_prod]
  exact Measure.set_prod_ae_eq Ioo_ae_eq_Ico Ioo_ae_eq_Ico

/-- The light of a square of `j × j` pixels is the sum over its pixels. -/
theorem block_sum (F : ℝ × ℝ → ℝ≥0∞) (u v : ℝ) (j : ℕ) :
    ∫⁻ p in Set.Ioo u (u + j) ×ˢ Set.Ioo v (v + j), F p =
      ∑ a ∈ Finset.range j, ∑ b ∈ Finset.range j,
        ∫⁻ p in Set.Ioo (u + (a : ℝ)) (u + a + 1) ×ˢ Set.Ioo (v + (b : ℝ)) (v + b + 1), F p := by
  have hu : (Set.Ico u (u + j) ×ˢ Set.Ico v (v + j) : Set (ℝ × ℝ)) = ⋃ i ∈ Finset.range j ×ˢ Finset.range j,
      Set.Ico (u + (i.1 : ℝ)) (u + i.1 + 1) ×ˢ Set.Ico (v + (i.2 : ℝ)) (v + i.2 + 1) := by
    ext ⟨s, t⟩
    simp only [Set.mem_prod, Set.mem_iUnion, Finset.mem_product, cells u j s, cells v j t]
    constructor
    · rintro ⟨⟨a, ha, h1⟩, b, hb, h2⟩
      exact ⟨(a, b), ⟨ha, hb⟩, h1, h2⟩
    · rintro ⟨⟨a, b⟩, ⟨ha, hb⟩, h1, h2⟩
      exact ⟨⟨a, ha, h1⟩, b, hb, h2⟩
  rw [setLIntegral_congr (open_square _ _ _ _), hu, lintegral_biUnion_finset]
  · rw [Finset.sum_product]
    refine Finset.sum_congr rfl fun a _ => Finset.sum_congr rfl fun b _ => ?_
    exact (setLIntegral_congr (open_square _ _ _ _)).symm
  · intro i _ i' _ hne
    rw [Function.onFun, Set.disjoint_left]
    rintro ⟨s, t⟩ ⟨h1, h2⟩ ⟨h3, h4⟩
    apply hne
    exact Prod.ext (cell_unique u s _ _ h1 h3) (cell_unique v t _ _ h2 h4)
  · intro i _
    exact measurableSet_Ico.prod measurableSet_Ico

/-- Light measured on a film enlarged by `j`. -/
theorem enlarged (F : ℝ × ℝ → ℝ≥0∞) (x y : ℝ) (j : ℕ) (hj : 0 < j) :
    ∫⁻ q in Set.Ioo (j * x) (j * x + j) ×ˢ Set.Ioo (j * y) (j * y + j), F q =
      (j : ℝ≥0∞) ^ 2 * ∫⁻ p in Set.Ioo x (x + 1) ×ˢ Set.Ioo y (y + 1), F (j * p.1, j * p.2) := by
  have hr : (j : ℝ) ≠ 0 := by exact_mod_cast hj.ne'
  have hr0 : (0 : ℝ) < j := by exact_mod_cast hj
  have hmap := Measure.map_addHaar_smul (volume : Measure (ℝ × ℝ)) hr
  have hemb : MeasurableEmbedding (fun p : ℝ × ℝ => (j : ℝ) • p) := (Homeomorph.smulOfNeZero (j : ℝ) hr).measurableEmbedding
  have hd : Module.finrank ℝ (ℝ × ℝ) = 2 := by simp
  rw [hd] at hmap
  have hpre : (fun p : ℝ × ℝ => (j : ℝ) • p) ⁻¹' (Set.Ioo (j * x) (j * x + j) ×ˢ Set.Ioo (j * y) (j * y + j)) =
      Set.Ioo x (x + 1) ×ˢ Set.Ioo y (y + 1) := by
    ext ⟨s, t⟩
    simp only [Set.mem_preimage, Set.mem_prod, Set.mem_Ioo, Prod.smul_fst, Prod.smul_snd, smul_eq_mul]
    have e : ∀ a b : ℝ, (j * a < j * b ↔ a < b) := fun a b => mul_lt_mul_iff_right₀ hr0
    have e2 : ∀ a : ℝ, (j : ℝ) * a + j = j * (a + 1) := fun a => by ring
    simp only [e2, e]
  have key : ∫⁻ q in Set.Ioo (j * x) (j * x + j) ×ˢ Set.Ioo (j * y) (j * y + j), F q
        ∂(Measure.map (fun p : ℝ × ℝ => (j : ℝ) • p) volume) =
      ∫⁻ p in Set.Ioo x (x + 1) ×ˢ Set.Ioo y (y + 1), F ((j : ℝ) • p) := by
    rw [hemb.restrict_map, hpre, hemb.lintegral_map]
  rw [hmap, setLIntegral_smul_measure] at key
  have hc : ENNReal.ofReal |((j : ℝ) ^ 2)⁻¹| = ((j : ℝ≥0∞) ^ 2)⁻¹ := by
    rw [abs_of_pos (by positivity), ENNReal.ofReal_inv_of_pos (by positivity), ENNReal.ofReal_pow hr0.le, ENNReal.ofReal_natCast]
  rw [hc, smul_eq_mul] at key
  have h0 : ((j : ℝ≥0∞) ^ 2) ≠ 0 := by simp [hj.ne']
  have ht : ((j : ℝ≥0∞) ^ 2) ≠ ∞ := by simp
  have : ∀ p : ℝ × ℝ, (j : ℝ) • p = (j * p.1, j * p.2) := fun p => rfl
  simp only [this] at key
  rw [← key, ← mul_assoc, ENNReal.mul_inv_cancel h0 ht, one_mul]

variable {R : Type} [MeasurableSpace R] {ray ray' : ℝ × ℝ → ℝ × ℝ → R} {Li : R → Stream → V3 ℝ × Stream}

/-- **C129, means** (missing: filters that reach beyond a pixel, which are given in pixels and so get narrower). With the box
filter of one pixel: a picture `j` times as wide and as high shows more detail of the same view. The average of the `j × j`
pixels that replace a pixel has the mean of that pixel, whatever the numbers of samples. -/
theorem finer_mean_partial (hL : Lawful ray Li) (hL' : Lawful ray' Li) (j : ℕ) (hj : 0 < j)
    (hr : ∀ p a, ray' (j * p.1, j * p.2) a = ray p a) (w h spp spp' : ℕ) (hs : 0 < spp) (hs' : 0 < spp') :
    ∃ img img' : Stream → Int → Int → Fin 3 → ℝ, (∀ ω, renderWith defaultBox w h spp ray Li ω = .ok (img ω)) ∧
      (∀ ω, renderWith defaultBox (j * w) (j * h) spp' ray' Li ω = .ok (img' ω)) ∧
      ∀ (x y : ℕ) (c : Fin 3), x < w → y < h →
        (j : ℝ≥0∞) ^ 2 * ∫⁻ ω, ENNReal.ofReal (img ω x y c) ∂uniform =
          ∑ a ∈ Finset.range j, ∑ b ∈ Finset.range j,
            ∫⁻ ω, ENNReal.ofReal (img' ω ((j * x + a : ℕ) : Int) ((j * y + b : ℕ) : Int) c) ∂uniform := by
  obtain ⟨img, h1, h2⟩ := box_mean_partial hL w h spp hs
  obtain ⟨img', h1', h2'⟩ := box_mean_partial hL' (j * w) (j * h) spp' hs'
  refine ⟨img, img', h1, h1', fun x y c hx hy => ?_⟩
  rw [h2 x y c hx hy]
  have hlt : ∀ a x w, a < j → x < w → j * x + a < j * w := by
    intro a x w ha hx
    calc j * x + a < j * x + j := by omega
      _ = j * (x + 1) := by ring
      _ ≤ j * w := Nat.mul_le_mul_left j hx
  have e : ∀ a ∈ Finset.range j, ∀ b ∈ Finset.range j,
      ∫⁻ ω, ENNReal.ofReal (img' ω ((j * x + a : ℕ) : Int) ((j * y + b : ℕ) : Int) c) ∂uniform =
      ∫⁻ p in Set.Ioo ((j : ℝ) * x + (a : ℝ)) (j * x + a + 1) ×ˢ Set.Ioo ((j : ℝ) * y + (b : ℝ)) (j * y + b + 1),
        lightAt ray' (fun r => ∫⁻ ω, ENNReal.ofReal ((Li r ω).1.get c) ∂uniform) p := by
    intro a ha b hb
    rw [h2' _ _ c (hlt a x w (Finset.mem_range.mp ha) hx) (hlt b y h (Finset.mem_range.mp hb) hy)]
    push_cast
    rfl
  rw [Finset.sum_congr rfl fun a ha => Finset.sum_congr rfl fun b hb => e a ha b hb, ← block_sum, enlarged _ _ _ j hj]
  congr 2
  funext p
  unfold lightAt
  simp only [hr]

end Feign.Image

namespace Feign.Camera
open Image Sampling MeasureTheory Integrators
open scoped ENNReal

/-- The same for the perspective camera, with any lens. -/
theorem finer_view_partial {R : Type} [MeasurableSpace R] {c : Persp} (h : c.Ok) (hf : 0 < c.focal) {t : Xf ℝ} (ht : t.Aff)
    {see : Sight → R} (hsee : Measurable see) (j : ℕ) (hj : 0 < j) {ray ray' : ℝ × ℝ → ℝ × ℝ → R} (hs : c.Shows t see ray)
    (hs' : (c.sized (j * c.width) (j * c.height)).Shows t see ray') {Li : R → Stream → V3 ℝ × Stream}
    (hL : Lawful ray Li) (spp spp' : ℕ) (hspp : 0 < spp) (hspp' : 0 < spp') :
    ∃ img img' : Stream → Int → Int → Fin 3 → ℝ,
      (∀ ω, renderWith defaultBox c.width c.height spp ray Li ω = .ok (img ω)) ∧
      (∀ ω, renderWith defaultBox (j * c.width) (j * c.height) spp' ray' Li ω = .ok (img' ω)) ∧
      ∀ (x y : ℕ) (k : Fin 3), x < c.width → y < c.height →
        (j : ℝ≥0∞) ^ 2 * ∫⁻ ω, ENNReal.ofReal (img ω x y k) ∂uniform =
          ∑ a ∈ Finset.range j, ∑ b ∈ Finset.range j,
            ∫⁻ ω, ENNReal.ofReal (img' ω ((j * x + a : ℕ) : Int) ((j * y + b : ℕ) : Int) k) ∂uniform := by
  have hjr : (j : ℝ) ≠ 0 := by exact_mod_cast hj.ne'
  have hok' : (c.sized (j * c.width) (j * c.height)).Ok :=
    ⟨Nat.mul_ne_zero hj.ne' h.w, Nat.mul_ne_zero hj.ne' h.h, h.n, h.nf, h.f0, h.f1⟩
  have hL' : Lawful ray' Li :=
    ⟨persp_measurable hok' hf ht hsee hs', hL.meas, hL.fresh, hL.nonneg, hL.bounded⟩
  refine finer_mean_partial hL hL' j hj (fun p a => ?_) c.width c.height spp spp' hspp hspp'
  obtain ⟨o, d, n, f, h1, h2⟩ := hs p a
  obtain ⟨o', d', n', f', h1', h2'⟩ := hs' (j * p.1, j * p.2) a
  have hw : (c.width : ℝ) ≠ 0 := by exact_mod_cast h.w
  have hh : (c.height : ℝ) ≠ 0 := by exact_mod_cast h.h
  have key := same_proportions c c.width c.height (j * c.width) (j * c.height) h.w h.h hok'.w hok'.h (by ring) t
    ⟨p.1, p.2⟩ ⟨j * p.1, j * p.2⟩ ⟨a.1, a.2⟩ (by push_cast; field_simp) (by push_cast; field_simp)
  have hself : c.sized c.width c.height = c := rfl
  rw [hself, h1, h1'] at key
  simp only [Option.some.injEq, Ray.mk.injEq] at key
  obtain ⟨rfl, rfl, hn, hfa⟩ := key
  have hn' : n = n' := by simpa [Ext.fin] using hn
  have hf' : f = f' := by simpa [Ext.fin] using hfa
  rw [h2, h2', hn', hf']

/-- A picture of 4 by 3 pixels and one of 400 by 300, through an open lens, of a light that depends on the direction. -/
example (t : Xf ℝ) (ht : t.Aff) : ∃ (c : Persp) (ray ray' : ℝ × ℝ → ℝ × ℝ → ℝ × ℝ) (img img' : Stream → Int → Int → Fin 3 → ℝ),
    c.Ok ∧ 0 < c.radius ∧ (c.sized 400 300).Shows t (fun s => (s.2.1.x, s.2.1.y)) ray' ∧
      (∀ ω, renderWith defaultBox 4 3 16 ray bumpLi ω = .ok (img ω)) ∧
      (∀ ω, renderWith defaultBox 400 300 1 ray' bumpLi ω = .ok (img' ω)) ∧
      (100 : ℝ≥0∞) ^ 2 * ∫⁻ ω, ENNReal.ofReal (img ω 1 2 0) ∂uniform =
        ∑ a ∈ Finset.range 100, ∑ b ∈ Finset.range 100,
          ∫⁻ ω, ENNReal.ofReal (img' ω ((100 + a : ℕ) : Int) ((200 + b : ℕ) : Int) 0) ∂uniform := by
  let c : Persp := ⟨1 / 10, 5, 60, 1 / 100, 1000, 4, 3⟩
  have h : c.Ok := ⟨by norm_num [c], by norm_num [c], by norm_num [c], by norm_num [c], by norm_num [c], by norm_num [c]⟩
  have h' : (c.sized (100 * c.width) (100 * c.height)).Ok :=
    ⟨by norm_num [c, Persp.sized], by norm_num [c, Persp.sized], h.n, h.nf, h.f0, h.f1⟩
  have hf : 0 < c.focal := by norm_num [c]
  have hsee : Measurable fun s : Sight => (s.2.1.x, s.2.1.y) := by
    have hd : Measurable fun s : Sight => s.2.1 := measurable_fst.comp measurable_snd
    exact (Warp.measurable_x.comp hd).prodMk (Warp.measurable_y.comp hd)
  obtain ⟨ray, hs⟩ := shows_exists h hf ht fun s : Sight => (s.2.1.x, s.2.1.y)
  obtain ⟨ray', hs'⟩ := shows_exists h' hf ht fun s : Sight => (s.2.1.x, s.2.1.y)
  have hL : Lawful ray bumpLi := ⟨persp_measurable h hf ht hsee hs, bump_lawful.meas, bump_lawful.fresh, bump_lawful.nonneg,
    bump_lawful.bounded⟩
  obtain ⟨img, img', h1, h2, h3⟩ := finer_view_partial h hf ht hsee 100 (by norm_num) hs hs' hL 16 1 (by norm_num) (by norm_num)
  exact ⟨c, ray, ray', img, img', h, by norm_num [c], hs', h1, h2, h3 1 2 0 (by norm_num [c]) (by norm_num [c])⟩

end Feign.Camera
