import Verif.Camera.LensProps

/-!
# C106 for the path integrator, and an image that is known
-/

set_option linter.unusedSectionVars false
set_option linter.unusedVariables false

namespace Feign.Camera

open MeasureTheory Warp Image Sampling Integrators _root_.Filter Topology
open scoped ENNReal

/-- A scene that looks only at where a ray starts and goes. -/
def line (s : Sight) : Integrators.Ray := (s.1, s.2.1)

theorem measurable_line : Measurable line := measurable_fst.prodMk (measurable_fst.comp measurable_snd)

/-- **C106, path tracing.** With grey factors of at least a ten-thousandth, each pixel of the image that the path
integrator makes through the camera tends to the filtered mean over the lens of the light carried back along paths of
at most `n` segments. -/
theorem lens_path_image {R : Type} [MeasurableSpace R] {c : Persp} (h : c.Ok) (hf : 0 < c.focal) {t : Xf ℝ} (ht : t.Aff)
    {see : Sight → R} (hsee : Measurable see) {ray : ℝ × ℝ → ℝ × ℝ → R} (hs : c.Shows t see ray) {W : World R}
    (hW : W.Lawful) (hg : W.Grey) {quot : ℝ → ℝ → ℝ} (hq : IsQuot quot) (n : ℕ) {Li : R → Stream → V3 ℝ × Stream}
    (hLi : W.Traces quot n Li) (M : ℝ) (hM : ∀ i r, W.carried i n true r ≤ ENNReal.ofReal M) :
    ∀ᵐ ω ∂uniform, ∃ img : ℕ → Int → Int → Fin 3 → ℝ,
      (∀ spp, renderWith apiDefaultFilter c.width c.height spp ray Li ω = .ok (img spp)) ∧
      ∀ (x y : ℕ) (k : Fin 3), x < c.width → y < c.height →
        Tendsto (fun spp => img spp x y k) atTop
          (𝓝 (filtered apiDefaultFilter c.width c.height x y
            (c.throughLens t fun s => W.carried k n true (see s))).toReal) := by
  filter_upwards [path_image_grey hW hg hq n hLi M hM (persp_measurable h hf ht hsee hs) c.width c.height]
    with ω ⟨img, h1, h2⟩
  refine ⟨img, h1, fun x y k hx hy => ?_⟩
  have := h2 x y k hx hy
  have hm : Measurable (W.carried k n true) :=
    (measurable_carried W hW k n).comp (measurable_const.prodMk measurable_id)
  rwa [lens_light h hf ht hsee hs _ hm] at this

/-! ## The horizon -/

/-- Only the light that the filter reaches counts. -/
theorem filtered_local (w h x y : ℕ) (hx : x < w) (hy : y < h) (light : ℝ × ℝ → ℝ≥0∞) (e : ℝ≥0∞)
    (hl : ∀ p ∈ film w h, |(y : ℝ) + 1 / 2 - p.2| < 2 → light p = e) :
    filtered apiDefaultFilter w h x y light = e := by
  rw [← filtered_default_const w h x y hx hy e]
  unfold filtered
  congr 1
  refine setLIntegral_congr_fun (measurableSet_Ioo.prod measurableSet_Ioo) fun p hp => ?_
  by_cases hd : |(y : ℝ) + 1 / 2 - p.2| < 2
  · simp only [hl p hp hd]
  · have hz : weightAt apiDefaultFilter x y p = 0 := by
      unfold weightAt
      rw [ENNReal.ofReal_eq_zero]
      by_contra hn
      exact hd ((gauss_pos_iff 2 2 1 (by norm_num) (by norm_num) (by norm_num) _ _).1 (not_le.1 hn)).2
    simp only [hz, zero_mul]

/-- **C106, an image that is known.** A pinhole camera one unit above a grey floor of albedo 1/2 that reaches to the
horizon, under a white sky, looks along the floor. Whatever its field of view and size, the rows more than two pixels
above the middle of the image tend to the sky, and those more than two pixels below it tend to the floor: row 0 is the
top. -/
theorem horizon_image {c : Persp} (h : c.Ok) (hf : 0 < c.focal) (h0 : c.radius = 0) {quot : ℝ → ℝ → ℝ}
    (hq : IsQuot quot) (n : ℕ) :
    ∃ t ray Li, cameraToWorld Xf.one ⟨0, 0, 1⟩ ⟨0, 1, 1⟩ ⟨0, 0, 1⟩ = some t ∧ c.Shows t line ray ∧
      (floor (1 / 2)).world.Traces quot (n + 2) Li ∧
      ∀ᵐ ω ∂uniform, ∃ img : ℕ → Int → Int → Fin 3 → ℝ,
        (∀ spp, renderWith apiDefaultFilter c.width c.height spp ray Li ω = .ok (img spp)) ∧
        ∀ (x y : ℕ) (k : Fin 3), x < c.width → y < c.height →
          ((y : ℝ) + 1 / 2 + 2 ≤ c.height / 2 → Tendsto (fun spp => img spp x y k) atTop (𝓝 1)) ∧
          ((c.height : ℝ) / 2 ≤ y + 1 / 2 - 2 → Tendsto (fun spp => img spp x y k) atTop (𝓝 (1 / 2))) := by
  classical
  have hv : GoodView ⟨0, 0, 1⟩ ⟨0, 1, 1⟩ ⟨0, 0, 1⟩ := fun e => by
    have := congrArg V3.x e
    norm_num [V3.cross] at this
  obtain ⟨x, y, z, hax, t, ht, htv, hta, hpt, hvec⟩ :=
    cameraToWorld_spec Xf.one Xf.valid_one ⟨M4.Affine.one, M4.Affine.one⟩ _ _ _ hv
  obtain ⟨x', y', z', hax', -, -, -, -, -, -, hz, hxu, hyu⟩ := lookAt_frame _ _ _ hv
  rw [hax] at hax'
  simp only [Option.some.injEq, Prod.mk.injEq] at hax'
  obtain ⟨rfl, rfl, rfl⟩ := hax'
  have hxz : x.z = 0 := by simpa [V3.dot] using hxu
  have hyz : 0 < y.z := by simpa [V3.dot] using hyu
  have hzz : z.z = 0 := by
    have h1 := congrArg V3.z hz
    have h2 : ((⟨0, 1, 1⟩ : V3 ℝ) - ⟨0, 0, 1⟩).norm = 1 := by
      simp [V3.norm]
    rw [h2] at h1
    simpa using h1
  -- heights of the rays
  have hvz : ∀ v, (t.vec v).z = y.z * v.y := by
    intro v
    rw [hvec, Xf.one_vec _ _ rfl]
    simp only [place, V3.add_z, V3.smul_z, V3.zero_z, hxz, hzz]
    ring
  have hoz : (place3 t (c.lensPoint (0, 0))).z = 1 := by
    have h1 := hpt (c.lensPoint (0, 0))
    rw [Xf.point_affine t hta.1, Xf.one_point _ _ rfl] at h1
    have h2 : place3 t (c.lensPoint (0, 0)) = place x y z ⟨0, 0, 1⟩ (c.lensPoint (0, 0)) := Option.some.inj h1
    rw [h2]
    simp [place, Persp.lensPoint]
  have hw : (0 : ℝ) < c.width := Nat.cast_pos.2 (Nat.pos_of_ne_zero h.w)
  have hh : (0 : ℝ) < c.height := Nat.cast_pos.2 (Nat.pos_of_ne_zero h.h)
  have hk := h.tan_pos.2.2
  have hdz : ∀ p : ℝ × ℝ, ∃ s > 0, (c.lensRay t p (0, 0)).2.1.z = s * (1 - 2 * (p.2 / c.height)) := by
    intro p
    have hne : c.focus p - c.lensPoint (0, 0) ≠ 0 := fun e => by
      have := congrArg V3.z e
      simp [Persp.focus, Persp.filmPoint, Persp.lensPoint] at this
      linarith
    have hn := V3.norm_pos _ hne
    refine ⟨y.z * (Real.tan (c.fov / 2 * (Real.pi / 180)) * (c.height / c.width) * c.focal *
      (1 / (c.focus p - c.lensPoint (0, 0)).norm)), by positivity, ?_⟩
    simp only [Persp.lensRay, hvz]
    simp only [V3.smul_y, V3.sub_y, Persp.focus, Persp.filmPoint, Persp.lensPoint]
    ring
  obtain ⟨ray, hs⟩ := shows_exists h hf hta line
  have hl := room_lawful _ (floor_lawful (1 / 2) (by norm_num))
  refine ⟨t, ray, _, ht, hs, traces_trace _ hl hq (n + 2), ?_⟩
  filter_upwards [lens_path_image h hf hta measurable_line hs hl (floor_grey _ (by norm_num)) hq (n + 2)
    (traces_trace _ hl hq (n + 2)) 1 (fun i r => floor_bounded n i true r)] with ω ⟨img, h1, h2⟩
  refine ⟨img, h1, fun px py k hx hy => ⟨fun hup => ?_, fun hdown => ?_⟩⟩
  · have := h2 px py k hx hy
    rw [filtered_local _ _ _ _ hx hy _ 1] at this
    · simpa using this
    · intro p hp hd
      rw [pinhole_light c h0]
      refine sky _ k (n + 1) true _ fun hc => ?_
      obtain ⟨s, hs0, hs1⟩ := hdz p
      have hc2 : (c.lensRay t p (0, 0)).2.1.z < 0 := hc.2
      rw [hs1] at hc2
      have h3 : 1 - 2 * (p.2 / c.height) < 0 := by
        by_contra h4
        exact absurd hc2 (not_lt.2 (mul_nonneg hs0.le (not_lt.1 h4)))
      have h5 : p.2 < c.height / 2 := by linarith [(abs_lt.1 hd).1]
      have h6 : p.2 / c.height < 1 / 2 := by rw [div_lt_iff₀ hh]; linarith
      linarith
  · have := h2 px py k hx hy
    rw [filtered_local _ _ _ _ hx hy _ (ENNReal.ofReal (1 / 2))] at this
    · rwa [ENNReal.toReal_ofReal (by norm_num)] at this
    · intro p hp hd
      rw [pinhole_light c h0]
      obtain ⟨s, hs0, hs1⟩ := hdz p
      have h5 : (c.height : ℝ) / 2 < p.2 := by linarith [(abs_lt.1 hd).2]
      have h6 : 1 / 2 < p.2 / c.height := by rw [lt_div_iff₀ hh]; linarith
      refine floor_carried _ (by norm_num) k n true _ ?_ ?_
      · show 0 < (place3 t (c.lensPoint (0, 0))).z
        rw [hoz]; norm_num
      · show (c.lensRay t p (0, 0)).2.1.z < 0
        rw [hs1]
        exact mul_neg_of_pos_of_neg hs0 (by linarith)

/-- Such a camera: 90 degrees, 8 × 8 pixels. Its rows 0 and 1 tend to the sky, its rows 6 and 7 to the floor. -/
example : ∃ c : Persp, c.Ok ∧ 0 < c.focal ∧ c.radius = 0 ∧ ((1 : ℕ) : ℝ) + 1 / 2 + 2 ≤ c.height / 2 ∧
    (c.height : ℝ) / 2 ≤ ((6 : ℕ) : ℝ) + 1 / 2 - 2 := by
  refine ⟨⟨0, 1, 90, 1 / 10000, 10000, 8, 8⟩, ⟨by norm_num, by norm_num, by norm_num, by norm_num, by norm_num,
    by norm_num⟩, by norm_num, rfl, by norm_num, by norm_num⟩

end Feign.Camera
