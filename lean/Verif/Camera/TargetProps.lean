import Verif.Camera.Target
import Verif.Camera.PerspectiveProps

/-!
# C112: rendering into an image handed in by the caller
-/

set_option linter.unusedSectionVars false
set_option linter.unusedSimpArgs false
set_option linter.unusedVariables false

namespace Feign.Camera

/-- The camera of the same scene file with another film size. -/
def Persp.resized (c : Persp) (w h : ℕ) : Persp := { c with width := w, height := h }

/-- The image has the proportions the scene file asks for. -/
def SameShape (c : Persp) (w h : ℕ) : Prop := w * c.height = c.width * h

/-- **C112, what is seen.** A film position of the image sees exactly what the film position at the same
fraction of the width and of the height sees in the image of the scene file's own size. -/
theorem target_scaled (c : Persp) (hc : c.Ok) (w h : ℕ) (hw : w ≠ 0) (hh : h ≠ 0) (t : Xf ℝ) (film app : V2 ℝ) :
    c.sampleRayInto w h t film app =
      c.sampleRay t ⟨film.x / w * c.width, film.y / h * c.height⟩ app := by
  have h1 : (c.width : ℝ) ≠ 0 := Nat.cast_ne_zero.mpr hc.w
  have h2 : (c.height : ℝ) ≠ 0 := Nat.cast_ne_zero.mpr hc.h
  unfold Persp.sampleRayInto Persp.sampleRay
  simp only [mul_div_assoc, div_self h1, div_self h2, mul_one]

theorem same_transform (c : Persp) (hc : c.Ok) (w h : ℕ) (hw : w ≠ 0) (hh : h ≠ 0) (hs : SameShape c w h) :
    (c.resized w h).sampleToCamera = c.sampleToCamera := by
  have h1 : (c.width : ℝ) ≠ 0 := Nat.cast_ne_zero.mpr hc.w
  have h2 : (c.height : ℝ) ≠ 0 := Nat.cast_ne_zero.mpr hc.h
  have h3 : (w : ℝ) ≠ 0 := Nat.cast_ne_zero.mpr hw
  have h4 : (h : ℝ) ≠ 0 := Nat.cast_ne_zero.mpr hh
  have hs' : (w : ℝ) * c.height = c.width * h := by exact_mod_cast hs
  have ha : (w : ℝ) / h = (c.width : ℝ) / c.height := by
    rw [div_eq_div_iff h4 h2, hs']
  unfold Persp.sampleToCamera Persp.resized
  dsimp only
  rw [ha]
  simp only [hw, hh, hc.w, hc.h, false_or]

/-- **C112, partial.** An image with the proportions of the scene file shows at every film position what a scene
file asking for that very size would show. Missing: images of other proportions
(`target_view_refuted`, `target_view_iff`). -/
theorem target_view_partial (c : Persp) (hc : c.Ok) (w h : ℕ) (hw : w ≠ 0) (hh : h ≠ 0) (hs : SameShape c w h)
    (t : Xf ℝ) (film app : V2 ℝ) :
    c.sampleRayInto w h t film app = (c.resized w h).sampleRay t film app := by
  unfold Persp.sampleRayInto Persp.sampleRay
  rw [same_transform c hc w h hw hh hs]
  rfl

theorem Persp.Ok.resized {c : Persp} (hc : c.Ok) {w h : ℕ} (hw : w ≠ 0) (hh : h ≠ 0) : (c.resized w h).Ok :=
  ⟨hw, hh, hc.n, hc.nf, hc.f0, hc.f1⟩

/-- Two points on the plane `z = 1` in the same direction are the same. -/
theorem same_direction (p q : V3 ℝ) (hp : p.z = 1) (hq : q.z = 1) (a b : ℝ) (ha : 0 < a)
    (h : p.smul a = q.smul b) : p = q := by
  have hz := congrArg V3.z h
  simp only [V3.smul_z, hp, hq, one_mul] at hz
  subst hz
  have hx := congrArg V3.x h
  have hy := congrArg V3.y h
  simp only [V3.smul_x, V3.smul_y] at hx hy
  ext
  · exact mul_right_cancel₀ ha.ne' hx
  · exact mul_right_cancel₀ ha.ne' hy
  · rw [hp, hq]

theorem vec_one (p : V3 ℝ) : (Xf.one : Xf ℝ).vec p = p := by
  ext <;> simp [Xf.vec, Xf.one, M4.one, M4.topLeft, M3.mulVec]

/-- **C112, exactly when.** For a pinhole camera looking along the axis, the image shows what a scene file asking for
its size would show if and only if it has the proportions of the scene file. -/
theorem target_view_iff (c : Persp) (hc : c.Ok) (hf : 0 < c.focal) (h0 : c.radius = 0) (w h : ℕ) (hw : w ≠ 0)
    (hh : h ≠ 0) :
    (∀ film app : V2 ℝ, c.sampleRayInto w h Xf.one film app = (c.resized w h).sampleRay Xf.one film app) ↔
      SameShape c w h := by
  constructor
  · intro e
    have e := e ⟨0, 0⟩ ⟨0, 0⟩
    rw [target_scaled c hc w h hw hh] at e
    obtain ⟨ap, r, hr, hap, -, ⟨hd, hn⟩, -⟩ := sampleRay_spec c hc hf Xf.one ⟨M4.Affine.one, M4.Affine.one⟩
      ⟨(0 : ℝ) / w * c.width, (0 : ℝ) / h * c.height⟩ ⟨0, 0⟩
    obtain ⟨ap', r', hr', hap', -, ⟨hd', hn'⟩, -⟩ := sampleRay_spec (c.resized w h) (hc.resized hw hh) hf Xf.one
      ⟨M4.Affine.one, M4.Affine.one⟩ ⟨0, 0⟩ ⟨0, 0⟩
    dsimp only at e
    rw [hr, hr'] at e
    obtain rfl : r = r' := Option.some.inj e
    have hz : ap = 0 := by rw [hap, h0]; ext <;> simp
    have hz' : ap' = 0 := by
      rw [hap']
      have : (c.resized w h).radius = 0 := h0
      rw [this]; ext <;> simp
    have sub0 : ∀ p : V3 ℝ, p - 0 = p := fun p => by ext <;> simp
    rw [hz, sub0] at hd hn
    rw [hz', sub0] at hd' hn'
    rw [hd, vec_one, vec_one, V3.smul_smul, V3.smul_smul] at hd'
    have key := same_direction _ _ (by simp [Persp.filmPoint]) (by simp [Persp.filmPoint]) _ _
      (mul_pos hf (one_div_pos.mpr hn)) hd'
    have hy := congrArg V3.y key
    have ht := hc.tan_pos.2.2
    simp only [Persp.filmPoint, Persp.resized, zero_div, zero_mul, mul_zero, sub_zero, one_mul] at hy
    have hy' := mul_left_cancel₀ ht.ne' hy
    have h1 : (c.width : ℝ) ≠ 0 := Nat.cast_ne_zero.mpr hc.w
    have h3 : (w : ℝ) ≠ 0 := Nat.cast_ne_zero.mpr hw
    rw [div_eq_div_iff h1 h3] at hy'
    have : (w : ℝ) * c.height = c.width * h := by linarith
    exact_mod_cast this
  · intro hs film app
    exact target_view_partial c hc w h hw hh hs Xf.one film app

/-- A camera with a 90 degree view and a film twice as wide as high. -/
noncomputable def wide : Persp := ⟨0, 1, 90, 1, 2, 2, 1⟩

theorem wide_ok : wide.Ok := ⟨by simp [wide], by simp [wide], by norm_num [wide], by norm_num [wide], by norm_num [wide],
  by norm_num [wide]⟩

/-- A square image of a scene file that asks for a film twice as wide as high does not show what a scene file asking
for a square film would show. -/
theorem target_view_refuted : ∃ (c : Persp) (w h : ℕ) (t : Xf ℝ) (film app : V2 ℝ), c.Ok ∧ w ≠ 0 ∧ h ≠ 0 ∧
    c.sampleRayInto w h t film app ≠ (c.resized w h).sampleRay t film app := by
  have := mt (target_view_iff wide wide_ok (by norm_num [wide]) rfl 2 2 (by decide) (by decide)).mp
    (by simp [SameShape, wide])
  push Not at this
  obtain ⟨film, app, hne⟩ := this
  exact ⟨wide, 2, 2, Xf.one, film, app, wide_ok, by decide, by decide, hne⟩

/-- **C112, pixels.** On the plane at distance one in front of the camera, one pixel of the image is
`2 tan(fov/2) / w` wide, and its height is its width times `w * height / (width * h)`, for the film size
`width × height` of the scene file: pixels are square exactly when the image has the proportions of the
scene file. -/
theorem target_pixel_shape (c : Persp) (hc : c.Ok) (w h : ℕ) (hw : w ≠ 0) (hh : h ≠ 0) (x y : ℝ) :
    let at_ := fun (x y : ℝ) => c.filmPoint ⟨x / w * c.width, y / h * c.height⟩
    let k := Real.tan (c.fov / 2 * (Real.pi / 180))
    at_ x y - at_ (x + 1) y = ⟨2 * k / w, 0, 0⟩ ∧
    at_ x y - at_ x (y + 1) = ⟨0, 2 * k / w * (w * c.height / (c.width * h)), 0⟩ ∧
    (2 * k / w = 2 * k / w * (w * c.height / (c.width * h)) ↔ SameShape c w h) := by
  have ht := hc.tan_pos.2.2
  have h1 : (c.width : ℝ) ≠ 0 := Nat.cast_ne_zero.mpr hc.w
  have h2 : (c.height : ℝ) ≠ 0 := Nat.cast_ne_zero.mpr hc.h
  have h3 : (w : ℝ) ≠ 0 := Nat.cast_ne_zero.mpr hw
  have h4 : (h : ℝ) ≠ 0 := Nat.cast_ne_zero.mpr hh
  intro at_ k
  refine ⟨?_, ?_, ?_⟩
  · ext <;> simp only [at_, k, Persp.filmPoint, V3.sub_x, V3.sub_y, V3.sub_z]
    · field_simp; ring
    · ring
    · ring
  · ext <;> simp only [at_, k, Persp.filmPoint, V3.sub_x, V3.sub_y, V3.sub_z]
    · ring
    · field_simp; ring
    · ring
  · have hk : 2 * k / w ≠ 0 := div_ne_zero (mul_ne_zero two_ne_zero ht.ne') h3
    rw [eq_comm, mul_eq_left₀ hk, div_eq_one_iff_eq (mul_ne_zero h1 h4)]
    unfold SameShape
    exact_mod_cast Iff.rfl

/-! Non-vacuity. -/
example : SameShape wide 640 320 ∧ ¬ SameShape wide 2 2 := by simp [SameShape, wide]

end Feign.Camera
