import Verif.Camera.PerspectiveLemmas
import Verif.Sampling.WarpProps

/-!
# C58: camera rays; C59: depth of field
-/

namespace Feign.Camera

open Feign

/-- The camera description determines a view: eye and target differ and the up vector is not along the
viewing direction (specification). -/
def GoodView (origin target up : V3 ℝ) : Prop := up.cross (target - origin) ≠ 0

/-- **C58, frame.** The axes are orthonormal, `z` points from the eye to the target, `x` is perpendicular to
the up vector, and `y` is on the side of the up vector. -/
theorem lookAt_frame (origin target up : V3 ℝ) (h : GoodView origin target up) :
    ∃ x y z, lookAtAxes origin target up = some (x, y, z) ∧
      x.dot x = 1 ∧ y.dot y = 1 ∧ z.dot z = 1 ∧ x.dot y = 0 ∧ x.dot z = 0 ∧ y.dot z = 0 ∧
      z.smul (target - origin).norm = target - origin ∧ x.dot up = 0 ∧ 0 < y.dot up := by
  have h1 : target - origin ≠ 0 := by
    intro e
    apply h
    rw [e]
    ext <;> simp [V3.cross]
  have h2 : up ≠ 0 := by
    intro e
    apply h
    rw [e]
    ext <;> simp [V3.cross]
  obtain ⟨z, hz, hz1, hz2⟩ := V3.normalized_spec _ h1
  obtain ⟨u, hu, hu1, hu2⟩ := V3.normalized_spec _ h2
  have hnz := V3.norm_pos _ h1
  have hnu := V3.norm_pos _ h2
  have h3 : u.cross z ≠ 0 := by
    intro e
    apply h
    rw [← hz2, ← hu2]
    have ex := congrArg V3.x e
    have ey := congrArg V3.y e
    have ez := congrArg V3.z e
    simp only [V3.cross, V3.zero_x, V3.zero_y, V3.zero_z] at ex ey ez
    generalize (target - origin).norm = a
    generalize up.norm = b
    ext <;> simp only [V3.cross, V3.smul_x, V3.smul_y, V3.smul_z, V3.zero_x, V3.zero_y, V3.zero_z]
    · linear_combination a * b * ex
    · linear_combination a * b * ey
    · linear_combination a * b * ez
  obtain ⟨x, hx, hx1, hx2⟩ := V3.normalized_spec _ h3
  have hnx := V3.norm_pos _ h3
  generalize hk : (u.cross z).norm = k at *
  have exx := congrArg V3.x hx2
  have exy := congrArg V3.y hx2
  have exz := congrArg V3.z hx2
  simp only [V3.cross, V3.smul_x, V3.smul_y, V3.smul_z] at exx exy exz
  simp only [V3.sqrNorm] at hx1 hz1 hu1
  -- x ⟂ z and x ⟂ u
  have hxz : x.x * z.x + x.y * z.y + x.z * z.z = 0 := by
    have : k * (x.x * z.x + x.y * z.y + x.z * z.z) = 0 := by
      linear_combination z.x * exx + z.y * exy + z.z * exz
    rcases mul_eq_zero.mp this with h0 | h0
    · exact absurd h0 hnx.ne'
    · exact h0
  have hxu : x.x * u.x + x.y * u.y + x.z * u.z = 0 := by
    have : k * (x.x * u.x + x.y * u.y + x.z * u.z) = 0 := by
      linear_combination u.x * exx + u.y * exy + u.z * exz
    rcases mul_eq_zero.mp this with h0 | h0
    · exact absurd h0 hnx.ne'
    · exact h0
  -- z × x is already a unit vector
  have hy1 : (z.cross x).sqrNorm = 1 := by
    simp only [V3.sqrNorm, V3.cross]
    linear_combination (z.x * z.x + z.y * z.y + z.z * z.z) * hx1 + hz1 -
      (x.x * z.x + x.y * z.y + x.z * z.z) * hxz
  have hyn : (z.cross x).norm = 1 := by rw [V3.norm_eq, hy1, Real.sqrt_one]
  have hy : (z.cross x).normalized = some (z.cross x) := by
    unfold V3.normalized
    rw [if_neg (by rw [hyn]; exact one_ne_zero), hyn]
    congr 1
    ext <;> simp
  have hup := hu2
  have upx := congrArg V3.x hu2
  have upy := congrArg V3.y hu2
  have upz := congrArg V3.z hu2
  simp only [V3.smul_x, V3.smul_y, V3.smul_z] at upx upy upz
  refine ⟨x, z.cross x, z, ?_, ?_, ?_, ?_, ?_, ?_, ?_, hz2, ?_, ?_⟩
  · unfold lookAtAxes
    rw [hz]
    simp only [Option.bind_some]
    rw [hu]
    simp only [Option.bind_some]
    rw [hx]
    simp only [Option.bind_some]
    rw [hy]
    simp
  · simp only [V3.dot]; linear_combination hx1
  · simp only [V3.dot]; simp only [V3.sqrNorm] at hy1; linear_combination hy1
  · simp only [V3.dot]; linear_combination hz1
  · simp only [V3.dot, V3.cross]; ring
  · simp only [V3.dot]; linear_combination hxz
  · simp only [V3.dot, V3.cross]; ring
  · simp only [V3.dot]
    linear_combination up.norm * hxu - x.x * upx - x.y * upy - x.z * upz
  · have : (z.cross x).dot up = k * up.norm := by
      have hkk : x.x * (x.x * k) + x.y * (x.y * k) + x.z * (x.z * k) = k := by linear_combination k * hx1
      simp only [V3.dot, V3.cross]
      rw [← upx, ← upy, ← upz]
      linear_combination up.norm * (hkk - x.x * exx - x.y * exy - x.z * exz)
    rw [this]
    exact mul_pos hnx hnu

/-- The rigid map from camera space to the world given by axes and eye (specification). -/
def place (x y z eye p : V3 ℝ) : V3 ℝ := eye + x.smul p.x + y.smul p.y + z.smul p.z

open Classical in
theorem cameraToWorld_spec (cur : Xf ℝ) (hv : cur.Valid) (ha : cur.Aff) (origin target up : V3 ℝ)
    (h : GoodView origin target up) :
    ∃ x y z, lookAtAxes origin target up = some (x, y, z) ∧
    ∃ t, cameraToWorld cur origin target up = some t ∧ t.Valid ∧ t.Aff ∧
      (∀ p, t.point p = cur.point (place x y z origin p)) ∧
      (∀ p, t.vec p = cur.vec (place x y z 0 p)) := by
  obtain ⟨x, y, z, hax, hxx, hyy, hzz, hxy, hxz, hyz, -⟩ := lookAt_frame origin target up h
  simp only [V3.dot] at hxx hyy hzz hxy hxz hyz
  refine ⟨x, y, z, hax, ?_⟩
  have hdet : (M4.ofCols ⟨x.x, x.y, x.z, 0⟩ ⟨y.x, y.y, y.z, 0⟩ ⟨z.x, z.y, z.z, 0⟩
      ⟨origin.x, origin.y, origin.z, 1⟩).det ≠ 0 := by
    intro h0
    simp only [M4.ofCols, M4.det] at h0
    have hd : x.x * (y.y * z.z - y.z * z.y) - x.y * (y.x * z.z - y.z * z.x) +
        x.z * (y.x * z.y - y.y * z.x) = 0 := by linear_combination h0
    have hsq : (x.x * (y.y * z.z - y.z * z.y) - x.y * (y.x * z.z - y.z * z.x) +
        x.z * (y.x * z.y - y.y * z.x)) ^ 2 = 1 := by
      have gram : (x.x * (y.y * z.z - y.z * z.y) - x.y * (y.x * z.z - y.z * z.x) +
        x.z * (y.x * z.y - y.y * z.x)) ^ 2 =
        (x.x * x.x + x.y * x.y + x.z * x.z) *
          ((y.x * y.x + y.y * y.y + y.z * y.z) * (z.x * z.x + z.y * z.y + z.z * z.z) -
            (z.x * y.x + z.y * y.y + z.z * y.z) ^ 2) -
        (y.x * x.x + y.y * x.y + y.z * x.z) *
          ((y.x * x.x + y.y * x.y + y.z * x.z) * (z.x * z.x + z.y * z.y + z.z * z.z) -
            (z.x * y.x + z.y * y.y + z.z * y.z) * (z.x * x.x + z.y * x.y + z.z * x.z)) +
        (z.x * x.x + z.y * x.y + z.z * x.z) *
          ((y.x * x.x + y.y * x.y + y.z * x.z) * (z.x * y.x + z.y * y.y + z.z * y.z) -
            (y.x * y.x + y.y * y.y + y.z * y.z) * (z.x * x.x + z.y * x.y + z.z * x.z)) := by ring
      rw [gram, hxx, hyy, hzz, hxy, hxz, hyz]; norm_num
    rw [hd] at hsq
    norm_num at hsq
  have hm : lookAtMatrix origin target up = some (M4.ofCols ⟨x.x, x.y, x.z, 0⟩ ⟨y.x, y.y, y.z, 0⟩
      ⟨z.x, z.y, z.z, 0⟩ ⟨origin.x, origin.y, origin.z, 1⟩) := by
    unfold lookAtMatrix; rw [hax]; rfl
  have hxf : ∀ m : M4 ℝ, m.det ≠ 0 → Xf.ofMatrix m = some ⟨m, m.inverseEntries⟩ := fun m hd => by
    unfold Xf.ofMatrix M4.inverse; rw [if_neg hd]; rfl
  replace hxf := hxf _ hdet
  obtain ⟨-, hval⟩ := Xf.valid_ofMatrix _ _ hxf
  have haff := Xf.aff_of_valid _ hval (⟨rfl, rfl, rfl, rfl⟩ : M4.Affine _)
  refine ⟨_, by unfold cameraToWorld; rw [hm]; simp only [Option.bind_some]; rw [hxf]; rfl,
    Xf.valid_mul _ _ hv hval, Xf.aff_mul _ _ ha haff, fun p => ?_, fun p => ?_⟩
  · apply Xf.mul_point
    rw [Xf.point_affine _ haff.1]
    congr 1
    ext <;> simp only [place, M4.ofCols, Xf.vec, M4.topLeft, M3.mulVec, V3.add_x, V3.add_y, V3.add_z,
      V3.smul_x, V3.smul_y, V3.smul_z] <;> ring
  · rw [Xf.mul_vec _ _ haff]
    congr 1
    ext <;> simp only [place, M4.ofCols, Xf.vec, M4.topLeft, M3.mulVec, V3.add_x, V3.add_y, V3.add_z,
      V3.smul_x, V3.smul_y, V3.smul_z, V3.zero_x, V3.zero_y, V3.zero_z] <;> ring

open Classical in
/-- General description of a camera ray in camera space: it starts at the lens point and runs through the
point of the focal plane seen at that film position. -/
theorem sampleRay_spec (c : Persp) (h : c.Ok) (hf : 0 < c.focal) (t : Xf ℝ) (ht : t.Aff) (film app : V2 ℝ) :
    ∃ (ap : V3 ℝ) (r : Ray ℝ), c.sampleRay t film app = some r ∧
      ap = ⟨(Warp.uniDisk app).x * c.radius, (Warp.uniDisk app).y * c.radius, 0⟩ ∧
      t.point ap = some r.origin ∧
      (let v := (c.filmPoint film).smul c.focal - ap
       r.dir = t.vec (v.smul (1 / v.norm)) ∧ 0 < v.norm) ∧
      r.near = Ext.fin (c.near * (c.filmPoint film).norm) ∧
      r.far = Ext.fin (c.far * (c.filmPoint film).norm) := by
  obtain ⟨s, hs, hp⟩ := sampleToCamera_spec c h
  have hq : c.filmPoint film ≠ 0 := fun e => by
    have := congrArg V3.z e
    simp [Persp.filmPoint] at this
  have hqn := V3.norm_pos _ hq
  have hqz : (c.filmPoint film).z = 1 := rfl
  have hnorm := normalized_smul_pos _ hq c.near h.n
  set q := c.filmPoint film with hqdef
  have hdz : (q.smul (1 / q.norm)).z = 1 / q.norm := by rw [V3.smul_z, hqz, one_mul]
  have hdz0 : (q.smul (1 / q.norm)).z ≠ 0 := by rw [hdz]; exact one_div_ne_zero hqn.ne'
  set ap : V3 ℝ := ⟨(Warp.uniDisk app).x * c.radius, (Warp.uniDisk app).y * c.radius, 0⟩ with hap
  have hfp : (q.smul (1 / q.norm)).smul (c.focal / (q.smul (1 / q.norm)).z) = q.smul c.focal := by
    rw [hdz]
    ext <;> simp only [V3.smul_x, V3.smul_y, V3.smul_z] <;> field_simp
  have hv : q.smul c.focal - ap ≠ 0 := fun e => by
    have := congrArg V3.z e
    simp only [V3.sub_z, V3.smul_z, hqz, hap, V3.zero_z] at this
    linarith
  have hvn := V3.norm_pos _ hv
  have hvu : (q.smul c.focal - ap).normalized = some ((q.smul c.focal - ap).smul (1 / (q.smul c.focal - ap).norm)) := by
    have := normalized_smul_pos _ hv 1 one_pos
    rwa [show (q.smul c.focal - ap).smul 1 = q.smul c.focal - ap by ext <;> simp] at this
  obtain ⟨o, ho⟩ : ∃ o, t.point ap = some o := ⟨_, Xf.point_affine t ht.1 ap⟩
  refine ⟨ap, ⟨o, t.vec ((q.smul c.focal - ap).smul (1 / (q.smul c.focal - ap).norm)),
    Ext.fin (c.near * q.norm), Ext.fin (c.far * q.norm)⟩, ?_, rfl, ho, ⟨rfl, hvn⟩, rfl, rfl⟩
  unfold Persp.sampleRay
  rw [hs]
  simp only [Option.bind_some]
  rw [hp]
  simp only [Option.bind_some]
  rw [hnorm]
  simp only [Option.bind_some]
  rw [if_neg hdz0, hfp]
  have hap2 : (⟨(⟨(Warp.uniDisk app).x * c.radius, (Warp.uniDisk app).y * c.radius⟩ : V2 ℝ).x,
    (⟨(Warp.uniDisk app).x * c.radius, (Warp.uniDisk app).y * c.radius⟩ : V2 ℝ).y, 0⟩ : V3 ℝ) = ap := rfl
  rw [hap2, hvu]
  simp only [Option.bind_some]
  rw [ho]
  simp only [Option.bind_some, hdz, one_div_one_div]

/-- **C58.** A pinhole camera (aperture 0): the ray for film position `film` starts at the eye, has unit
direction, passes through the point of the image plane at that film position at unit depth — horizontally
from `+tan(fov/2)` at the left edge to `-tan(fov/2)` at the right edge along `x`, vertically likewise along
`y` scaled by the aspect ratio — and its range runs from depth `near` to depth `far`. -/
theorem pinhole_ray (c : Persp) (h : c.Ok) (hf : 0 < c.focal) (h0 : c.radius = 0)
    (origin target up : V3 ℝ) (hv : GoodView origin target up) (film app : V2 ℝ) :
    ∃ x y z t r, lookAtAxes origin target up = some (x, y, z) ∧
      cameraToWorld Xf.one origin target up = some t ∧ c.sampleRay t film app = some r ∧
      r.origin = origin ∧ r.dir.dot r.dir = 1 ∧
      ∃ s, 0 < s ∧ r.point s = place x y z origin (c.filmPoint film) ∧
        r.near = Ext.fin (c.near * s) ∧ r.far = Ext.fin (c.far * s) := by
  obtain ⟨x, y, z, hax, t, ht, htv, hta, hpt, hvec⟩ :=
    cameraToWorld_spec Xf.one Xf.valid_one ⟨M4.Affine.one, M4.Affine.one⟩ origin target up hv
  obtain ⟨x', y', z', hax', hxx, hyy, hzz, hxy, hxz, hyz, -⟩ := lookAt_frame origin target up hv
  rw [hax] at hax'
  simp only [Option.some.injEq, Prod.mk.injEq] at hax'
  obtain ⟨rfl, rfl, rfl⟩ := hax'
  obtain ⟨ap, r, hr, hap, hor, ⟨hdir, hvn⟩, hnear, hfar⟩ := sampleRay_spec c h hf t hta film app
  have hap0 : ap = 0 := by rw [hap, h0]; ext <;> simp
  have hq : c.filmPoint film ≠ 0 := fun e => by
    have := congrArg V3.z e
    simp [Persp.filmPoint] at this
  have hqn := V3.norm_pos _ hq
  have hsub : (c.filmPoint film).smul c.focal - ap = (c.filmPoint film).smul c.focal := by
    rw [hap0]; ext <;> simp
  have horig : r.origin = origin := by
    rw [hap0, hpt, Xf.one_point _ _ rfl] at hor
    have := (Option.some.inj hor).symm
    rw [this]
    ext <;> simp [place]
  have hdir' : r.dir = place x y z 0 ((c.filmPoint film).smul (1 / (c.filmPoint film).norm)) := by
    rw [hdir, hvec, Xf.one_vec _ _ rfl, hsub, V3.norm_smul, abs_of_pos hf, V3.smul_smul]
    congr 2
    field_simp
  refine ⟨x, y, z, t, r, hax, ht, hr, horig, ?_, (c.filmPoint film).norm, hqn, ?_, hnear, hfar⟩
  · have hn2 := V3.norm_sq (c.filmPoint film)
    rw [hdir']
    simp only [V3.dot] at hxx hyy hzz hxy hxz hyz
    simp only [place, V3.dot, V3.add_x, V3.add_y, V3.add_z, V3.smul_x, V3.smul_y, V3.smul_z, V3.zero_x,
      V3.zero_y, V3.zero_z]
    have hk : (1 / (c.filmPoint film).norm) * (1 / (c.filmPoint film).norm) * (c.filmPoint film).sqrNorm = 1 := by
      rw [← hn2]; field_simp
    simp only [V3.sqrNorm] at hk
    generalize 1 / (c.filmPoint film).norm = k at *
    generalize (c.filmPoint film).x = a at *
    generalize (c.filmPoint film).y = b at *
    generalize (c.filmPoint film).z = d at *
    linear_combination hk + a * a * k * k * hxx + b * b * k * k * hyy + d * d * k * k * hzz +
      2 * a * b * k * k * hxy + 2 * a * d * k * k * hxz + 2 * b * d * k * k * hyz
  · unfold Ray.point
    rw [horig, hdir']
    ext <;> simp only [place, V3.add_x, V3.add_y, V3.add_z, V3.smul_x, V3.smul_y, V3.smul_z, V3.zero_x,
      V3.zero_y, V3.zero_z] <;> field_simp <;> ring

/-- **C58, centre.** The ray through the centre of the image passes through the target. -/
theorem centre_ray_hits_target (c : Persp) (h : c.Ok) (hf : 0 < c.focal) (h0 : c.radius = 0)
    (origin target up : V3 ℝ) (hv : GoodView origin target up) (app : V2 ℝ) :
    ∃ t r s, cameraToWorld Xf.one origin target up = some t ∧
      c.sampleRay t ⟨c.width / 2, c.height / 2⟩ app = some r ∧ 0 < s ∧ r.point s = target := by
  obtain ⟨x, y, z, t, r, hax, ht, hr, hor, -, s, hs, hpt, -⟩ :=
    pinhole_ray c h hf h0 origin target up hv ⟨c.width / 2, c.height / 2⟩ app
  obtain ⟨x', y', z', hax', -, -, -, -, -, -, hz, -⟩ := lookAt_frame origin target up hv
  rw [hax] at hax'
  simp only [Option.some.injEq, Prod.mk.injEq] at hax'
  obtain ⟨rfl, rfl, rfl⟩ := hax'
  have hto : target - origin ≠ 0 := by
    intro e
    apply hv
    rw [e]
    ext <;> simp [V3.cross]
  have hn := V3.norm_pos _ hto
  have hw : (c.width : ℝ) ≠ 0 := Nat.cast_ne_zero.mpr h.w
  have hh : (c.height : ℝ) ≠ 0 := Nat.cast_ne_zero.mpr h.h
  have hfp : c.filmPoint ⟨c.width / 2, c.height / 2⟩ = ⟨0, 0, 1⟩ := by
    ext <;> simp only [Persp.filmPoint]
    · have : (1 : ℝ) - 2 * (c.width / 2 / c.width) = 0 := by field_simp; ring
      rw [this, zero_mul]
    · have : (1 : ℝ) - 2 * (c.height / 2 / c.height) = 0 := by field_simp; ring
      rw [this, zero_mul, zero_mul]
  rw [hfp] at hpt
  refine ⟨t, r, s * (target - origin).norm, ht, hr, mul_pos hs hn, ?_⟩
  have hx := congrArg V3.x hpt
  have hy := congrArg V3.y hpt
  have hz' := congrArg V3.z hpt
  have zx := congrArg V3.x hz
  have zy := congrArg V3.y hz
  have zz := congrArg V3.z hz
  unfold Ray.point at hx hy hz' ⊢
  rw [hor] at hx hy hz' ⊢
  simp only [place, V3.add_x, V3.add_y, V3.add_z, V3.smul_x, V3.smul_y, V3.smul_z, V3.sub_x, V3.sub_y,
    V3.sub_z] at hx hy hz' zx zy zz
  ext <;> simp only [V3.add_x, V3.add_y, V3.add_z, V3.smul_x, V3.smul_y, V3.smul_z]
  · linear_combination (target - origin).norm * hx + zx
  · linear_combination (target - origin).norm * hy + zy
  · linear_combination (target - origin).norm * hz' + zz

/-- **C59.** With any aperture and any camera placement, all rays of one film position pass through one
point, at depth `focal`; each starts within the aperture disk around the eye. -/
theorem lens_focus (c : Persp) (h : c.Ok) (hf : 0 < c.focal) (hr : 0 ≤ c.radius) (t : Xf ℝ) (ht : t.Aff)
    (film : V2 ℝ) :
    ∃ focus, t.point ((c.filmPoint film).smul c.focal) = some focus ∧
      ((c.filmPoint film).smul c.focal).z = c.focal ∧
      ∀ app : V2 ℝ, Warp.InSquare app → ∃ r s ap, c.sampleRay t film app = some r ∧ 0 < s ∧
        r.point s = focus ∧ t.point ap = some r.origin ∧ ap.z = 0 ∧ ap.norm ≤ c.radius := by
  refine ⟨_, Xf.point_affine t ht.1 _, by simp [Persp.filmPoint], fun app happ => ?_⟩
  obtain ⟨ap, r, hs, hap, hor, ⟨hdir, hvn⟩, -, -⟩ := sampleRay_spec c h hf t ht film app
  refine ⟨r, _, ap, hs, hvn, ?_, hor, by rw [hap], ?_⟩
  · rw [Xf.point_affine t ht.1] at hor
    unfold Ray.point
    rw [hdir, ← Option.some.inj hor]
    generalize hF : (c.filmPoint film).smul c.focal = F at *
    have hk : (F - ap).norm ≠ 0 := hvn.ne'
    ext <;> simp only [Xf.vec, M4.topLeft, M3.mulVec, V3.add_x, V3.add_y, V3.add_z, V3.smul_x, V3.smul_y,
      V3.smul_z, V3.sub_x, V3.sub_y, V3.sub_z] <;> field_simp <;> ring
  · have hd := (Warp.uniDisk_domain app happ).1
    rw [hap, V3.norm_eq]
    rw [Real.sqrt_le_left hr]
    simp only [V3.sqrNorm]
    nlinarith [mul_self_nonneg c.radius]

/-- Non-vacuity: an ordinary camera. -/
example : (⟨0, 10, 30, 1 / 10000, 10000, 512, 512⟩ : Persp).Ok ∧
    GoodView ⟨0, 0, -5⟩ ⟨0, 0, 0⟩ ⟨0, 1, 0⟩ := by
  refine ⟨⟨by norm_num, by norm_num, by norm_num, by norm_num, by norm_num, by norm_num⟩, ?_⟩
  intro e
  have := congrArg V3.x e
  norm_num [V3.cross] at this

/-- A view with the up vector along the viewing direction has no frame. -/
theorem lookAt_degenerate (origin target up : V3 ℝ) (h : ¬ GoodView origin target up) :
    lookAtAxes origin target up = none := by
  have h' : up.cross (target - origin) = 0 := by
    by_contra e; exact h e
  unfold lookAtAxes
  by_cases h1 : target - origin = 0
  · rw [(V3.normalized_eq_none _).mpr h1]; rfl
  by_cases h2 : up = 0
  · rw [(V3.normalized_eq_none _).mpr h2]
    cases (target - origin).normalized <;> rfl
  obtain ⟨z, hz, hz1, hz2⟩ := V3.normalized_spec _ h1
  obtain ⟨u, hu, hu1, hu2⟩ := V3.normalized_spec _ h2
  have hnz := V3.norm_pos _ h1
  have hnu := V3.norm_pos _ h2
  rw [hz, hu]
  simp only [Option.bind_some]
  have : u.cross z = 0 := by
    generalize (target - origin).norm = a at *
    generalize up.norm = b at *
    rw [← hz2, ← hu2] at h'
    have ex := congrArg V3.x h'
    have ey := congrArg V3.y h'
    have ez := congrArg V3.z h'
    simp only [V3.cross, V3.smul_x, V3.smul_y, V3.smul_z, V3.zero_x, V3.zero_y, V3.zero_z] at ex ey ez
    have hab : b * a ≠ 0 := mul_ne_zero hnu.ne' hnz.ne'
    ext <;> simp only [V3.cross, V3.zero_x, V3.zero_y, V3.zero_z]
    · apply mul_left_cancel₀ hab; linear_combination ex
    · apply mul_left_cancel₀ hab; linear_combination ey
    · apply mul_left_cancel₀ hab; linear_combination ez
  rw [(V3.normalized_eq_none _).mpr this]
  rfl

end Feign.Camera
