import Verif.Moved.SceneLemmas
import Verif.Camera.LensProps
import Verif.Camera.PerspectiveProps
import Verif.Integrators.LinearProps
import Verif.Lights.EmitterProps
import Verif.Math.SingleLemmas

/-!
# C126: a scene moved as a whole gives the same picture
-/

set_option linter.unusedSectionVars false

namespace Feign
open V3

/-! ## Surfaces -/

namespace Shapes
variable {K : Type} [Field K] [LinearOrder K]

/-- **C126, triangles.** A ray and a triangle moved together: same outcome, same barycentric coordinates, same distance. -/
theorem triangle_moved (v p0 p1 p2 : V3 K) (r : Ray K) :
    triTest (p0 + v) (p1 + v) (p2 + v) (r.moved v) = triTest p0 p1 p2 r := triTest_moved v p0 p1 p2 r

/-- **C126, meshes.** A ray that is moved along with a mesh hits the same face at the same place on it. -/
theorem mesh_moved (v : V3 K) (m : Mesh K) (r : Ray K) : (m.moved v).intersect (r.moved v) = m.intersect r :=
  intersectFrom_moved v m m.tris 0 r none

/-- The reported point moves along, and the reported normal does not change. -/
theorem mesh_hit_moved (v : V3 ℝ) (m : Mesh ℝ) (f : Face) (c : V3 ℝ × V3 ℝ × V3 ℝ) (hc : m.corners f = .ok c) (a b : ℝ) :
    ∃ c', (m.moved v).corners f = .ok c' ∧ hitPoint c'.1 c'.2.1 c'.2.2 a b = hitPoint c.1 c.2.1 c.2.2 a b + v ∧
      (m.moved v).shadingNormal f a b = m.shadingNormal f a b := by
  refine ⟨(c.1 + v, c.2.1 + v, c.2.2 + v), ?_, hitPoint_moved v _ _ _ a b, shadingNormal_moved v m f a b⟩
  rw [corners_moved, hc]
  rfl

end Shapes

namespace Sdf

/-- The box around all shapes, as `SDFAccel::build` computes it (`src/accel/ray_sdf.cpp:31-39`). -/
theorem scene_box_moved (v : V3 ℝ) (ss : List Shape) (bs : List (B3 ℝ)) (hb : ss.mapM Shape.boundingBox = some bs) :
    (ss.map (Shape.moved v)).mapM Shape.boundingBox = some (bs.map (B3.moved v)) ∧
      sceneBox (bs.map (B3.moved v)) = (sceneBox bs).map (B3.moved v) := by
  refine ⟨?_, sceneBox_moved v bs⟩
  rw [boxes_moved, hb]
  rfl

/-- **C126, distance functions.** A ray that is moved along with the shapes: the same outcome, and a hit is at the moved
point with the same distance, normal and shape. -/
theorem sdf_moved (v : V3 ℝ) (ss : List Shape) (bs : List (B3 ℝ)) (r : Ray ℝ) :
    intersect (evals (ss.map (Shape.moved v))) (sceneBox (bs.map (B3.moved v))) (r.moved v) =
      movedRes v (intersect (evals ss) (sceneBox bs) r) := by
  rw [evals_moved, sceneBox_moved]
  exact intersect_moved v _ _ r

end Sdf

/-! ## Lights -/

namespace Lights

/-- **C126, lights.** All six kinds of light give the moved point the sample that they gave the point. -/
theorem light_moved (v p : V3 ℝ) (u : V2 ℝ) (l : Light) : (l.moved v).sampleNee (p + v) u = l.sampleNee p u :=
  sampleNee_moved v p u l

/-- The table from which a mesh light picks a triangle does not change. -/
theorem light_areas_moved (v : V3 ℝ) (m : Shapes.Mesh ℝ) : faceAreas (m.moved v) m.tris = faceAreas m m.tris :=
  faceAreas_moved v m m.tris

/-- **C126, direct light.** What one light or all lights add at the moved point is what they added at the point, when the
obstacles have been moved too: rays from the moved point see the same things at moved places (`hf`), and the same shadow
rays are blocked or attenuated (`hs`). -/
theorem direct_light_moved (v : V3 ℝ) (w w' : World) (hf : ∀ d, w'.first d = (w.first d).map fun a => (a.1, a.2 + v))
    (hs : w'.shadow = w.shadow) (hm : w'.ignoreShadows = w.ignoreShadows) (p n : V3 ℝ) (f : Frame) (inst : ℕ) (inMedia : Bool)
    (ls : List Light) (c : ℝ) (u : V2 ℝ) (us : List (V2 ℝ)) :
    evalOne w' ⟨p + v, n, f, inst⟩ inMedia (ls.map (Light.moved v)) c u = evalOne w ⟨p, n, f, inst⟩ inMedia ls c u ∧
    evalAll w' ⟨p + v, n, f, inst⟩ inMedia (ls.map (Light.moved v)) us = evalAll w ⟨p, n, f, inst⟩ inMedia ls us := by
  have hw : w' = w.moved v := by
    cases w; cases w'
    simp only at hf hs hm
    subst hs hm
    simp only [World.moved, World.mk.injEq, and_true]
    exact funext hf
  subst hw
  exact ⟨evalOne_moved v w ⟨p, n, f, inst⟩ inMedia ls c u, evalAll_moved v w ⟨p, n, f, inst⟩ inMedia ls us⟩

end Lights

/-! ## Camera -/

namespace Camera

theorem place_moved (x y z eye p v : V3 ℝ) : place x y z (eye + v) p = place x y z eye p + v := by
  unfold place
  ext <;> simp only [add_x, add_y, add_z, smul_x, smul_y, smul_z] <;> ring

open Classical in
/-- **C126, camera.** Eye and target moved by `v` under the transform `cur`: the same view, from a place moved by what
`cur` makes of `v`. Rays, including those through an open lens, move along; film position, direction and range stay. -/
theorem camera_moved (c : Persp) (cur : Xf ℝ) (hv : cur.Valid) (ha : cur.Aff) (origin target up v : V3 ℝ)
    (h : GoodView origin target up) :
    ∃ t t', cameraToWorld cur origin target up = some t ∧ cameraToWorld cur (origin + v) (target + v) up = some t' ∧
      ∀ film app, c.sampleRay t' film app = (c.sampleRay t film app).map (Ray.moved (cur.vec v)) := by
  have h' : GoodView (origin + v) (target + v) up := by
    unfold GoodView at h ⊢
    rwa [moved_sub]
  obtain ⟨x, y, z, hx, t, ht, -, -, htp, htv⟩ := cameraToWorld_spec cur hv ha origin target up h
  obtain ⟨x', y', z', hx', t', ht', -, -, htp', htv'⟩ := cameraToWorld_spec cur hv ha _ _ up h'
  have hax : lookAtAxes (origin + v) (target + v) up = lookAtAxes origin target up := by
    unfold lookAtAxes
    rw [moved_sub]
  rw [hax, hx] at hx'
  injection hx' with hx'
  injection hx' with h1 h2
  injection h2 with h2 h3
  subst h1 h2 h3
  refine ⟨t, t', ht, ht', fun film app => ?_⟩
  have hvec : t'.vec = t.vec := by
    funext p
    rw [htv', htv]
  have hpt : ∀ p, t'.point p = (t.point p).map (· + cur.vec v) := by
    intro p
    rw [htp', htp, place_moved, Xf.point_affine _ ha.1, Xf.point_affine _ ha.1, Option.map_some]
    congr 1
    ext <;> simp only [Xf.vec, M4.topLeft, M3.mulVec, add_x, add_y, add_z] <;> ring
  unfold Persp.sampleRay
  cases c.sampleToCamera with
  | none => rfl
  | some s =>
    simp only [Option.bind_some]
    cases s.point ⟨film.x / c.width, film.y / c.height, 0⟩ with
    | none => rfl
    | some q =>
      simp only [Option.bind_some]
      cases q.normalized with
      | none => rfl
      | some d =>
        simp only [Option.bind_some]
        by_cases hd : d.z = 0
        · rw [if_pos hd, if_pos hd]; rfl
        · rw [if_neg hd, if_neg hd]
          cases (d.smul (c.focal / d.z) - ⟨(Warp.uniDisk app).x * c.radius, (Warp.uniDisk app).y * c.radius, 0⟩).normalized with
          | none => rfl
          | some od =>
            simp only [Option.bind_some]
            rw [hpt, hvec]
            cases t.point ⟨(Warp.uniDisk app).x * c.radius, (Warp.uniDisk app).y * c.radius, 0⟩ <;> rfl

/-- A view that has no frame has none after the move either. -/
theorem camera_moved_degenerate (cur : Xf ℝ) (origin target up v : V3 ℝ) (h : ¬ GoodView origin target up) :
    cameraToWorld cur origin target up = none ∧ cameraToWorld cur (origin + v) (target + v) up = none := by
  have h' : ¬ GoodView (origin + v) (target + v) up := by
    unfold GoodView at h ⊢
    rwa [moved_sub]
  unfold cameraToWorld lookAtMatrix
  rw [lookAt_degenerate _ _ _ h, lookAt_degenerate _ _ _ h']
  exact ⟨rfl, rfl⟩

end Camera

/-! ## Pictures -/

namespace Integrators
open Sampling

/-- **C126, paths.** In any scene of diffuse, mirror and glass surfaces, moved by `v` along with its lamps and obstacles:
the moved camera ray gets the same radiance from the same random numbers, and uses up equally many of them. -/
theorem path_moved (v : V3 ℝ) (S S' : Room) (h : MovedRoom v S S') (lamps : List Lamp) (blocked blocked' : Blocked)
    (hb : ∀ p d far, blocked' (p + v) d far = blocked p d far) (quot : ℝ → ℝ → ℝ) (n : ℕ)
    (L L' : Ray → Stream → V3 ℝ × Stream) (hL : (S.lit lamps blocked).world.Traces quot n L)
    (hL' : (S'.lit (lamps.map (movedLamp v)) blocked').world.Traces quot n L') (r : Ray) (ω : Stream) :
    L' (movedRay v r) ω = L r ω := (h.alike lamps hb).traces hL hL' r ω

/-- **C126, pictures.** The same for the whole picture, for every filter, size, number of samples and random stream. -/
theorem moved_picture (v : V3 ℝ) (S S' : Room) (h : MovedRoom v S S') (lamps : List Lamp) (blocked blocked' : Blocked)
    (hb : ∀ p d far, blocked' (p + v) d far = blocked p d far) (quot : ℝ → ℝ → ℝ) (n : ℕ)
    (L L' : Ray → Stream → V3 ℝ × Stream) (hL : (S.lit lamps blocked).world.Traces quot n L)
    (hL' : (S'.lit (lamps.map (movedLamp v)) blocked').world.Traces quot n L') (ray ray' : ℝ × ℝ → ℝ × ℝ → Ray)
    (hr : ∀ f a, ray' f a = movedRay v (ray f a)) (flt : Image.Filter ℝ) (w hgt spp : ℕ) (ω : Stream) :
    Image.renderWith flt w hgt spp ray' L' ω = Image.renderWith flt w hgt spp ray L ω :=
  Image.renderWith_congr flt w hgt spp (fun f a ω => by
    rw [hr]; exact path_moved v S S' h lamps blocked blocked' hb quot n L L' hL hL' _ ω) ω

end Integrators

namespace Sdf
open Integrators Sampling Camera

/-- **C126, whole.** Spheres, planes, boxes, cylinders and cones of any material, lamps and a look-at camera, all moved by
the same vector: the picture is the same, sample for sample. The camera's eye and target are given under the transform
`cur`, so they change by `v` where the world changes by `cur.vec v`. -/
theorem moved_sdf_picture (cur : Xf ℝ) (hv : cur.Valid) (ha : cur.Aff) (origin target up v : V3 ℝ)
    (hview : GoodView origin target up) (c : Persp) (t t' : Xf ℝ) (ht : cameraToWorld cur origin target up = some t)
    (ht' : cameraToWorld cur (origin + v) (target + v) up = some t') (ray ray' : ℝ × ℝ → ℝ × ℝ → Integrators.Ray)
    (hray : c.Shows t (fun s => (s.1, s.2.1)) ray) (hray' : c.Shows t' (fun s => (s.1, s.2.1)) ray')
    (ss : List Shape) (bs bs' : List (B3 ℝ)) (hbs : ss.mapM Shape.boundingBox = some bs)
    (hbs' : (ss.map (Shape.moved (cur.vec v))).mapM Shape.boundingBox = some bs') (looks : ℕ → Look) (env : V3 ℝ → V3 ℝ)
    (lamps : List Lamp) (quot : ℝ → ℝ → ℝ) (n : ℕ) (L L' : Integrators.Ray → Stream → V3 ℝ × Stream)
    (hL : (litRoom (evals ss) (sceneBox bs) looks env lamps).world.Traces quot n L)
    (hL' : (litRoom (evals (ss.map (Shape.moved (cur.vec v)))) (sceneBox bs') looks env
      (lamps.map (movedLamp (cur.vec v)))).world.Traces quot n L')
    (flt : Image.Filter ℝ) (w h spp : ℕ) (ω : Stream) :
    Image.renderWith flt w h spp ray' L' ω = Image.renderWith flt w h spp ray L ω := by
  obtain ⟨h1, h2⟩ := scene_box_moved (cur.vec v) ss bs hbs
  rw [h1] at hbs'
  injection hbs' with hbs'
  subst hbs'
  obtain ⟨s, s', hs, hs', hcam⟩ := camera_moved c cur hv ha origin target up v hview
  rw [ht] at hs
  rw [ht'] at hs'
  injection hs with hs
  injection hs' with hs'
  subst hs hs'
  rw [h2, evals_moved] at hL'
  refine moved_picture (cur.vec v) _ _ (room_moved (cur.vec v) (evals ss) (sceneBox bs) looks env) lamps _ _
    (blockedBy_moved (cur.vec v) (evals ss) (sceneBox bs)) quot n L L' hL hL' ray ray' (fun f a => ?_) flt w h spp ω
  obtain ⟨o, d, nn, ff, hr, hr2⟩ := hray f a
  obtain ⟨o', d', nn', ff', hr', hr2'⟩ := hray' f a
  rw [hcam, hr, Option.map_some] at hr'
  injection hr' with hr'
  unfold Ray.moved at hr'
  injection hr' with e1 e2 e3 e4
  rw [hr2, hr2', ← e1, ← e2]
  rfl

end Sdf

/-! ## Cases that meet the hypotheses -/

/-- Two balls on a floor, a lamp and a camera at distance five satisfy all hypotheses of `moved_sdf_picture`. -/
example : ∃ t t' ray ray' bs bs' L L',
    Camera.GoodView ⟨0, 0, -5⟩ ⟨0, 0, 0⟩ ⟨0, 1, 0⟩ ∧
    Camera.cameraToWorld Xf.one ⟨0, 0, -5⟩ ⟨0, 0, 0⟩ ⟨0, 1, 0⟩ = some t ∧
    Camera.cameraToWorld Xf.one (⟨0, 0, -5⟩ + ⟨7, 8, 9⟩) (⟨0, 0, 0⟩ + ⟨7, 8, 9⟩) ⟨0, 1, 0⟩ = some t' ∧
    (⟨0, 10, 30, 1 / 10000, 10000, 512, 512⟩ : Camera.Persp).Shows t (fun s => ((s.1, s.2.1) : Integrators.Ray)) ray ∧
    (⟨0, 10, 30, 1 / 10000, 10000, 512, 512⟩ : Camera.Persp).Shows t' (fun s => ((s.1, s.2.1) : Integrators.Ray)) ray' ∧
    [Sdf.Shape.sphere 0 1, .sphere ⟨2, 0, 0⟩ 1, .plane ⟨0, -1, 0⟩ ⟨0, 1, 0⟩].mapM Sdf.Shape.boundingBox = some bs ∧
    ([Sdf.Shape.sphere 0 1, .sphere ⟨2, 0, 0⟩ 1, .plane ⟨0, -1, 0⟩ ⟨0, 1, 0⟩].map
      (Sdf.Shape.moved ((Xf.one : Xf ℝ).vec ⟨7, 8, 9⟩))).mapM Sdf.Shape.boundingBox = some bs' ∧
    (Sdf.litRoom (Sdf.evals [Sdf.Shape.sphere 0 1, .sphere ⟨2, 0, 0⟩ 1, .plane ⟨0, -1, 0⟩ ⟨0, 1, 0⟩]) (Sdf.sceneBox bs)
      (fun i => ⟨if i = 0 then .glass else .diffuse, ⟨1, 1, 1⟩, 3 / 2, 1, fun _ => 0⟩) (fun _ => ⟨1, 1, 1⟩)
      [(⟨9, 9, 9⟩, ⟨0, 5, 0⟩)]).world.Traces (· / ·) 10 L ∧
    (Sdf.litRoom (Sdf.evals ([Sdf.Shape.sphere 0 1, .sphere ⟨2, 0, 0⟩ 1, .plane ⟨0, -1, 0⟩ ⟨0, 1, 0⟩].map
        (Sdf.Shape.moved ((Xf.one : Xf ℝ).vec ⟨7, 8, 9⟩)))) (Sdf.sceneBox bs')
      (fun i => ⟨if i = 0 then .glass else .diffuse, ⟨1, 1, 1⟩, 3 / 2, 1, fun _ => 0⟩) (fun _ => ⟨1, 1, 1⟩)
      ([(⟨9, 9, 9⟩, ⟨0, 5, 0⟩)].map (Integrators.movedLamp ((Xf.one : Xf ℝ).vec ⟨7, 8, 9⟩)))).world.Traces (· / ·) 10 L' := by
  have hview : Camera.GoodView ⟨0, 0, -5⟩ ⟨0, 0, 0⟩ ⟨0, 1, 0⟩ := by
    intro e
    have := congrArg V3.x e
    norm_num [V3.cross] at this
  have hok : (⟨0, 10, 30, 1 / 10000, 10000, 512, 512⟩ : Camera.Persp).Ok :=
    ⟨by norm_num, by norm_num, by norm_num, by norm_num, by norm_num, by norm_num⟩
  have hone : (Xf.one : Xf ℝ).Aff := ⟨M4.Affine.one, M4.Affine.one⟩
  have hview' : Camera.GoodView (⟨0, 0, -5⟩ + ⟨7, 8, 9⟩) (⟨0, 0, 0⟩ + ⟨7, 8, 9⟩) ⟨0, 1, 0⟩ := by
    unfold Camera.GoodView at hview ⊢
    rwa [moved_sub]
  obtain ⟨-, -, -, -, t, ht, -, hta, -⟩ := Camera.cameraToWorld_spec Xf.one Xf.valid_one hone _ _ _ hview
  obtain ⟨-, -, -, -, t', ht', -, hta', -⟩ := Camera.cameraToWorld_spec Xf.one Xf.valid_one hone _ _ _ hview'
  obtain ⟨ray, hray⟩ := Camera.shows_exists hok (by norm_num) hta (fun s => ((s.1, s.2.1) : Integrators.Ray))
  obtain ⟨ray', hray'⟩ := Camera.shows_exists hok (by norm_num) hta' (fun s => ((s.1, s.2.1) : Integrators.Ray))
  have hbs : ∃ bs, [Sdf.Shape.sphere 0 1, .sphere ⟨2, 0, 0⟩ 1, .plane ⟨0, -1, 0⟩ ⟨0, 1, 0⟩].mapM Sdf.Shape.boundingBox = some bs := by
    have h2 : (2 * 1 : ℝ) ≥ 0 := by norm_num
    simp only [List.mapM_cons, List.mapM_nil, Sdf.Shape.boundingBox, if_pos h2]
    exact ⟨_, rfl⟩
  obtain ⟨bs, hbs⟩ := hbs
  obtain ⟨L, hL⟩ := Integrators.traces_exist (Sdf.litRoom (Sdf.evals [Sdf.Shape.sphere 0 1, .sphere ⟨2, 0, 0⟩ 1,
      .plane ⟨0, -1, 0⟩ ⟨0, 1, 0⟩]) (Sdf.sceneBox bs)
      (fun i => ⟨if i = 0 then .glass else .diffuse, ⟨1, 1, 1⟩, 3 / 2, 1, fun _ => 0⟩) (fun _ => ⟨1, 1, 1⟩)
      [(⟨9, 9, 9⟩, ⟨0, 5, 0⟩)]).world (· / ·) 10
  have hbs' := (Sdf.scene_box_moved ((Xf.one : Xf ℝ).vec ⟨7, 8, 9⟩) _ bs hbs).1
  exact ⟨t, t', ray, ray', bs, _, L, _, hview, ht, ht', hray, hray', hbs, hbs', hL,
    (Integrators.traces_exist _ _ _).choose_spec⟩

/-! ## In single precision -/

/-- A position as a `float` vector stores it. -/
noncomputable def stored (p : V3 ℝ) : V3 ℝ := ⟨single p.x, single p.y, single p.z⟩

theorem single_far : single (16777216 + 1 / 2 : ℝ) = 16777216 := by
  have hl : Int.log 2 |(16777216 + 1 / 2 : ℝ)| = 24 := by
    rw [abs_of_pos (by norm_num), Int.log_of_one_le_right _ (by norm_num)]
    have hf : ⌊(16777216 + 1 / 2 : ℝ)⌋₊ = 16777216 := by
      rw [Nat.floor_eq_iff (by norm_num)]
      norm_num
    rw [hf]
    have : Nat.log 2 16777216 = 24 := by
      rw [Nat.log_eq_iff (by norm_num)]
      norm_num
    rw [this]
    rfl
  have hs : spacing (16777216 + 1 / 2 : ℝ) = 2 := by
    unfold spacing
    rw [hl]
    norm_num
  unfold single
  rw [if_neg (by norm_num), hs]
  have hf : ⌊((16777216 + 1 / 2) / 2 : ℝ)⌋ = 8388608 := by
    rw [Int.floor_eq_iff]
    norm_num
  unfold nearest
  rw [hf, if_pos (by norm_num)]
  norm_num

/-- **C126, violated far away.** In single precision the picture depends on where the scene is. A lamp half a unit from a
point lights it; moved together by `2^24` both are stored at the same place, and the direction is undefined. -/
theorem far_away_refuted : ∃ (I p q v : V3 ℝ), stored p = p ∧ stored q = q ∧ stored v = v ∧ ∀ u : V2 ℝ,
    (∃ s, (Lights.Light.point I q).sampleNee p u = .ok (some s)) ∧
    (Lights.Light.point I (stored (q + v))).sampleNee (stored (p + v)) u = .ok none := by
  have hh : single (1 / 2 : ℝ) = 1 / 2 := by
    have := single_rep (K := ℝ) 1 (-1) (by norm_num)
    norm_num at this ⊢
    exact this
  have hb : single (16777216 : ℝ) = 16777216 := by
    have := single_nat (K := ℝ) 16777216 (by norm_num)
    exact_mod_cast this
  refine ⟨⟨1, 1, 1⟩, 0, ⟨1 / 2, 0, 0⟩, ⟨16777216, 0, 0⟩, ?_, ?_, ?_, fun u => ⟨?_, ?_⟩⟩
  · ext <;> simp [stored, single_zero]
  · ext <;> simp only [stored, single_zero, hh]
  · ext <;> simp only [stored, single_zero, hb]
  · obtain ⟨s, d, h, -⟩ := Lights.point_light ⟨1, 1, 1⟩ ⟨1 / 2, 0, 0⟩ 0 u (by
      intro e
      have := congrArg V3.x e
      norm_num at this)
    exact ⟨s, h⟩
  · have h1 : stored ((⟨1 / 2, 0, 0⟩ : V3 ℝ) + ⟨16777216, 0, 0⟩) = ⟨16777216, 0, 0⟩ := by
      ext
      · show single (1 / 2 + 16777216 : ℝ) = 16777216
        rw [add_comm, single_far]
      · simp [stored, single_zero]
      · simp [stored, single_zero]
    have h2 : stored ((0 : V3 ℝ) + ⟨16777216, 0, 0⟩) = ⟨16777216, 0, 0⟩ := by
      ext
      · show single (0 + 16777216 : ℝ) = 16777216
        rw [zero_add, hb]
      · simp [stored, single_zero]
      · simp [stored, single_zero]
    rw [h1, h2]
    exact Lights.point_light_at_light _ _ u

end Feign
