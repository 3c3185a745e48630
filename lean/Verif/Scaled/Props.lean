import Verif.Scaled.Lemmas
import Verif.Sdf.SelfShadow
import Verif.Shapes.MeshProps
import Mathlib.Tactic.NormNum

/-!
# C128: the unit of length does not matter

A scene with every length multiplied by the same positive number shows the same picture, except where the program compares
a length with a constant of its own: the smallest determinant of a triangle (1e-8), the tolerance of distance functions and
the shortening of shadow rays (1e-3).
-/

set_option linter.unusedSectionVars false

namespace Feign
open V3

/-! ## Meshes -/

namespace Shapes
variable {K : Type} [Field K] [LinearOrder K] [IsStrictOrderedRing K]

/-- **C128, meshes.** A ray meets the same face of the mesh, at the same place on it and at the scaled distance, in either
unit. What is missing: the faces must be on the same side of the program's smallest determinant in both units
(`small_unit_refuted`). -/
theorem mesh_scaled_partial (k : K) (hk : 0 < k) (m : Mesh K) (r r' : Ray K) (hr : r.ScaledTo k r')
    (hd : ∀ f ∈ m.tris, ∀ p0 p1 p2, m.corners f = .ok (p0, p1, p2) →
      (detEps ≤ k * k * |Slant p0 p1 p2 r.dir| ↔ detEps ≤ |Slant p0 p1 p2 r.dir|))
    (o : Option (ℕ × TriHit K)) (ho : m.intersect r = .ok o) :
    (m.scaled k).intersect r' = .ok (o.map fun a => (a.1, a.2.scaled k)) := by
  have h := intersectFrom_scaled k hk m m.tris 0 r r' none hr (fun f hf c hc => hd f hf c.1 c.2.1 c.2.2 hc)
  have ho' : m.intersectFrom m.tris 0 r none = .ok o := ho
  rw [ho'] at h
  exact h

/-- The triangle of `small_unit_refuted`, in a unit ten times as small. -/
example : (detEps ≤ (10 : ℚ) * 10 * |Slant (⟨0, 0, 0⟩ : V3 ℚ) ⟨1, 0, 0⟩ ⟨0, 1, 0⟩ ⟨0, 0, -1⟩| ↔
    detEps ≤ |Slant (⟨0, 0, 0⟩ : V3 ℚ) ⟨1, 0, 0⟩ ⟨0, 1, 0⟩ ⟨0, 0, -1⟩|) := by
  simp [Slant, dot, cross, detEps]; norm_num

/-- The reported point is the scaled one, and the reported normal is the same. -/
theorem mesh_hit_scaled (k : ℝ) (hk : 0 < k) (m : Mesh ℝ) (f : Face) (c : V3 ℝ × V3 ℝ × V3 ℝ) (hc : m.corners f = .ok c)
    (a b : ℝ) : ∃ c', (m.scaled k).corners f = .ok c' ∧
      hitPoint c'.1 c'.2.1 c'.2.2 a b = (hitPoint c.1 c.2.1 c.2.2 a b).smul k ∧
      (m.scaled k).shadingNormal f a b = m.shadingNormal f a b := by
  refine ⟨(c.1.smul k, c.2.1.smul k, c.2.2.smul k), ?_, hitPoint_scaled _ _ _ k a b, shadingNormal_scaled k hk m f a b⟩
  rw [corners_scaled, hc]
  rfl

/-- A triangle that fills the view of a ray disappears when the scene is given in a unit 100 000 times as large. -/
theorem small_unit_refuted :
    ∃ (p0 p1 p2 : V3 ℚ) (r r' : Ray ℚ) (k : ℚ), 0 < k ∧ r.ScaledTo k r' ∧ triTest p0 p1 p2 r = some ⟨1 / 4, 1 / 4, 1⟩ ∧
      triTest (p0.smul k) (p1.smul k) (p2.smul k) r' = none := by
  refine ⟨⟨0, 0, 0⟩, ⟨1, 0, 0⟩, ⟨0, 1, 0⟩, ⟨⟨1 / 4, 1 / 4, 1⟩, ⟨0, 0, -1⟩, ⊥, ⊤⟩,
    ⟨(⟨1 / 4, 1 / 4, 1⟩ : V3 ℚ).smul (1 / 100000), ⟨0, 0, -1⟩, ⊥, ⊤⟩, 1 / 100000, by norm_num,
    ⟨rfl, rfl, fun t => ⟨fun _ => bot_le, fun _ => bot_le⟩, fun t => ⟨fun _ => le_top, fun _ => le_top⟩⟩, ?_, ?_⟩
  · rw [triTest_iff]
    refine ⟨?_, by norm_num, by norm_num, by norm_num, by norm_num, bot_le, le_top, ?_⟩
    · simp [triDet, dot, cross, detEps]; norm_num
    · ext <;> simp [Ray.point, planePoint]
  · rw [Option.eq_none_iff_forall_ne_some]
    intro h hh
    have := ((triTest_iff _ _ _ _ _).mp hh).1
    simp [triDet, dot, cross, detEps] at this
    norm_num at this

end Shapes

/-! ## Distance functions -/

namespace Sdf

/-- A solid has one signed distance only. -/
theorem distance_unique {S : Set (V3 ℝ)} {f g : V3 ℝ → ℝ} (hf : IsSignedDistance S f) (hg : IsSignedDistance S g) : f = g :=
  signed_distance_unique hf hg

/-- **C128, shapes.** The solid of a shape in the new unit consists of the scaled points, and the reported distances are the
scaled ones. -/
theorem shape_scaled (s : Shape) (h : s.WellFormed) (k : ℝ) (hk : 0 < k) :
    (s.scaled k).WellFormed ∧ (∀ p, p.smul k ∈ (s.scaled k).solid ↔ p ∈ s.solid) ∧
      ∀ p, (s.scaled k).eval (p.smul k) = (s.eval p).map (k * ·) := by
  refine ⟨wellFormed_scaled s k hk h, fun p => ?_, eval_scaled s h k hk⟩
  rw [solid_scaled s k hk]
  show (p.smul k).smul (1 / k) ∈ s.solid ↔ _
  rw [smul_there _ _ hk]

example : (Shape.cone ⟨0, 0, 0⟩ ⟨0, 2, 0⟩ 1 0).scaled 10 = .cone ⟨0, 0, 0⟩ ⟨0, 20, 0⟩ 10 0 := by
  simp only [Shape.scaled, V3.smul]; norm_num

/-- The tolerance of the search along a ray is a fixed length: a ray that runs one unit above a floor, parallel to it, never
meets it; with the same scene given in a unit 1000 times as large, the program reports that the ray meets the floor at
once. -/
theorem floor_unit_refuted :
    ∃ (s : Shape) (o d : V3 ℝ) (k : ℝ) (b : B3 ℝ), 0 < k ∧ s.WellFormed ∧ (s.scaled k).boundingBox = some b ∧
      (∀ t, o + d.smul t ∉ s.solid) ∧ Misses [s] (s.boundingBox.bind fun b => sceneBox [b]) ⟨o, d, ⊥, ⊤⟩ 0 ∧
      ∃ g, intersect (evals [s.scaled k]) (sceneBox [b]) ⟨o.smul k, d, ⊥, ⊤⟩ = .ok (.hit g) := by
  refine ⟨.plane 0 ⟨0, 1, 0⟩, ⟨0, 1, 0⟩, ⟨1, 0, 0⟩, 1 / 1000, ⟨(0 : V3 ℝ).smul (1 / 1000) - ⟨5000, 5000, 5000⟩,
    (0 : V3 ℝ).smul (1 / 1000) - ⟨5000, 5000, 5000⟩ + ⟨10000, 10000, 10000⟩⟩, by norm_num, ?_, rfl, ?_, ?_, ?_⟩
  · simp [Shape.WellFormed, sqrNorm]
  · intro t h
    have h' : ((⟨0, 1, 0⟩ + (⟨1, 0, 0⟩ : V3 ℝ).smul t - 0 : V3 ℝ)).dot ⟨0, 1, 0⟩ = 0 := h
    simp [dot] at h'
  · apply misses_of_far _ _ _ 0 _ rfl
    intro t ht
    refine ⟨1, ?_, by unfold eps; norm_num⟩
    simp [Shape.eval, planeEval, Ray.point, dot]
  · obtain ⟨g, hg, -, -⟩ := self_hit ((Shape.plane 0 ⟨0, 1, 0⟩).scaled (1 / 1000)) (by
      simp [Shape.scaled, Shape.WellFormed, sqrNorm]) ⟨(0 : V3 ℝ).smul (1 / 1000) - ⟨5000, 5000, 5000⟩,
      (0 : V3 ℝ).smul (1 / 1000) - ⟨5000, 5000, 5000⟩ + ⟨10000, 10000, 10000⟩⟩ (by
      refine ⟨?_, ?_, ?_⟩ <;> simp [Shape.scaled] <;> norm_num)
      ⟨(⟨0, 1, 0⟩ : V3 ℝ).smul (1 / 1000), ⟨1, 0, 0⟩, ⊥, ⊤⟩ (1 / 1000) (by
        refine ⟨⟨?_, ?_, ?_⟩, ?_, ?_, ?_⟩ <;> simp [Ray.point, eps] <;> norm_num) (by
        simp [Shape.scaled, Shape.eval, planeEval, Ray.point, dot]) (by unfold eps; norm_num)
    exact ⟨g, hg⟩

end Sdf

/-! ## Lights -/

namespace Lights
open Shapes Sampling

/-- **C128, lights.** A point gets the same light from a light of any kind, with the same random numbers, in either unit,
whichever way light is sampled: from all lights, from one, or for one light alone. -/
theorem light_scaled (k : ℝ) (hk : 0 < k) (w w' : World) (hw : w.ScaledTo k w') (sp : Spot) (n : V3 ℝ) (inMedia : Bool) (c : ℝ)
    (l : Light) (u : V2 ℝ) : lightEval w' (sp.scaled k) n inMedia c (l.scaled k) u = lightEval w sp n inMedia c l u :=
  lightEval_scaled k hk hw sp n inMedia c l u

theorem direct_light_scaled (k : ℝ) (hk : 0 < k) (w w' : World) (hw : w.ScaledTo k w') (sp : Spot) (inMedia : Bool)
    (ls : List Light) (c : ℝ) (u : V2 ℝ) (us : List (V2 ℝ)) :
    evalOne w' (sp.scaled k) inMedia (ls.map (Light.scaled k)) c u = evalOne w sp inMedia ls c u ∧
      evalAll w' (sp.scaled k) inMedia (ls.map (Light.scaled k)) us = evalAll w sp inMedia ls us :=
  ⟨evalOne_scaled k hk hw sp inMedia ls c u, evalAll_scaled k hk hw sp inMedia ls us⟩

/-- The table of areas that a light of triangles prepares is the same in either unit. -/
theorem light_table_scaled (k : ℝ) (hk : 0 < k) (intensity : V3 ℝ) (inst : ℕ) (m : Mesh ℝ) :
    Light.newMesh intensity inst (m.scaled k) = (Light.newMesh intensity inst m >>= fun l => .ok (l.scaled k)) := by
  unfold Light.newMesh
  show (faceAreas (m.scaled k) m.tris >>= _) = _
  rw [faceAreas_scaled k hk]
  cases faceAreas m m.tris with
  | ok as =>
    show (areaTable (as.map (k * k * ·)) >>= _) = ((areaTable as >>= _) >>= _)
    rw [areaTable_scaled _ (mul_pos hk hk).ne']
    cases areaTable as <;> rfl
  | throw e => rfl
  | ub e => rfl

/-- Scaling the power of a lamp is needed: with the same power, a lamp at twice the distance gives a quarter of the light. -/
theorem same_power_refuted :
    ∃ (I pos p : V3 ℝ) (u : V2 ℝ) (s s' : LightSample), (Light.point I pos).sampleNee p u = .ok (some s) ∧
      (Light.point I (pos.smul 2)).sampleNee (p.smul 2) u = .ok (some s') ∧ s'.value = s.value.smul (1 / 4) ∧
      s'.value ≠ s.value := by
  have hn : (⟨0, 0, 1⟩ : V3 ℝ) ≠ 0 := by
    intro h
    have := congrArg V3.z h
    simp at this
  have h1 : (⟨0, 0, 1⟩ - 0 : V3 ℝ) = ⟨0, 0, 1⟩ := by ext <;> simp
  have h2 : ((⟨0, 0, 1⟩ : V3 ℝ).smul 2 - (0 : V3 ℝ).smul 2) = (⟨0, 0, 1⟩ : V3 ℝ).smul 2 := by
    rw [smul_sub_smul, h1]
  obtain ⟨d, hd⟩ : ∃ d, (⟨0, 0, 1⟩ : V3 ℝ).normalized = some d := by
    cases h : (⟨0, 0, 1⟩ : V3 ℝ).normalized with
    | none => exact absurd ((normalized_eq_none _).mp h) hn
    | some d => exact ⟨d, rfl⟩
  refine ⟨⟨1, 1, 1⟩, ⟨0, 0, 1⟩, 0, ⟨0, 0⟩,
    ⟨d, some (⟨0, 0, 1⟩ : V3 ℝ).sqrNorm, ((⟨1, 1, 1⟩ : V3 ℝ).smul (1 / (⟨0, 0, 1⟩ : V3 ℝ).sqrNorm)).smul (1 / (4 * Real.pi)), 1⟩,
    ⟨d, some ((⟨0, 0, 1⟩ : V3 ℝ).smul 2).sqrNorm,
      ((⟨1, 1, 1⟩ : V3 ℝ).smul (1 / ((⟨0, 0, 1⟩ : V3 ℝ).smul 2).sqrNorm)).smul (1 / (4 * Real.pi)), 1⟩, ?_, ?_, ?_, ?_⟩
  · simp only [Light.sampleNee, h1, hd, Option.map_some]
  · simp only [Light.sampleNee, h2, normalized_smul _ 2 two_pos, hd, Option.map_some]
  · rw [sqrNorm_smul]
    ext <;> simp [sqrNorm] <;> ring
  · rw [sqrNorm_smul]
    intro h
    have h3 := congrArg V3.x h
    have hp := Real.pi_pos
    simp [sqrNorm] at h3
    norm_num at h3

end Lights

/-! ## The camera -/

namespace Camera

/-- **C128, the camera.** A camera in the new unit, for any field of view, picture size, lens and focal distance, shoots the
scaled rays. -/
theorem camera_scaled (c : Persp) (h : c.Ok) (hf : 0 < c.focal) (k : ℝ) (hk : 0 < k) (origin target up : V3 ℝ)
    (hv : GoodView origin target up) :
    ∃ t t', cameraToWorld Xf.one origin target up = some t ∧
      cameraToWorld Xf.one (origin.smul k) (target.smul k) up = some t' ∧
      ∀ film app, ∃ r r', c.sampleRay t film app = some r ∧ (c.scaled k).sampleRay t' film app = some r' ∧
        r.ScaledTo k r' := by
  have hv' : GoodView (origin.smul k) (target.smul k) up := by
    intro e
    apply hv
    rw [smul_sub_smul] at e
    have h1 := congrArg V3.x e
    have h2 := congrArg V3.y e
    have h3 := congrArg V3.z e
    simp only [cross, smul_x, smul_y, smul_z, zero_x, zero_y, zero_z] at h1 h2 h3
    ext <;> simp only [cross, zero_x, zero_y, zero_z] <;> apply mul_left_cancel₀ hk.ne' <;> linarith
  have hax : lookAtAxes (origin.smul k) (target.smul k) up = lookAtAxes origin target up := by
    unfold lookAtAxes
    rw [smul_sub_smul, normalized_smul _ _ hk]
  have hok : (c.scaled k).Ok :=
    ⟨h.w, h.h, mul_pos hk h.n, mul_lt_mul_of_pos_left h.nf hk, h.f0, h.f1⟩
  obtain ⟨x, y, z, hx, t, ht, -, hta, htp, htv⟩ :=
    cameraToWorld_spec Xf.one Xf.valid_one ⟨M4.Affine.one, M4.Affine.one⟩ origin target up hv
  obtain ⟨x', y', z', hx', t', ht', -, hta', htp', htv'⟩ :=
    cameraToWorld_spec Xf.one Xf.valid_one ⟨M4.Affine.one, M4.Affine.one⟩ _ _ up hv'
  rw [hax, hx] at hx'
  simp only [Option.some.injEq, Prod.mk.injEq] at hx'
  obtain ⟨rfl, rfl, rfl⟩ := hx'
  refine ⟨t, t', ht, ht', fun film app => ?_⟩
  obtain ⟨ap, r, hr, hap, hro, ⟨hrd, hvn⟩, hrn, hrf⟩ := sampleRay_spec c h hf t hta film app
  obtain ⟨ap', r', hr', hap', hro', ⟨hrd', hvn'⟩, hrn', hrf'⟩ :=
    sampleRay_spec (c.scaled k) hok (mul_pos hk hf) t' hta' film app
  have hfp : (c.scaled k).filmPoint film = c.filmPoint film := rfl
  have hap2 : ap' = ap.smul k := by
    rw [hap', hap]
    ext <;> simp only [Persp.scaled, smul_x, smul_y, smul_z] <;> ring
  have hvv : ((c.scaled k).filmPoint film).smul (c.scaled k).focal - ap' =
      ((c.filmPoint film).smul c.focal - ap).smul k := by
    rw [hfp, hap2]
    ext <;> simp only [Persp.scaled, sub_x, sub_y, sub_z, smul_x, smul_y, smul_z] <;> ring
  refine ⟨r, r', hr, hr', ?_, ?_, ?_, ?_⟩
  · rw [htp, Xf.one_point _ _ rfl] at hro
    rw [htp', Xf.one_point _ _ rfl] at hro'
    rw [← Option.some.inj hro, ← Option.some.inj hro', hap2]
    ext <;> simp only [place, add_x, add_y, add_z, smul_x, smul_y, smul_z] <;> ring
  · rw [hrd, hrd', hvv, htv, htv', Camera.V3.norm_smul, abs_of_pos hk, Camera.V3.smul_smul]
    congr 3
    field_simp
  · intro s
    rw [hrn, hrn', hfp, Ext.fin_le_fin, Ext.fin_le_fin]
    show k * c.near * _ ≤ _ ↔ _
    rw [mul_assoc]
    exact mul_le_mul_iff_right₀ hk
  · intro s
    rw [hrf, hrf', hfp, Ext.fin_le_fin, Ext.fin_le_fin]
    show _ ≤ k * c.far * _ ↔ _
    rw [mul_assoc]
    exact mul_le_mul_iff_right₀ hk

/-- A camera with an open lens that meets the hypotheses. -/
example : (⟨1 / 10, 5, 60, 1 / 100, 1000, 640, 480⟩ : Persp).Ok ∧ GoodView ⟨0, 0, 5⟩ ⟨0, 0, 0⟩ ⟨0, 1, 0⟩ := by
  refine ⟨⟨by norm_num, by norm_num, by norm_num, by norm_num, by norm_num, by norm_num⟩, fun h => ?_⟩
  have := congrArg V3.x h
  simp [cross] at this

end Camera

/-! ## Pictures -/

namespace Integrators
open Sampling

/-- **C128, paths.** In any scene of diffuse, mirror and glass surfaces lit by lamps: the scaled camera ray gets the same
radiance from the same random numbers, and uses up equally many of them. -/
theorem path_scaled (k : ℝ) (hk : 0 < k) (S S' : Room) (h : ScaledRoom k S S') (lamps : List Lamp) (blocked blocked' : Blocked)
    (hb : ∀ p d L, blocked' (p.smul k) d (k * L - Lights.eps) = blocked p d (L - Lights.eps)) (quot : ℝ → ℝ → ℝ) (n : ℕ)
    (L L' : Ray → Stream → V3 ℝ × Stream) (hL : (S.lit lamps blocked).world.Traces quot n L)
    (hL' : (S'.lit (lamps.map (scaledLamp k)) blocked').world.Traces quot n L') (r : Ray) (ω : Stream) :
    L' (scaledRay k r) ω = L r ω := (h.alike hk lamps hb).traces hL hL' r ω

/-- **C128, pictures.** The same for the whole picture, for every filter, size, number of samples and random stream. -/
theorem scaled_picture (k : ℝ) (hk : 0 < k) (S S' : Room) (h : ScaledRoom k S S') (lamps : List Lamp)
    (blocked blocked' : Blocked)
    (hb : ∀ p d L, blocked' (p.smul k) d (k * L - Lights.eps) = blocked p d (L - Lights.eps)) (quot : ℝ → ℝ → ℝ) (n : ℕ)
    (L L' : Ray → Stream → V3 ℝ × Stream) (hL : (S.lit lamps blocked).world.Traces quot n L)
    (hL' : (S'.lit (lamps.map (scaledLamp k)) blocked').world.Traces quot n L') (ray ray' : ℝ × ℝ → ℝ × ℝ → Ray)
    (hr : ∀ f a, ray' f a = scaledRay k (ray f a)) (flt : Image.Filter ℝ) (w hgt spp : ℕ) (ω : Stream) :
    Image.renderWith flt w hgt spp ray' L' ω = Image.renderWith flt w hgt spp ray L ω :=
  Image.renderWith_congr flt w hgt spp
    (fun f a ω => by rw [hr]; exact path_scaled k hk S S' h lamps blocked blocked' hb quot n L L' hL hL' _ ω) ω

/-- A white floor, seen from above. -/
noncomputable def tableTop (a : ℝ) : Room where
  eps := 1 / 1000
  seen r := decide (r.1.z > 0 ∧ r.2.z < 0)
  env _ := ⟨1, 1, 1⟩
  point r := r.1 - r.2.smul (r.1.z / r.2.z)
  frame _ := ⟨⟨1, 0, 0⟩, ⟨0, 1, 0⟩, ⟨0, 0, 1⟩⟩
  material _ := .diffuse
  albedo r := if |(r.1 - r.2.smul (r.1.z / r.2.z)).x| < a then ⟨1, 1, 1⟩ else ⟨0, 0, 0⟩
  intIor _ := 3 / 2
  extIor _ := 1
  emitted _ := 0
  lights _ ω := ([], ω)

/-- A floor with a stripe of half width 1, and the same in the new unit. -/
example (k : ℝ) (hk : 0 < k) : ScaledRoom k (tableTop 1) (tableTop k) := by
  have hp : ∀ r : Ray, (tableTop k).point (scaledRay k r) = ((tableTop 1).point r).smul k := by
    intro r
    simp only [tableTop, scaledRay]
    ext <;> simp only [sub_x, sub_y, sub_z, smul_x, smul_y, smul_z] <;> ring
  refine ⟨rfl, fun r => ?_, fun _ => rfl, hp, fun _ => rfl, fun _ => rfl, fun r => ?_, fun _ => rfl, fun _ => rfl,
    fun _ => rfl⟩
  · simp only [tableTop, scaledRay, smul_z]
    congr 1
    rw [gt_iff_lt, mul_pos_iff_of_pos_right hk]
  · have h1 := congrArg V3.x (hp r)
    simp only [tableTop, smul_x] at h1
    simp only [tableTop]
    rw [h1, abs_mul, abs_of_pos hk]
    have e : ∀ x : ℝ, x * k < k ↔ x < 1 := fun x => by
      constructor
      · intro h; nlinarith
      · intro h; nlinarith
    by_cases hx : |(r.1 - r.2.smul (r.1.z / r.2.z)).x| < 1
    · rw [if_pos ((e _).mpr hx), if_pos hx]
    · rw [if_neg (fun h => hx ((e _).mp h)), if_neg hx]

end Integrators
end Feign
