import Verif.Turned.PathLemmas
import Verif.Integrators.Picture
import Verif.Math.MatrixProps
import Mathlib.Tactic.NormNum

/-!
# C130: a scene turned as a whole gives the same picture

Turning everything about the origin, the camera with it, changes nothing that is deterministic: what rays meet, where, with
which normal, and which light arrives directly. The directions that a diffuse surface samples are the exception, because
the tangents of a hit are computed from the coordinates of its normal: with the same random numbers other directions are
sampled. On average, and in the limit of many samples, pictures agree.
-/

set_option linter.unusedSectionVars false

namespace Feign
open V3

/-! ## The `rotate` command -/

/-- **C130, turns.** What `rotate` does to points and to directions, for any angle and any axis that is not zero, is a turn
in the sense of this property. -/
theorem rotate_turns (angle : ℝ) (axis : V3 ℝ) (h : axis ≠ 0) :
    ∃ m, M4.rotate angle axis = some m ∧ ∃ Q : Frame, Q.Rotation ∧
      ∀ v : V3 ℝ, m.mulVec ⟨v.x, v.y, v.z, 1⟩ = ⟨(Q.toWorld v).x, (Q.toWorld v).y, (Q.toWorld v).z, 1⟩ ∧
        m.topLeft.mulVec v = Q.toWorld v := by
  obtain ⟨m, hm, hdet, ⟨h12, h13, h14, h15⟩, hdot, -, -⟩ := (rotate_rigid angle axis).1 h
  have ht : m.n3 = 0 ∧ m.n7 = 0 ∧ m.n11 = 0 := by
    unfold M4.rotate at hm
    cases hu : axis.normalized with
    | none => rw [hu] at hm; cases hm
    | some u =>
      rw [hu] at hm
      obtain rfl := Option.some.inj hm
      exact ⟨rfl, rfl, rfl⟩
  obtain ⟨h3, h7, h11⟩ := ht
  let Q : Frame := ⟨m.topLeft.mulVec ⟨1, 0, 0⟩, m.topLeft.mulVec ⟨0, 1, 0⟩, m.topLeft.mulVec ⟨0, 0, 1⟩⟩
  have hw : ∀ v, m.topLeft.mulVec v = Q.toWorld v := by
    intro v
    ext <;> simp [Q, Frame.toWorld, M3.mulVec, M4.topLeft]
  have ho : Q.Orthonormal := by
    refine ⟨?_, ?_, ?_, ?_, ?_, ?_⟩ <;> simp only [Q, hdot] <;> simp [dot]
  obtain ⟨c, hc, hx⟩ := handed ho
  have hc1 : c = 1 := by
    have e1 : (Q.s.cross Q.t).dot Q.n = c := by
      rw [hx]
      have := ho.nn
      simp only [dot, smul_x, smul_y, smul_z] at this ⊢
      linear_combination c * this
    rw [← e1]
    simp only [M4.det, h12, h13, h14, h15, h3, h7, h11] at hdet
    simp only [Q, M3.mulVec, M4.topLeft, dot, cross]
    linear_combination hdet
  refine ⟨m, hm, Q, ⟨ho, ?_⟩, fun v => ⟨?_, hw v⟩⟩
  · show Q.s.cross Q.t = Q.n
    rw [hx, hc1]
    ext <;> simp
  · rw [← hw]
    simp only [M4.mulVec, M3.mulVec, M4.topLeft, h12, h13, h14, h15, h3, h7, h11]
    congr 1 <;> ring

example : (⟨1, 2, 3⟩ : V3 ℝ) ≠ 0 := fun h => by simpa using congrArg V3.x h

/-- A quarter turn about the third axis. -/
def quarter : Frame := ⟨⟨0, 1, 0⟩, ⟨-1, 0, 0⟩, ⟨0, 0, 1⟩⟩

theorem quarter_turn : quarter.Rotation := by
  refine ⟨⟨?_, ?_, ?_, ?_, ?_, ?_⟩, ?_⟩
  iterate 6 simp [quarter, dot]
  show quarter.s.cross quarter.t = quarter.n
  ext <;> simp [quarter, cross]

/-! ## Meshes -/

namespace Shapes

/-- **C130, meshes.** The turned ray meets the same face of the turned mesh at the same place and distance, or runs into the
same fault. This holds for reflections as well. -/
theorem mesh_turned (Q : Frame) (hQ : Q.Orthonormal) (m : Mesh ℝ) (r : Ray ℝ) :
    (m.turned Q).intersect (r.turned Q) = m.intersect r := intersectFrom_turned hQ m m.tris 0 r none

/-- The reported point and normal are the turned ones. -/
theorem mesh_hit_turned (Q : Frame) (hQ : Q.Rotation) (m : Mesh ℝ) (f : Face) (c : V3 ℝ × V3 ℝ × V3 ℝ)
    (hc : m.corners f = .ok c) (a b : ℝ) (n : Option (V3 ℝ)) (hn : m.shadingNormal f a b = .ok n) :
    ∃ c', (m.turned Q).corners f = .ok c' ∧
      hitPoint c'.1 c'.2.1 c'.2.2 a b = Q.toWorld (hitPoint c.1 c.2.1 c.2.2 a b) ∧
      (m.turned Q).shadingNormal f a b = .ok (n.map Q.toWorld) := by
  refine ⟨(Q.toWorld c.1, Q.toWorld c.2.1, Q.toWorld c.2.2), ?_, hitPoint_turned _ _ _ a b, ?_⟩
  · rw [corners_turned, hc]
    rfl
  · rw [shadingNormal_turned hQ, hn]
    rfl

/-- A reflected mesh is inside out: the normal of each face is opposite to the reflected one. -/
theorem mirror_inside_out (Q : Frame) (hQ : Q.Orthonormal) (hl : Q.s.cross Q.t = -Q.n) (p0 p1 p2 : V3 ℝ) :
    geomNormal (Q.toWorld p0) (Q.toWorld p1) (Q.toWorld p2) = (geomNormal p0 p1 p2).map fun n => -(Q.toWorld n) := by
  have hx : Q.s.cross Q.t = Q.n.smul (-1) := by
    rw [hl]
    ext <;> simp
  unfold geomNormal
  rw [← turn_sub, ← turn_sub, turn_cross' hQ (-1) (by norm_num) hx]
  have e : ∀ v : V3 ℝ, (v.smul (-1)).normalized = v.normalized.map fun n => -n := by
    intro v
    unfold normalized
    have hn : (v.smul (-1)).norm = v.norm := by simp [V3.norm]
    rw [hn]
    by_cases h0 : v.norm = 0
    · simp [h0]
    · simp only [h0, if_false, Option.map_some, Option.some.injEq]
      ext <;> simp <;> ring
  rw [e, turn_normalized hQ, Option.map_map]
  rfl

/-- A reflection: the third axis upside down. -/
example : (⟨⟨1, 0, 0⟩, ⟨0, 1, 0⟩, ⟨0, 0, -1⟩⟩ : Frame).Orthonormal ∧
    (⟨1, 0, 0⟩ : V3 ℝ).cross ⟨0, 1, 0⟩ = -⟨0, 0, -1⟩ := by
  refine ⟨⟨?_, ?_, ?_, ?_, ?_, ?_⟩, ?_⟩
  iterate 6 simp [dot]
  ext <;> simp [cross]

end Shapes

/-! ## Distance functions -/

namespace Sdf

/-- **C130, shapes.** Spheres, planes, cylinders and cones turn: the solid consists of the turned points, and the reported
distances are the same. -/
theorem shape_turned (Q : Frame) (hQ : Q.Orthonormal) (s s' : Shape) (hs : s.turned Q = some s') (h : s.WellFormed) :
    s'.WellFormed ∧ (∀ p, Q.toWorld p ∈ s'.solid ↔ p ∈ s.solid) ∧ ∀ p, s'.eval (Q.toWorld p) = s.eval p :=
  ⟨wellFormed_turned hQ s s' hs h, solid_turned hQ s s' hs, eval_turned hQ s s' hs h⟩

example : (Shape.cylinder ⟨1, 0, 0⟩ ⟨2, 0, 0⟩ 3).turned quarter = some (.cylinder ⟨0, 1, 0⟩ ⟨0, 2, 0⟩ 3) := by
  simp only [Shape.turned, Option.some.injEq, Shape.cylinder.injEq, and_true]
  constructor <;> ext <;> simp [Frame.toWorld, quarter]

/-- Boxes do not turn: there is no box whose solid is the turned solid of a cube. -/
theorem box_turned_refuted : ∃ (Q : Frame) (s : Shape), Q.Rotation ∧ s.WellFormed ∧
    ∀ t b, ¬ ∀ p, Q.toWorld p ∈ (Shape.box t b).solid ↔ p ∈ s.solid := by
  refine ⟨⟨⟨3 / 5, 4 / 5, 0⟩, ⟨-4 / 5, 3 / 5, 0⟩, ⟨0, 0, 1⟩⟩, .box ⟨1, 1, 1⟩ ⟨-1, -1, -1⟩, ⟨⟨?_, ?_, ?_, ?_, ?_, ?_⟩, ?_⟩, ?_, ?_⟩
  iterate 6 (simp [dot]; try norm_num)
  · show cross _ _ = _
    ext <;> simp [cross] <;> norm_num
  · simp [Shape.WellFormed, V3.le]
  · intro t b h
    have h1 := (h ⟨1, -1, 0⟩).2 (by simp [Shape.solid, boxSet, V3.le])
    have h2 := (h ⟨1, 1, 0⟩).2 (by simp [Shape.solid, boxSet, V3.le])
    have h3 := mt (h ⟨49 / 25, -7 / 25, 0⟩).1 (by simp [Shape.solid, boxSet, V3.le]; norm_num)
    apply h3
    simp only [Shape.solid, boxSet, Set.mem_ofPred_eq, V3.le, Frame.toWorld, add_x, add_y, add_z, smul_x, smul_y, smul_z] at h1 h2 ⊢
    norm_num at h1 h2 ⊢
    obtain ⟨⟨a1, a2, a3⟩, a4, a5, a6⟩ := h1
    obtain ⟨⟨b1, b2, b3⟩, b4, b5, b6⟩ := h2
    refine ⟨⟨?_, ?_, ?_⟩, ?_, ?_, ?_⟩ <;> linarith

end Sdf

/-! ## Lights -/

namespace Lights
open Shapes Sampling

/-- **C130, lights.** The turned point gets the same light from turned lights of any kind, with the same random numbers, from
the turned direction, whichever way light is sampled. -/
theorem light_turned (Q : Frame) (hQ : Q.Rotation) (w w' : World) (hw : w.TurnedTo Q w') (sp sp' : Spot)
    (hs : sp.TurnedTo Q sp') (ho : sp.frame.Orthonormal) (inMedia : Bool) (ls : List Light) (c : ℝ) (u : V2 ℝ)
    (us : List (V2 ℝ)) :
    evalOne w' sp' inMedia (ls.map (Light.turned Q)) c u = turnedEvals Q sp.frame sp'.frame (evalOne w sp inMedia ls c u) ∧
      evalAll w' sp' inMedia (ls.map (Light.turned Q)) us = turnedEvals Q sp.frame sp'.frame (evalAll w sp inMedia ls us) :=
  ⟨evalOne_turned hQ hw hs ho inMedia ls c u, evalAll_turned hQ hw hs ho inMedia ls us⟩

/-- The table of areas that a light of triangles prepares is the same. -/
theorem light_table_turned (Q : Frame) (hQ : Q.Orthonormal) (intensity : V3 ℝ) (inst : ℕ) (m : Mesh ℝ) :
    Light.newMesh intensity inst (m.turned Q) = (Light.newMesh intensity inst m >>= fun l => .ok (l.turned Q)) := by
  unfold Light.newMesh
  show (faceAreas (m.turned Q) m.tris >>= _) = _
  rw [faceAreas_turned hQ]
  cases faceAreas m m.tris with
  | ok as =>
    show (areaTable as >>= _) = ((areaTable as >>= _) >>= _)
    cases areaTable as <;> rfl
  | throw e => rfl
  | ub e => rfl

end Lights

/-! ## The camera -/

namespace Camera

theorem lookAtAxes_turned {Q : Frame} (hQ : Q.Rotation) (origin target up : V3 ℝ) :
    lookAtAxes (Q.toWorld origin) (Q.toWorld target) (Q.toWorld up) =
      (lookAtAxes origin target up).map fun a => (Q.toWorld a.1, Q.toWorld a.2.1, Q.toWorld a.2.2) := by
  unfold lookAtAxes
  rw [← turn_sub, turn_normalized hQ.rigid, turn_normalized hQ.rigid]
  cases (target - origin).normalized with
  | none => rfl
  | some z =>
    cases up.normalized with
    | none => rfl
    | some u =>
      simp only [Option.map_some, Option.bind_some, turn_cross hQ, turn_normalized hQ.rigid]
      cases (u.cross z).normalized with
      | none => rfl
      | some x =>
        simp only [Option.map_some, Option.bind_some, turn_cross hQ, turn_normalized hQ.rigid]
        cases (z.cross x).normalized <;> rfl

/-- **C130, the camera.** A camera whose eye, target and up direction are turned shoots the turned rays, for any field of
view, picture size, lens and focal distance. -/
theorem camera_turned (Q : Frame) (hQ : Q.Rotation) (c : Persp) (h : c.Ok) (hf : 0 < c.focal) (origin target up : V3 ℝ)
    (hv : GoodView origin target up) :
    ∃ t t', cameraToWorld Xf.one origin target up = some t ∧
      cameraToWorld Xf.one (Q.toWorld origin) (Q.toWorld target) (Q.toWorld up) = some t' ∧
      ∀ film app, ∃ r, c.sampleRay t film app = some r ∧ c.sampleRay t' film app = some (r.turned Q) := by
  have hv' : GoodView (Q.toWorld origin) (Q.toWorld target) (Q.toWorld up) := by
    intro e
    rw [← turn_sub, turn_cross hQ, ← turn_zero (Q := Q), turn_inj hQ.rigid] at e
    exact hv e
  obtain ⟨x, y, z, hx, t, ht, -, hta, htp, htv⟩ :=
    cameraToWorld_spec Xf.one Xf.valid_one ⟨M4.Affine.one, M4.Affine.one⟩ origin target up hv
  obtain ⟨x', y', z', hx', t', ht', -, hta', htp', htv'⟩ :=
    cameraToWorld_spec Xf.one Xf.valid_one ⟨M4.Affine.one, M4.Affine.one⟩ _ _ _ hv'
  rw [lookAtAxes_turned hQ, hx] at hx'
  simp only [Option.map_some, Option.some.injEq, Prod.mk.injEq] at hx'
  obtain ⟨rfl, rfl, rfl⟩ := hx'
  have hpl : ∀ o p, place (Q.toWorld x) (Q.toWorld y) (Q.toWorld z) (Q.toWorld o) p = Q.toWorld (place x y z o p) := by
    intro o p
    simp only [place, turn_add, turn_smul]
  have hpl0 : ∀ p, place (Q.toWorld x) (Q.toWorld y) (Q.toWorld z) 0 p = Q.toWorld (place x y z 0 p) := by
    intro p
    rw [← hpl, turn_zero]
  refine ⟨t, t', ht, ht', fun film app => ?_⟩
  obtain ⟨ap, r, hr, hap, hro, ⟨hrd, hvn⟩, hrn, hrf⟩ := sampleRay_spec c h hf t hta film app
  obtain ⟨ap', r', hr', hap', hro', ⟨hrd', hvn'⟩, hrn', hrf'⟩ := sampleRay_spec c h hf t' hta' film app
  obtain rfl : ap' = ap := hap'.trans hap.symm
  refine ⟨r, hr, ?_⟩
  rw [hr']
  rw [htp, Xf.one_point _ _ rfl] at hro
  rw [htp', Xf.one_point _ _ rfl, hpl] at hro'
  have h1 : r'.origin = Q.toWorld r.origin := by rw [← Option.some.inj hro, ← Option.some.inj hro']
  have hone : ∀ p : V3 ℝ, (Xf.one : Xf ℝ).vec p = p := by
    intro p
    ext <;> simp [Xf.vec, Xf.one, M4.one, M4.topLeft, M3.mulVec]
  have h2 : r'.dir = Q.toWorld r.dir := by
    rw [hrd, hrd', htv, htv', hpl0, hone, hone]
  cases r
  cases r'
  simp only at h1 h2 hrn hrf hrn' hrf'
  subst h1 h2 hrn hrf hrn' hrf'
  rfl

/-- A camera with an open lens that meets the hypotheses. -/
example : (⟨1 / 10, 5, 60, 1 / 100, 1000, 640, 480⟩ : Persp).Ok ∧ GoodView ⟨0, 0, 5⟩ ⟨0, 0, 0⟩ ⟨0, 1, 0⟩ := by
  refine ⟨⟨by norm_num, by norm_num, by norm_num, by norm_num, by norm_num, by norm_num⟩, fun h => ?_⟩
  have := congrArg V3.x h
  simp [cross] at this

end Camera

/-! ## Pictures -/

namespace Integrators
open Sampling MeasureTheory
open scoped ENNReal Topology

/-- **C130, paths.** In any scene of diffuse, mirror and glass surfaces lit by lamps, the mean of what the integrator reports
is the same along the turned ray. -/
theorem path_turned (Q : Frame) (hQ : Q.Rotation) (S S' : Room) (h : TurnedRoom Q S S') (hS : S.Lawful) (hS' : S'.Lawful)
    (lamps : List Lamp) (hl : ∀ l ∈ lamps, NonNeg l.1) (blocked blocked' : Blocked)
    (mb : Measurable fun q : V3 ℝ × V3 ℝ × ℝ => blocked q.1 q.2.1 q.2.2)
    (mb' : Measurable fun q : V3 ℝ × V3 ℝ × ℝ => blocked' q.1 q.2.1 q.2.2)
    (hb : ∀ p d L, blocked' (Q.toWorld p) (Q.toWorld d) L = blocked p d L) (quot : ℝ → ℝ → ℝ) (hq : IsQuot quot) (n : ℕ)
    (L L' : Ray → Stream → V3 ℝ × Stream) (hL : (S.lit lamps blocked).world.Traces quot n L)
    (hL' : (S'.lit (lamps.map (turnedLamp Q)) blocked').world.Traces quot n L') (r : Ray) (c : Fin 3) :
    ∫⁻ ω, ENNReal.ofReal ((L' (turnedRay Q r) ω).1.get c) ∂uniform = ∫⁻ ω, ENNReal.ofReal ((L r ω).1.get c) ∂uniform := by
  have hl' : ∀ l ∈ lamps.map (turnedLamp Q), NonNeg l.1 := by
    intro l hm
    obtain ⟨l0, h0, rfl⟩ := List.mem_map.mp hm
    exact hl l0 h0
  have h1 := lit_lawful S hS lamps hl blocked mb
  have h2 := lit_lawful S' hS' _ hl' blocked' mb'
  rw [Traces.eq (room_lawful _ h1) hq hL, Traces.eq (room_lawful _ h2) hq hL']
  simp only [trace_fst]
  exact mean_turned hQ.rigid (h.lit lamps blocked blocked') h1 h2 (direct_turned hQ h hS.frame lamps hb) c n white true r
    NonNeg.white

/-- **C130, pictures.** With the turned camera, for almost every stream of random numbers, both pictures exist for every
number of samples, and each of their pixels tends to the same value as the number of samples grows. -/
theorem turned_picture (Q : Frame) (hQ : Q.Rotation) (S S' : Room) (h : TurnedRoom Q S S') (hS : S.Lawful) (hS' : S'.Lawful)
    (lamps : List Lamp) (hl : ∀ l ∈ lamps, NonNeg l.1) (blocked blocked' : Blocked)
    (mb : Measurable fun q : V3 ℝ × V3 ℝ × ℝ => blocked q.1 q.2.1 q.2.2)
    (mb' : Measurable fun q : V3 ℝ × V3 ℝ × ℝ => blocked' q.1 q.2.1 q.2.2)
    (hb : ∀ p d L, blocked' (Q.toWorld p) (Q.toWorld d) L = blocked p d L) (quot : ℝ → ℝ → ℝ) (hq : IsQuot quot) (n : ℕ)
    (L L' : Ray → Stream → V3 ℝ × Stream) (hL : (S.lit lamps blocked).world.Traces quot n L)
    (hL' : (S'.lit (lamps.map (turnedLamp Q)) blocked').world.Traces quot n L')
    (ray ray' : ℝ × ℝ → ℝ × ℝ → Ray) (mr : Measurable fun q : (ℝ × ℝ) × (ℝ × ℝ) => ray q.1 q.2)
    (mr' : Measurable fun q : (ℝ × ℝ) × (ℝ × ℝ) => ray' q.1 q.2) (hr : ∀ f a, ray' f a = turnedRay Q (ray f a)) (M : ℝ)
    (hM : ∀ i r, (S.lit lamps blocked).world.carried i n true r ≤ ENNReal.ofReal M) (w hgt : ℕ) :
    ∀ᵐ ω ∂uniform, ∃ img img' : ℕ → Int → Int → Fin 3 → ℝ,
      (∀ spp, Image.renderWith Image.apiDefaultFilter w hgt spp ray L ω = .ok (img spp)) ∧
      (∀ spp, Image.renderWith Image.apiDefaultFilter w hgt spp ray' L' ω = .ok (img' spp)) ∧
      ∀ (x y : ℕ) (c : Fin 3), x < w → y < hgt → ∃ v,
        Filter.Tendsto (fun spp => img spp x y c) Filter.atTop (𝓝 v) ∧
        Filter.Tendsto (fun spp => img' spp x y c) Filter.atTop (𝓝 v) := by
  have hl' : ∀ l ∈ lamps.map (turnedLamp Q), NonNeg l.1 := by
    intro l hm
    obtain ⟨l0, h0, rfl⟩ := List.mem_map.mp hm
    exact hl l0 h0
  have h1 := lit_lawful S hS lamps hl blocked mb
  have h2 := lit_lawful S' hS' _ hl' blocked' mb'
  have hp := path_turned Q hQ S S' h hS hS' lamps hl blocked blocked' mb mb' hb quot hq n L L' hL hL'
  have hM' : ∀ i r, (S'.lit (lamps.map (turnedLamp Q)) blocked').world.carried i n true r ≤ ENNReal.ofReal M := by
    intro i r
    have e : r = turnedRay Q (Q.toLocal r.1, Q.toLocal r.2) := by
      unfold turnedRay
      rw [Frame.toWorld_toLocal Q hQ.rigid, Frame.toWorld_toLocal Q hQ.rigid]
    rw [e, carried_turned hQ.rigid (h.lit lamps blocked blocked') h1 h2 (direct_turned hQ h hS.frame lamps hb)]
    exact hM i _
  obtain rfl := Traces.eq (room_lawful _ h1) hq hL
  obtain rfl := Traces.eq (room_lawful _ h2) hq hL'
  filter_upwards [Image.default_filter_converges (path_lawful (room_lawful _ h1) mr n hM) w hgt,
    Image.default_filter_converges (path_lawful (room_lawful _ h2) mr' n hM') w hgt] with ω ⟨img, a1, a2⟩ ⟨img', b1, b2⟩
  refine ⟨img, img', a1, b1, fun x y c hx hy => ⟨_, a2 x y c hx hy, ?_⟩⟩
  have := b2 x y c hx hy
  convert this using 4
  unfold Image.lightAt
  simp only [hr, hp]

/-- A slope through the origin, seen from above, with these tangents and normal. -/
noncomputable def slope (f : Frame) : Room where
  eps := 1 / 1000
  seen r := decide (0 < f.n.dot r.1 ∧ f.n.dot r.2 < 0)
  env _ := ⟨1, 1, 1⟩
  point r := r.1 - r.2.smul (f.n.dot r.1 / f.n.dot r.2)
  frame _ := f
  material _ := .diffuse
  albedo _ := ⟨1 / 2, 1 / 2, 1 / 2⟩
  intIor _ := 3 / 2
  extIor _ := 1
  emitted _ := 0
  lights _ ω := ([], ω)

/-- Slopes turn, whatever tangents they have. -/
theorem slope_turned (Q : Frame) (hQ : Q.Orthonormal) (f f' : Frame) (hn : f'.n = Q.toWorld f.n) :
    TurnedRoom Q (slope f) (slope f') := by
  refine ⟨rfl, fun r => ?_, fun _ => rfl, fun r => ?_, fun _ => hn, fun _ => rfl, fun _ => rfl, fun _ => rfl, fun _ => rfl,
    fun _ => rfl⟩
  · simp only [slope, turnedRay, hn, turn_dot hQ]
  · simp only [slope, turnedRay, hn, turn_dot hQ, turn_sub, turn_smul]

theorem slope_lawful (f : Frame) (hf : f.Orthonormal) : (slope f).Lawful where
  seen := by
    have h1 : Measurable fun r : Ray => f.n.dot r.1 := measurable_dot measurable_const measurable_fst
    have h2 : Measurable fun r : Ray => f.n.dot r.2 := measurable_dot measurable_const measurable_snd
    have hs : MeasurableSet {r : Ray | 0 < f.n.dot r.1 ∧ f.n.dot r.2 < 0} :=
      (measurableSet_lt measurable_const h1).inter (measurableSet_lt h2 measurable_const)
    refine measurable_to_bool ?_
    convert hs using 1
    ext r
    simp [slope]
  env := measurable_const
  env_nonneg _ := ⟨zero_le_one, zero_le_one, zero_le_one⟩
  point := by
    have h1 : Measurable fun r : Ray => f.n.dot r.1 := measurable_dot measurable_const measurable_fst
    have h2 : Measurable fun r : Ray => f.n.dot r.2 := measurable_dot measurable_const measurable_snd
    have hx : Measurable fun r : Ray => r.1.x := Warp.measurable_x.comp measurable_fst
    have hy : Measurable fun r : Ray => r.1.y := Warp.measurable_y.comp measurable_fst
    have hz : Measurable fun r : Ray => r.1.z := Warp.measurable_z.comp measurable_fst
    have kx : Measurable fun r : Ray => r.2.x := Warp.measurable_x.comp measurable_snd
    have ky : Measurable fun r : Ray => r.2.y := Warp.measurable_y.comp measurable_snd
    have kz : Measurable fun r : Ray => r.2.z := Warp.measurable_z.comp measurable_snd
    exact measurable_mk (hx.sub (kx.mul (h1.div h2))) (hy.sub (ky.mul (h1.div h2))) (hz.sub (kz.mul (h1.div h2)))
  frame_s := (measurable_const : Measurable fun _ : Ray => f.s)
  frame_t := (measurable_const : Measurable fun _ : Ray => f.t)
  frame_n := (measurable_const : Measurable fun _ : Ray => f.n)
  frame _ := hf
  material := measurable_const
  albedo := measurable_const
  albedo_nonneg _ := ⟨by norm_num [slope], by norm_num [slope], by norm_num [slope]⟩
  intIor := measurable_const
  extIor := measurable_const
  emitted := measurable_const
  emitted_nonneg _ := NonNeg.zero
  lights := measurable_const.prodMk measurable_snd
  lights_fresh _ := fresh_pure 0
  lights_nonneg _ _ := NonNeg.zero

/-- A slope in a room without lamps never sends back more than the sky does. -/
theorem slope_bounded (f : Frame) (hf : f.Orthonormal) (n : ℕ) : ∀ i look r,
    ((slope f).lit [] fun _ _ _ => false).world.carried i n look r ≤ ENNReal.ofReal 1 := by
  induction n with
  | zero => intro i look r; exact zero_le
  | succ n ih =>
    intro i look r
    rw [World.carried]
    split
    · fin_cases i <;> simp [Room.world, Room.lit, slope, V3.get]
    · have hd : ((slope f).lit [] fun _ _ _ => false).world.direct i r = 0 := by
        simp only [World.direct, Room.world, Room.lit, lampLight, List.length_nil, if_true, total]
        simp [get_zero]
      have ho : (if look = true then ENNReal.ofReal ((((slope f).lit [] fun _ _ _ => false).world.emitted r).get i) else 0) = 0 := by
        cases look <;> simp [Room.world, Room.lit, slope, get_zero]
      rw [hd, ho, zero_add, zero_add]
      have hfac : ∀ ω, factor false i ((slope f).scatter r ω).1 ≤ 1 := by
        intro ω
        rw [scatter_eq, if_neg (by simp [slope])]
        by_cases hz : ((slope f).wi r).z ≤ 0
        · rw [if_pos hz]
          simp [factor, Room.black, Bounce.pdf]
        · rw [if_neg hz, if_neg (by simp [slope])]
          unfold factor
          split
          · exact zero_le_one
          · rename_i hp
            have hz0 : 0 ≤ (Warp.cosHemi ⟨(next2 ω).1.1, (next2 ω).1.2⟩).z := Real.sqrt_nonneg _
            set z := (Warp.cosHemi ⟨(next2 ω).1.1, (next2 ω).1.2⟩).z with hzd
            have e1 : ((slope f).onward r (lobe ((slope f).albedo r) (next2 ω).1)).pdf = 1 / Real.pi * z := rfl
            have e2 : ((slope f).onward r (lobe ((slope f).albedo r) (next2 ω).1)).cos = z := by
              show f.n.dot (f.toWorld _) = _
              rw [normal_toWorld hf]
              rfl
            have e3 : ((slope f).onward r (lobe ((slope f).albedo r) (next2 ω).1)).albedo.get i = 1 / 2 * (1 / Real.pi) := by
              show (((⟨1 / 2, 1 / 2, 1 / 2⟩ : V3 ℝ).smul (1 / Real.pi))).get i = _
              fin_cases i <;> simp [V3.get]
            rw [e1] at hp
            simp only [e1, e2, e3, Bool.false_eq_true, if_false]
            rw [abs_of_nonneg hz0, mul_assoc, mul_div_assoc, div_self hp]
            norm_num
      calc _ ≤ ∫⁻ _, ENNReal.ofReal 1 * ENNReal.ofReal 1 ∂uniform :=
            lintegral_mono fun ω => mul_le_mul' (ENNReal.ofReal_le_ofReal (hfac ω)) (ih _ _ _)
        _ = _ := by simp

/-- The hypotheses of `turned_picture` are met by a slope and any turn. -/
example (Q : Frame) (hQ : Q.Rotation) (f f' : Frame) (hf : f.Orthonormal) (hf' : f'.Orthonormal) (hn : f'.n = Q.toWorld f.n)
    (n : ℕ) : TurnedRoom Q (slope f) (slope f') ∧ (slope f).Lawful ∧ (slope f').Lawful ∧
      ∀ i r, ((slope f).lit [] fun _ _ _ => false).world.carried i n true r ≤ ENNReal.ofReal 1 :=
  ⟨slope_turned Q hQ.rigid f f' hn, slope_lawful f hf, slope_lawful f' hf', fun i r => slope_bounded f hf n i true r⟩

/-- With the same random numbers the turned scene does not sample the turned directions: a level floor is the same floor
after a quarter turn, its tangents are computed from its normal and so are the same, and the sampled direction has not
turned along. -/
theorem same_numbers_refuted : ∃ (Q : Frame) (S S' : Room) (r : Ray) (ω : Stream), Q.Rotation ∧ TurnedRoom Q S S' ∧
    (∀ r, Frame.ofNormal (S.frame r).n = some (S.frame r)) ∧ (∀ r, Frame.ofNormal (S'.frame r).n = some (S'.frame r)) ∧
    (S'.scatter (turnedRay Q r) ω).1.ray ≠ turnedRay Q (S.scatter r ω).1.ray := by
  let f : Frame := ⟨⟨1, 0, 0⟩, ⟨0, 1, 0⟩, ⟨0, 0, 1⟩⟩
  have hf : Frame.ofNormal f.n = some f := by
    have hs : Real.sqrt (0 * 0 + 1 * 1 : ℝ) = 1 := by norm_num
    simp only [Frame.ofNormal, Frame.coordinateSystem, f, hs]
    norm_num [cross]
  have hT : TurnedRoom quarter (slope f) (slope f) := slope_turned _ quarter_turn.rigid f f (by
    ext <;> simp [f, quarter, Frame.toWorld])
  refine ⟨quarter, slope f, slope f, (⟨0, 0, 1⟩, ⟨0, 0, -1⟩), fun n => if n = 1 then 1 / 4 else 0, quarter_turn, hT,
    fun _ => hf, fun _ => hf, fun e => ?_⟩
  have hw : ∀ r : Ray, r.2 = ⟨0, 0, -1⟩ → ¬ ((slope f).wi r).z ≤ 0 := by
    intro r hr
    have : ((slope f).wi r).z = 1 := by
      show ((-r.2).dot f.n) = 1
      rw [hr]
      simp [f, dot]
    rw [this]
    norm_num
  have s1 : ∀ (r : Ray) ω, r.2 = ⟨0, 0, -1⟩ → ((slope f).scatter r ω).1.ray.2 = f.toWorld (Warp.cosHemi ⟨ω 0, ω 1⟩) := by
    intro r ω hr
    rw [scatter_eq, if_neg (by simp [slope]), if_neg (hw r hr), if_neg (by simp [slope])]
    rfl
  have e2 := congrArg Prod.snd e
  rw [s1 _ _ (by ext <;> simp [turnedRay, quarter, Frame.toWorld])] at e2
  change _ = quarter.toWorld ((slope f).scatter _ _).1.ray.2 at e2
  rw [s1 _ _ rfl] at e2
  have hx : (Warp.cosHemi ⟨0, 1 / 4⟩).x = 1 / 2 := by
    simp only [Warp.cosHemi, Warp.uniDisk, mul_zero, Real.cos_zero, one_mul]
    rw [show (1 / 4 : ℝ) = (1 / 2) ^ 2 by norm_num, Real.sqrt_sq (by norm_num)]
  have hy : (Warp.cosHemi ⟨0, 1 / 4⟩).y = 0 := by
    simp [Warp.cosHemi, Warp.uniDisk]
  have := congrArg V3.x e2
  norm_num at this
  simp only [f, quarter, Frame.toWorld, add_x, add_y, add_z, smul_x, smul_y, smul_z] at this
  norm_num at hx hy
  rw [hx, hy] at this
  norm_num at this

end Integrators
end Feign
