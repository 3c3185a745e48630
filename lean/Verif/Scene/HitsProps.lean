import Verif.Scene.Hits
import Verif.Math.BBoxProps
import Mathlib.Data.List.Basic
import Mathlib.Tactic.Linarith
import Mathlib.Tactic.NormNum
import Mathlib.Tactic.Ring
import Mathlib.Algebra.Order.Ring.Rat

/-!
# C95: hits are reported for the object that was hit

A ray query in a scene of meshes should report the nearest point of any triangle of any object on the ray, with the
object it belongs to.
-/

set_option linter.unusedSectionVars false
set_option linter.unusedVariables false
set_option linter.unusedSimpArgs false

namespace Feign.Scene

open Feign.Shapes

variable {K : Type} [Field K] [LinearOrder K]

/-- Specification: the point with the coordinates `u`, `v` in a triangle. -/
def InTri (p0 p1 p2 : V3 K) (u v : K) (P : V3 K) : Prop :=
  0 ≤ u ∧ 0 ≤ v ∧ u + v ≤ 1 ∧ P = p0 + (p1 - p0).smul u + (p2 - p0).smul v

/-- Specification: `P` is a point of triangle `f` of the mesh. -/
def Touches (m : Mesh K) (f : ℕ) (P : V3 K) : Prop :=
  ∃ face p0 p1 p2 u v, m.tris[f]? = some face ∧ m.vs[face.v 0]? = some p0 ∧ m.vs[face.v 1]? = some p1 ∧
    m.vs[face.v 2]? = some p2 ∧ InTri p0 p1 p2 u v P

/-- Specification: between the ends of the ray. -/
def Within (r : Ray K) (t : K) : Prop := r.near ≤ Ext.fin t ∧ Ext.fin t ≤ r.far

/-- The point `u`, `v` of triangle `f` of Embree geometry `g`. -/
def GeomPoint (geoms : List (Geom K)) (g f : ℕ) (u v : K) (P : V3 K) : Prop :=
  ∃ geo a b c p0 p1 p2, geoms[g]? = some geo ∧ geo.tris[f]? = some (a, b, c) ∧ geo.verts[a]? = some p0 ∧
    geo.verts[b]? = some p1 ∧ geo.verts[c]? = some p2 ∧ InTri p0 p1 p2 u v P

/-- What is assumed of Embree for the ray `r`: geometries are numbered in the order in which they were attached, and the
answer is a nearest point of their triangles on the ray, or nothing if there is none. -/
def EmbreeSpec (geoms : List (Geom K)) (rtc : Ray K → Option (RtcHit K)) (r : Ray K) : Prop :=
  match rtc r with
  | some h => GeomPoint geoms h.geom h.prim h.u h.v (r.point h.t) ∧ Within r h.t ∧
      ∀ g f u v t, GeomPoint geoms g f u v (r.point t) → Within r t → h.t ≤ t
  | none => ∀ g f u v t, GeomPoint geoms g f u v (r.point t) → ¬ Within r t

private theorem build_from : ∀ (shapes : List (Shp K)) (a : Accel K),
    (shapes.foldl Accel.addShape a).geoms = a.geoms ++ shapes.filterMap (fun s => match s with
      | .mesh m => some (toGeom m)
      | .sdf => none) ∧
    (shapes.foldl Accel.addShape a).meshes = a.meshes ++ shapes
  | [], a => by simp
  | s :: l, a => by
    obtain ⟨h1, h2⟩ := build_from l (a.addShape s)
    rw [List.foldl_cons, h1, h2]
    cases s <;> simp [Accel.addShape]

private theorem build_meshes (shapes : List (Shp K)) : (buildAccel shapes).meshes = shapes := by
  simpa [buildAccel] using (build_from shapes ⟨[], []⟩).2

private theorem build_geoms (shapes : List (Shp K)) :
    (buildAccel shapes).geoms = shapes.filterMap (fun s => match s with
      | .mesh m => some (toGeom m)
      | .sdf => none) := by
  simpa [buildAccel] using (build_from shapes ⟨[], []⟩).1

private theorem build_all (ms : List (Mesh K)) : (buildAccel (ms.map Shp.mesh)).geoms = ms.map toGeom := by
  rw [build_geoms, List.filterMap_map]
  induction ms with
  | nil => rfl
  | cons m l ih => simp only [List.filterMap_cons, Function.comp, List.map_cons]; rw [← ih]; rfl

private theorem touches_geom {ms : List (Mesh K)} {i : ℕ} {m : Mesh K} (hm : ms[i]? = some m) {f : ℕ} {P : V3 K}
    (h : Touches m f P) : ∃ u v, GeomPoint (ms.map toGeom) i f u v P := by
  obtain ⟨face, p0, p1, p2, u, v, h1, h2, h3, h4, h5⟩ := h
  refine ⟨u, v, toGeom m, face.v 0, face.v 1, face.v 2, p0, p1, p2, by simp [hm], ?_, h2, h3, h4, h5⟩
  simp [toGeom, h1]

private theorem geom_touches {ms : List (Mesh K)} {g f : ℕ} {u v : K} {P : V3 K}
    (h : GeomPoint (ms.map toGeom) g f u v P) : ∃ m face p0 p1 p2, ms[g]? = some m ∧ m.tris[f]? = some face ∧
      m.vs[face.v 0]? = some p0 ∧ m.vs[face.v 1]? = some p1 ∧ m.vs[face.v 2]? = some p2 ∧ InTri p0 p1 p2 u v P := by
  obtain ⟨geo, a, b, c, p0, p1, p2, h1, h2, h3, h4, h5, h6⟩ := h
  rw [List.getElem?_map, Option.map_eq_some_iff] at h1
  obtain ⟨m, hm, rfl⟩ := h1
  simp only [toGeom, List.getElem?_map, Option.map_eq_some_iff, Prod.mk.injEq] at h2
  obtain ⟨face, hf, rfl, rfl, rfl⟩ := h2
  exact ⟨m, face, p0, p1, p2, hm, hf, h3, h4, h5, h6⟩

private theorem complete_mesh {m : Mesh K} {f : ℕ} {face : Face} {p0 p1 p2 : V3 K} {u v : K} {P : V3 K}
    (h1 : m.tris[f]? = some face) (h2 : m.vs[face.v 0]? = some p0) (h3 : m.vs[face.v 1]? = some p1)
    (h4 : m.vs[face.v 2]? = some p2) (h5 : InTri p0 p1 p2 u v P) : complete (.mesh m) f u v = .ok (some P) := by
  have e : hitPoint p0 p1 p2 u v = P := by
    rw [h5.2.2.2]
    ext <;> simp only [hitPoint, V3.add_x, V3.add_y, V3.add_z, V3.smul_x, V3.smul_y, V3.smul_z, V3.sub_x, V3.sub_y,
      V3.sub_z] <;> ring
  simp only [complete, readAt, h1, Mesh.corners, h2, h3, h4, Res.bind_ok, Res.pure_eq, e]

/-- Specification of the answer of a ray query in a scene of meshes. -/
def NearestHit (ms : List (Mesh K)) (r : Ray K) : Option (Its K) → Prop
  | some its => (∃ m, ms[its.shape]? = some m ∧ Touches m its.face (r.point its.t)) ∧ its.p = some (r.point its.t) ∧
      Within r its.t ∧ ∀ (i : ℕ) (m : Mesh K) (f : ℕ) (t : K), ms[i]? = some m → Touches m f (r.point t) → Within r t →
        its.t ≤ t
  | none => ∀ (i : ℕ) (m : Mesh K) (f : ℕ) (t : K), ms[i]? = some m → Touches m f (r.point t) → ¬ Within r t

/-- **C95, the part that holds** (scenes of meshes only; the full claim is for every scene the interface accepts). The
query reports a nearest point of all triangles of all meshes, its mesh, its triangle, its distance and the point
itself, and nothing exactly if there is none. -/
theorem hits_attributed_partial (ms : List (Mesh K)) (rtc : Ray K → Option (RtcHit K))
    (r : Ray K) (H : EmbreeSpec (buildAccel (ms.map Shp.mesh)).geoms rtc r) :
    ∃ o, (buildAccel (ms.map Shp.mesh)).intersect rtc r = .ok o ∧ NearestHit ms r o := by
  rw [build_all] at H
  have hr := H
  unfold EmbreeSpec at hr
  unfold Accel.intersect
  cases e : rtc r with
  | none =>
    rw [e] at hr
    refine ⟨none, rfl, ?_⟩
    intro i m f t hm ht
    obtain ⟨u, v, hg⟩ := touches_geom hm ht
    exact hr _ _ _ _ _ hg
  | some h =>
    rw [e] at hr
    obtain ⟨h1, h2, h3⟩ := hr
    obtain ⟨m, face, p0, p1, p2, k1, k2, k3, k4, k5, k6⟩ := geom_touches h1
    refine ⟨some ⟨h.geom, h.prim, h.t, some (r.point h.t)⟩, ?_, ⟨m, k1, face, p0, p1, p2, h.u, h.v, k2, k3, k4, k5, k6⟩,
      rfl, h2, ?_⟩
    · have hm : readAt (buildAccel (ms.map Shp.mesh)).meshes h.geom = .ok (.mesh m) := by
        rw [build_meshes]; simp [readAt, k1]
      simp only [hm, Res.bind_ok, complete_mesh k2 k3 k4 k5 k6, Res.pure_eq]
    · intro i m' f t hm ht hw
      obtain ⟨u, v, hg⟩ := touches_geom hm ht
      exact h3 _ _ _ _ _ hg hw

/-! ## Scenes that mix meshes and distance functions -/

/-- Specification: the number of distance functions in a list of shapes. -/
def sdfs (l : List (Shp K)) : ℕ := (l.filter fun s => match s with
  | .sdf => true
  | .mesh _ => false).length

/-- Specification: shape `i` is the one that geometry `g` of Embree's scene was made from: a mesh with exactly `g` meshes
before it. -/
def MadeFrom (shapes : List (Shp K)) (g i : ℕ) (m : Mesh K) : Prop :=
  shapes[i]? = some (.mesh m) ∧ (shapes.take i).length = g + sdfs (shapes.take i)

private theorem madeFrom_cons_sdf (l : List (Shp K)) (g i : ℕ) (m : Mesh K) :
    MadeFrom (.sdf :: l) g (i + 1) m ↔ MadeFrom l g i m := by
  unfold MadeFrom sdfs
  simp only [List.getElem?_cons_succ, List.take_succ_cons, List.filter_cons, List.length_cons, if_true]
  constructor <;> rintro ⟨h1, h2⟩ <;> exact ⟨h1, by omega⟩

private theorem madeFrom_cons_mesh (l : List (Shp K)) (g i : ℕ) (m m' : Mesh K) :
    MadeFrom (.mesh m' :: l) (g + 1) (i + 1) m ↔ MadeFrom l g i m := by
  unfold MadeFrom sdfs
  simp only [List.getElem?_cons_succ, List.take_succ_cons, List.filter_cons, List.length_cons, Bool.false_eq_true,
    if_false]
  constructor <;> rintro ⟨h1, h2⟩ <;> exact ⟨h1, by omega⟩

private theorem geom_made : ∀ (shapes : List (Shp K)) (g : ℕ) (geo : Geom K),
    (shapes.filterMap (fun s => match s with
      | .mesh m => some (toGeom m)
      | .sdf => none))[g]? = some geo → ∃ i m, MadeFrom shapes g i m ∧ geo = toGeom m
  | [], g, geo, h => by simp at h
  | .sdf :: l, g, geo, h => by
    obtain ⟨i, m, h1, h2⟩ := geom_made l g geo (by simpa using h)
    exact ⟨i + 1, m, (madeFrom_cons_sdf l g i m).mpr h1, h2⟩
  | .mesh m' :: l, 0, geo, h => by
    refine ⟨0, m', ⟨rfl, rfl⟩, ?_⟩
    simpa using h.symm
  | .mesh m' :: l, g + 1, geo, h => by
    obtain ⟨i, m, h1, h2⟩ := geom_made l g geo (by simpa using h)
    exact ⟨i + 1, m, (madeFrom_cons_mesh l g i m m').mpr h1, h2⟩

/-- **Who gets the blame.** In any scene that is not in distance function mode: if Embree finds a point of shape `i`, the
hit is reported for the shape that many places further up the list as there are distance functions before `i`. So it
is reported for the right shape exactly if no distance function comes before it. -/
theorem attribution (shapes : List (Shp K)) (rtc : Ray K → Option (RtcHit K))
    (r : Ray K) (H : EmbreeSpec (buildAccel shapes).geoms rtc r) (its : Its K)
    (hi : (buildAccel shapes).intersect rtc r = .ok (some its)) :
    ∃ i m, shapes[i]? = some (.mesh m) ∧ Touches m its.face (r.point its.t) ∧ i = its.shape + sdfs (shapes.take i) ∧
      (its.shape = i ↔ sdfs (shapes.take i) = 0) := by
  have hr := H
  unfold EmbreeSpec at hr
  unfold Accel.intersect at hi
  cases e : rtc r with
  | none => rw [e] at hi; simp at hi
  | some h =>
    rw [e] at hi hr
    simp only at hi
    obtain ⟨s, hs, hi⟩ := Res.bind_eq_ok.mp hi
    obtain ⟨p, hp, hi⟩ := Res.bind_eq_ok.mp hi
    simp only [Res.pure_eq, Res.ok.injEq, Option.some.injEq] at hi
    subst hi
    obtain ⟨⟨geo, a, b, c, p0, p1, p2, k1, k2, k3, k4, k5, k6⟩, -, -⟩ := hr
    rw [build_geoms] at k1
    obtain ⟨i, m, ⟨hm1, hm2⟩, rfl⟩ := geom_made shapes _ geo k1
    simp only [toGeom, List.getElem?_map, Option.map_eq_some_iff, Prod.mk.injEq] at k2
    obtain ⟨face, hf, rfl, rfl, rfl⟩ := k2
    have hlen : (shapes.take i).length = i := by
      rw [List.length_take]
      exact Nat.min_eq_left (List.getElem?_eq_some_iff.mp hm1).1.le
    rw [hlen] at hm2
    exact ⟨i, m, hm1, ⟨face, p0, p1, p2, h.u, h.v, hf, k3, k4, k5, k6⟩, hm2, by show h.geom = i ↔ _; omega⟩

/-- A unit right triangle in the plane `z = 0`. -/
def demoMesh : Mesh ℚ :=
  ⟨[⟨0, 0, 0⟩, ⟨1, 0, 0⟩, ⟨0, 1, 0⟩], [], [], [⟨fun i => i, fun _ => 0, fun _ => 0⟩]⟩

/-- A ray straight down onto it. -/
def demoRay : Ray ℚ := ⟨⟨1 / 4, 1 / 4, 1⟩, ⟨0, 0, -1⟩, Ext.fin 0, Ext.fin 10⟩

private theorem demo_touch : Touches demoMesh 0 (demoRay.point 1) := by
  refine ⟨⟨fun i => i, fun _ => 0, fun _ => 0⟩, ⟨0, 0, 0⟩, ⟨1, 0, 0⟩, ⟨0, 1, 0⟩, 1 / 4, 1 / 4, rfl, rfl, rfl, rfl,
    by norm_num, by norm_num, by norm_num, ?_⟩
  ext <;> norm_num [demoRay, Ray.point]

private theorem demo_within : Within demoRay 1 := by
  constructor <;> simp only [demoRay, Ext.fin_le_fin] <;> norm_num

/-- **C95 refuted.** A scene with a distance function followed by a triangle. Whatever nearest hit Embree reports for a
ray onto the triangle, the renderer attributes it to the distance function, and the hit point is never written. -/
theorem mixed_scene_refuted (rtc : Ray ℚ → Option (RtcHit ℚ))
    (H : EmbreeSpec (buildAccel [.sdf, .mesh demoMesh]).geoms rtc demoRay) :
    ∃ its, (buildAccel [.sdf, .mesh demoMesh]).intersect rtc demoRay = .ok (some its) ∧ its.shape = 0 ∧ its.p = none := by
  have hg : (buildAccel [Shp.sdf, .mesh demoMesh]).geoms = [demoMesh].map toGeom := by rw [build_geoms]; rfl
  have hr := H
  unfold EmbreeSpec at hr
  rw [hg] at hr
  obtain ⟨u, v, ht⟩ := touches_geom (ms := [demoMesh]) (i := 0) rfl demo_touch
  cases e : rtc demoRay with
  | none => rw [e] at hr; exact absurd demo_within (hr _ _ _ _ _ ht)
  | some h =>
    rw [e] at hr
    obtain ⟨h1, -, -⟩ := hr
    obtain ⟨m, _, _, _, _, k1, -⟩ := geom_touches h1
    have h0 : h.geom = 0 := by
      have := (List.getElem?_eq_some_iff.mp k1).1
      simpa using this
    refine ⟨⟨h.geom, h.prim, h.t, none⟩, ?_, h0, rfl⟩
    unfold Accel.intersect
    rw [e]
    simp only [build_meshes, readAt, h0, List.getElem?_cons_zero, Res.bind_ok, complete, Res.pure_eq]

/-- In distance function mode the scene is well formed exactly if there is no mesh in it; with a mesh the behaviour is
undefined. -/
theorem sdf_mode (shapes : List (Shp K)) :
    (buildSdf shapes = .ok shapes ↔ sdfs shapes = shapes.length) ∧
      (sdfs shapes ≠ shapes.length → (buildSdf shapes).isUb = true) := by
  have key : ∀ (l acc : List (Shp K)),
      (sdfs l = l.length → l.foldlM addSdf acc = .ok (acc ++ l)) ∧
      (sdfs l ≠ l.length → (l.foldlM addSdf acc).isUb = true) := by
    intro l
    induction l with
    | nil => intro acc; exact ⟨fun _ => by simp, fun h => absurd rfl h⟩
    | cons s l ih =>
      intro acc
      cases s with
      | sdf =>
        have hs : sdfs (Shp.sdf :: l) = sdfs l + 1 := by simp [sdfs]
        obtain ⟨i1, i2⟩ := ih (acc ++ [Shp.sdf])
        rw [hs, List.length_cons, List.foldlM_cons]
        refine ⟨fun h => ?_, fun h => i2 (by omega)⟩
        show List.foldlM addSdf (acc ++ [Shp.sdf]) l = _
        rw [i1 (by omega), List.append_assoc]; rfl
      | mesh m =>
        have hs : sdfs (Shp.mesh m :: l) = sdfs l := by simp [sdfs]
        have hle : sdfs l ≤ l.length := List.length_filter_le _ _
        rw [hs, List.length_cons]
        exact ⟨fun h => by omega, fun _ => rfl⟩
  obtain ⟨k1, k2⟩ := key shapes []
  refine ⟨⟨fun h => ?_, fun h => k1 h⟩, k2⟩
  by_contra hne
  have := k2 hne
  unfold buildSdf at h
  rw [h] at this
  exact absurd this (by simp [Res.isUb])

private theorem demo_only {t u v : ℚ} {g f : ℕ} (h : GeomPoint ([demoMesh].map toGeom) g f u v (demoRay.point t)) :
    t = 1 := by
  obtain ⟨m, face, p0, p1, p2, k1, k2, k3, k4, k5, -, -, -, k6⟩ := geom_touches h
  have hg : g = 0 := by simpa using (List.getElem?_eq_some_iff.mp k1).1
  subst hg
  obtain rfl : demoMesh = m := by simpa using k1
  have hf : f = 0 := by simpa [demoMesh] using (List.getElem?_eq_some_iff.mp k2).1
  subst hf
  obtain rfl := Option.some.inj k2
  obtain rfl := Option.some.inj k3
  obtain rfl := Option.some.inj k4
  obtain rfl := Option.some.inj k5
  have := congrArg V3.z k6
  norm_num [demoRay, Ray.point] at this
  linarith

/-- Embree's answer for the ray onto the triangle. -/
private theorem demo_spec (shapes : List (Shp ℚ)) (hs : (buildAccel shapes).geoms = [demoMesh].map toGeom) :
    EmbreeSpec (buildAccel shapes).geoms (fun _ => some ⟨0, 0, 1 / 4, 1 / 4, 1⟩) demoRay := by
  rw [hs]
  refine ⟨⟨toGeom demoMesh, 0, 1, 2, ⟨0, 0, 0⟩, ⟨1, 0, 0⟩, ⟨0, 1, 0⟩, rfl, rfl, rfl, rfl, rfl, by norm_num, by norm_num,
    by norm_num, ?_⟩, demo_within, fun g f u v t h _ => (demo_only h).ge⟩
  ext <;> norm_num [demoRay, Ray.point]

/-- Non-vacuity: the triangle alone, and the mixed scene. -/
example : EmbreeSpec (buildAccel ([demoMesh].map Shp.mesh)).geoms (fun _ => some ⟨0, 0, 1 / 4, 1 / 4, 1⟩) demoRay ∧
    EmbreeSpec (buildAccel [.sdf, .mesh demoMesh]).geoms (fun _ => some ⟨0, 0, 1 / 4, 1 / 4, 1⟩) demoRay :=
  ⟨demo_spec _ (build_all _), demo_spec _ (by rw [build_geoms]; rfl)⟩

end Feign.Scene
