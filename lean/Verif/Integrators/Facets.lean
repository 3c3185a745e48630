import Verif.Integrators.Lit
import Verif.Scene.Hits

/-!
# Scenes of triangles, some of which are lamps (model)

The scene of `Integrators/Room` for a list of objects, each a mesh of one triangle without vertex normals, which may carry
a mesh emitter. One triangle each, because a mesh emitter samples only the first triangle of its mesh
(`Lights.mesh_first_triangle`). Ray queries answer exactly: Embree (`src/accel/ray_embree.cpp:56-101`) is taken to
report the nearest triangle whose plane the ray crosses, the first of them if there are several. No object is null and
there are no media.
-/

namespace Feign.Integrators

open Sampling Bsdf Lights Shapes

/-- An object: the corners of its triangle, its material, and the intensity of its emitter if it has one. The object's
place in the list is its instance number. -/
structure Facet where
  p0 : V3 ℝ
  p1 : V3 ℝ
  p2 : V3 ℝ
  material : Material
  albedo : V3 ℝ
  intIor : ℝ
  extIor : ℝ
  glow : Option (V3 ℝ)

namespace Facet

/-- The mesh: three vertices, one face, no normals, no texture coordinates. -/
def mesh (T : Facet) : Mesh ℝ := ⟨[T.p0, T.p1, T.p2], [], [], [⟨![0, 1, 2], fun _ => 0, fun _ => 0⟩]⟩

/-- The cross product of the edges: its direction is the normal, its length twice the area. -/
def cross (T : Facet) : V3 ℝ := (T.p1 - T.p0).cross (T.p2 - T.p0)

/-- `its.s_frame` without vertex normals, `src/shapes/objmesh.cpp:444-461`. For a triangle with an area it is always
defined; the other value is not used. -/
noncomputable def frame (T : Facet) : Frame :=
  ((geomNormal T.p0 T.p1 T.p2).bind Frame.ofNormal).getD ⟨⟨1, 0, 0⟩, ⟨0, 1, 0⟩, ⟨0, 0, 1⟩⟩

/-- Where the ray crosses the plane of the triangle. -/
noncomputable def dist (T : Facet) (r : Ray) : ℝ := (T.p0 - r.1).dot T.cross / r.2.dot T.cross

/-- The two coordinates of that point. -/
noncomputable def coords (T : Facet) (r : Ray) : ℝ × ℝ :=
  let q := r.1 + r.2.smul (T.dist r) - T.p0
  ((q.cross (T.p2 - T.p0)).dot T.cross / T.cross.dot T.cross, ((T.p1 - T.p0).cross q).dot T.cross / T.cross.dot T.cross)

/-- The ray crosses the triangle, not nearer than `Epsilon` (`src/integrators/path_unidir.cpp:126-130`,
`src/scene.cpp:506-509`). -/
def Meets (T : Facet) (r : Ray) : Prop :=
  r.2.dot T.cross ≠ 0 ∧ 0 ≤ (T.coords r).1 ∧ 0 ≤ (T.coords r).2 ∧ (T.coords r).1 + (T.coords r).2 ≤ 1 ∧ 1 / 1000 ≤ T.dist r

/-- What `MeshEmitter::evaluate` (`src/emitters/mesh.cpp:96-102`, `Light.evaluate`) answers for a ray that hits the
object, `src/scene.cpp:674-690`; black without an emitter. -/
noncomputable def emitted (T : Facet) (d : V3 ℝ) : V3 ℝ :=
  match T.glow with
  | some I => if -(T.frame.toLocal d).z < Lights.eps then 0 else I
  | none => 0

/-- The emitter after `preProcess` (`Light.newMesh`); the other value is not used. -/
noncomputable def light (T : Facet) (k : ℕ) : Option Light :=
  T.glow.map fun I =>
    match Light.newMesh I k T.mesh with
    | .ok l => l
    | _ => .point 0 0

end Facet

/-- Object `k` is met and none is nearer. -/
def Wins (fs : List Facet) (r : Ray) (k : ℕ) : Prop :=
  ∃ T, fs[k]? = some T ∧ T.Meets r ∧ ∀ T' ∈ fs, T'.Meets r → T.dist r ≤ T'.dist r

open Classical in
/-- The object that a ray hits. -/
noncomputable def winner (fs : List Facet) (r : Ray) : Option ℕ := (List.range fs.length).find? fun k => decide (Wins fs r k)

/-- A value read off the object that a ray hits. -/
noncomputable def atHit {α : Type} (fs : List Facet) (F : Facet → Ray → α) (other : α) (r : Ray) : α :=
  match winner fs r with
  | some k => match fs[k]? with
    | some T => F T r
    | none => other
  | none => other

open Classical in
/-- Whether something lies on a shadow ray: `Scene::intersect_transmittance` without null objects,
`src/scene.cpp:230-314`. -/
noncomputable def shadowed (fs : List Facet) : Blocked :=
  fun p d far => decide (∃ T ∈ fs, T.Meets (p, d) ∧ T.dist (p, d) ≤ far)

/-- `Scene::emitters`: the emitters of the objects in order. -/
noncomputable def lamps (fs : List Facet) : List Light := (fs.zipIdx.filterMap fun q => q.1.light q.2)

/-- The point that a ray hits. -/
noncomputable def hitPos (fs : List Facet) (r : Ray) : V3 ℝ := atHit fs (fun T r => r.1 + r.2.smul (T.dist r)) r.1 r

/-- The shading frame there. -/
noncomputable def hitFrame (fs : List Facet) (r : Ray) : Frame :=
  atHit fs (fun T _ => T.frame) ⟨⟨1, 0, 0⟩, ⟨0, 1, 0⟩, ⟨0, 0, 1⟩⟩ r

/-- `eval_one_emitter` at the hit of a ray, `src/scene.cpp:445-535`. Without emitters nothing is drawn; if the emitter
chosen belongs to the object that was hit (`:646-656`) only the number for the choice has been drawn; in both cases the
one entry stays invalid. An outcome that is not defined (only for choice numbers outside `[0, 1)`) gives no entry. -/
noncomputable def lampSamples (fs : List Facet) (r : Ray) (ω : Stream) : List (ShadowRay ℝ) × Stream :=
  match winner fs r with
  | none => ([], ω)
  | some k =>
    if (lamps fs).length = 0 then ([⟨false, 0, 0⟩], ω)
    else
      match chooseEmitter ((lamps fs).map fun l => ⟨l.meshNode⟩) k (next ω).1 with
      | .ok (none, _) => ([⟨false, 0, 0⟩], (next ω).2)
      | _ =>
        match evalOne (queries (shadowed fs) (hitPos fs r)) ⟨hitPos fs r, (hitFrame fs r).n, hitFrame fs r, k⟩ false
            (lamps fs) (next ω).1 ⟨(next2 (next ω).2).1.1, (next2 (next ω).2).1.2⟩ with
        | .ok es => (es.map (shadowRay (atHit fs (fun T _ => T.albedo) 0 r) ((hitFrame fs r).toLocal (-r.2))),
            (next2 (next ω).2).2)
        | _ => ([], (next2 (next ω).2).2)

/-- The scene. `env` is `Scene::env_emission` (`src/scene.cpp:692-707`), which depends on the direction only. The values
where nothing is hit are not used. -/
noncomputable def facetRoom (fs : List Facet) (env : V3 ℝ → V3 ℝ) : Room where
  eps := 1 / 1000
  seen r := (winner fs r).isSome
  env r := env r.2
  point := hitPos fs
  frame := hitFrame fs
  material := atHit fs (fun T _ => T.material) .diffuse
  albedo := atHit fs (fun T _ => T.albedo) 0
  intIor := atHit fs (fun T _ => T.intIor) 1
  extIor := atHit fs (fun T _ => T.extIor) 1
  emitted := atHit fs (fun T r => T.emitted r.2) 0
  lights := lampSamples fs

end Feign.Integrators
