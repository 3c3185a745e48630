import Verif.Basic
import Verif.Math.BBox
import Verif.Math.VecReal

/-!
# Signed distance shapes and sphere tracing (model)

`src/shapes/sdf_sphere.cpp`, `sdf_plane.cpp`, `sdf_box.cpp`, `sdf_cylinder.cpp`, `sdf_cone.cpp` and
`src/accel/ray_sdf.cpp`. Exact real arithmetic. A distance is an `Option ℝ`: `none` is "not a number",
the result of `0 / 0` for a cylinder or cone whose end points coincide. Unqualified `abs` is read as the
floating point function (which overload is chosen depends on the platform headers).
-/

namespace Feign.Sdf

open Classical

/-- `Epsilon`, `include/feign/common.h:87`. -/
noncomputable def eps : ℝ := 1 / 1000

/-- `clamp`, `include/feign/common.h:226-233`. -/
noncomputable def clamp (v lo hi : ℝ) : ℝ := if v < lo then lo else if v > hi then hi else v

/-- `sign`, `include/feign/common.h:235-240`. -/
noncomputable def sign (v : ℝ) : ℝ := if v < 0 then -1 else 1

/-- `SDFSphere::evaluate`, `src/shapes/sdf_sphere.cpp:25-28`. -/
noncomputable def sphereEval (center : V3 ℝ) (radius : ℝ) (pt : V3 ℝ) : ℝ :=
  (pt - center).norm - radius

/-- `SDFPlane::evaluate`, `src/shapes/sdf_plane.cpp:25-29`. -/
noncomputable def planeEval (center normal : V3 ℝ) (pt : V3 ℝ) : ℝ := |(pt - center).dot normal|

/-- `q.max(0.f).norm() + fmin(fmax(q(0), fmax(q(1), q(2))), 0.f)`, `src/shapes/sdf_box.cpp:29`. -/
noncomputable def boxFormula (q : V3 ℝ) : ℝ :=
  (q.maxS 0).norm + min (max q.x (max q.y q.z)) 0

/-- `SDFBox::evaluate`, `src/shapes/sdf_box.cpp:22-30`; `abs()` is `include/feign/math/vector.h:711-716`. -/
noncomputable def boxEval (tlc brc : V3 ℝ) (pt : V3 ℝ) : ℝ :=
  let half : V3 ℝ := ⟨(tlc.x - brc.x) / 2, (tlc.y - brc.y) / 2, (tlc.z - brc.z) / 2⟩
  let center : V3 ℝ := ⟨(tlc.x + brc.x) / 2, (tlc.y + brc.y) / 2, (tlc.z + brc.z) / 2⟩
  let a : V3 ℝ := ⟨|pt.x - center.x|, |pt.y - center.y|, |pt.z - center.z|⟩
  boxFormula (a - half)

/-- `SDFCylinder::evaluate`, `src/shapes/sdf_cylinder.cpp:24-39`. -/
noncomputable def cylinderEval (first second : V3 ℝ) (radius : ℝ) (pt : V3 ℝ) : Option ℝ :=
  let ba := second - first
  let pa := pt - first
  let baba := ba.dot ba
  let paba := pa.dot ba
  let x := (pa.smul baba - ba.smul paba).norm - radius * baba
  let y := |paba - baba * (1 / 2)| - baba * (1 / 2)
  let x2 := x * x
  let y2 := y * y * baba
  let d := if max x y < 0 then -min x2 y2 else (if x > 0 then x2 else 0) + (if y > 0 then y2 else 0)
  if baba = 0 then none else some (sign d * Real.sqrt |d| / baba)

/-- `SDFCone::evaluate`, `src/shapes/sdf_cone.cpp:26-46`. The argument of the first square root is never
negative (`cone_radicand_nonneg`). -/
noncomputable def coneEval (first second : V3 ℝ) (radius1 radius2 : ℝ) (pt : V3 ℝ) : Option ℝ :=
  let rba := radius2 - radius1
  let ba := second - first
  let pa := pt - first
  let baba := ba.dot ba
  let papa := pa.dot pa
  let paba := pa.dot ba / baba
  let x := Real.sqrt (papa - paba * paba * baba)
  let cax := max 0 (x - (if paba < 1 / 2 then radius1 else radius2))
  let cay := |paba - 1 / 2| - 1 / 2
  let k := rba * rba + baba
  let f := clamp ((rba * (x - radius1) + paba * baba) / k) 0 1
  let cbx := x - radius1 - f * rba
  let cby := paba - f
  let s : ℝ := if cbx < 0 ∧ cay < 0 then -1 else 1
  if baba = 0 then none
  else some (s * Real.sqrt (min (cax * cax + cay * cay * baba) (cbx * cbx + cby * cby * baba)))

/-- The five primitives, with the arguments of their constructors. -/
inductive Shape where
  | sphere (center : V3 ℝ) (radius : ℝ)
  | plane (center normal : V3 ℝ)
  | box (tlc brc : V3 ℝ)
  | cylinder (first second : V3 ℝ) (radius : ℝ)
  | cone (first second : V3 ℝ) (radius1 radius2 : ℝ)

/-- The virtual call `SDFShape::evaluate`, `include/feign/core/sdf.h:34`. -/
noncomputable def Shape.eval : Shape → V3 ℝ → Option ℝ
  | .sphere c r, p => some (sphereEval c r p)
  | .plane c n, p => some (planeEval c n p)
  | .box t b, p => some (boxEval t b p)
  | .cylinder a b r, p => cylinderEval a b r p
  | .cone a b r s, p => coneEval a b r s p

/-- `boundingBox()` of the five primitives: `sdf_sphere.cpp:30-38`, `sdf_plane.cpp:31-44`,
`sdf_box.cpp:32-36`, `sdf_cylinder.cpp:41-46`, `sdf_cone.cpp:48-55`; the constructors of the box are
`include/feign/math/bbox.h:31-43`. `none` is the failed assertion on a negative extent (`bbox.h:33`). -/
noncomputable def Shape.boundingBox : Shape → Option (B3 ℝ)
  | .sphere c r =>
    if 2 * r ≥ 0 then
      let m : V3 ℝ := ⟨c.x - r, c.y - r, c.z - r⟩
      some ⟨m, m + ⟨2 * r, 2 * r, 2 * r⟩⟩
    else none
  | .plane c _ =>
    let m : V3 ℝ := c - ⟨5000, 5000, 5000⟩
    some ⟨m, m + ⟨10000, 10000, 10000⟩⟩
  | .box t b => some ⟨t, b⟩
  | .cylinder a b r => some ⟨a + ⟨r, r, r⟩, b - ⟨r, r, r⟩⟩
  | .cone a b r s => some ⟨a + ⟨max r s, max r s, max r s⟩, b - ⟨max r s, max r s, max r s⟩⟩

/-- One round of the loop of `sd_evaluate`, `src/accel/ray_sdf.cpp:87-107`, for the value `d` of shape
`i`. A comparison with "not a number" is false. -/
noncomputable def better (d : Option ℝ) (i : ℕ) (best : Option (ℝ × ℕ)) : Option (ℝ × ℕ) :=
  match d, best with
  | none, best => best
  | some d, none => some (d, i)
  | some d, some (m, j) => if m > d then some (d, i) else some (m, j)

/-- `SDFAccel::sd_evaluate`, `src/accel/ray_sdf.cpp:81-111`, over the list of the shapes' distance
functions, from index `i` on, with the best result so far; `none` is `+∞` with the index not written. -/
noncomputable def sdEvaluateFrom (pt : V3 ℝ) :
    List (V3 ℝ → Option ℝ) → ℕ → Option (ℝ × ℕ) → Option (ℝ × ℕ)
  | [], _, best => best
  | f :: fs, i, best => sdEvaluateFrom pt fs (i + 1) (better (f pt) i best)

/-- The call from outside. -/
noncomputable def sdEvaluate (fs : List (V3 ℝ → Option ℝ)) (pt : V3 ℝ) : Option (ℝ × ℕ) :=
  sdEvaluateFrom pt fs 0 none

/-- The difference `sd_evaluate(pt + e) - sd_evaluate(pt - e)`, `ray_sdf.cpp:45-59`; `∞ - ∞` is not a
number and `∞ - x`, `x - ∞` are infinite, all of which end in an assertion later: `none`. -/
noncomputable def sdDiff (fs : List (V3 ℝ → Option ℝ)) (pt e : V3 ℝ) : Option ℝ :=
  match sdEvaluate fs (pt + e), sdEvaluate fs (pt - e) with
  | some a, some b => some (a.1 - b.1)
  | _, _ => none

/-- `SDFAccel::sd_normal`, `src/accel/ray_sdf.cpp:42-79`. -/
noncomputable def sdNormal (fs : List (V3 ℝ → Option ℝ)) (pt : V3 ℝ) : Option (V3 ℝ) :=
  match sdDiff fs pt ⟨eps, 0, 0⟩, sdDiff fs pt ⟨0, eps, 0⟩, sdDiff fs pt ⟨0, 0, eps⟩ with
  | some dx, some dy, some dz =>
    (if dx = dy ∧ dx = dz ∧ dx = 0 then (⟨0, 1, 0⟩ : V3 ℝ) else ⟨dx, dy, dz⟩).normalized
  | _, _, _ => none

/-- What is reported for a hit: `its.t`, the index of `its.intersected_mesh`, the normal of
`its.g_frame`, `its.p`. -/
structure Hit where
  t : ℝ
  shape : ℕ
  normal : V3 ℝ
  p : V3 ℝ

/-- Ways the marching loop can end. -/
inductive March where
  /-- `return true` -/
  | hit (h : Hit)
  /-- `dist <= far` failed: `return false` -/
  | passed (dist : ℝ)
  /-- the distance to every shape is infinite or not a number, so the loop runs out at infinity -/
  | nothing
  /-- all steps used: `return false` -/
  | exhausted (dist : ℝ)

/-- The loop, `src/accel/ray_sdf.cpp:138-180`, with `n` steps left. A failed assertion on the normal
(`:148-162`) is `throw`. When no shape has a finite distance at a point, none has one anywhere
(a degenerate shape is degenerate at every point), so the remaining rounds change nothing. -/
noncomputable def march (fs : List (V3 ℝ → Option ℝ)) (r : Ray ℝ) (far : Ext ℝ) :
    ℕ → ℝ → Res March
  | 0, dist => .ok (.exhausted dist)
  | n + 1, dist =>
    if Ext.fin dist ≤ far then
      let p := r.point dist
      match sdEvaluate fs p with
      | none => .ok .nothing
      | some (sd, idx) =>
        if sd ≤ eps then
          match sdNormal fs p with
          | none => .throw "assert(false): normal is not a number"
          | some norm =>
            if norm.norm < eps then .throw "assert(false): normal too short"
            else .ok (.hit ⟨dist, idx, norm, p + norm.smul eps⟩)
        else march fs r far n (dist + sd)
    else .ok (.passed dist)

/-- `SDFAccel::build`, `src/accel/ray_sdf.cpp:31-39`: growing the empty box. `none` is the empty box
(minimum `+∞`, maximum `-∞`). -/
noncomputable def sceneBox : List (B3 ℝ) → Option (B3 ℝ)
  | [] => none
  | b :: bs => some (bs.foldl B3.expandBox b)

/-- `near` and `far` after `scene_box.intersect(scene_ray, near, far)` including when a round fails
(`bbox.h:171-204`): the boolean says whether the loop went on. -/
noncomputable def slabNF (o d mn mx : ℝ) (s : Bool × Ext ℝ × Ext ℝ) : Bool × Ext ℝ × Ext ℝ :=
  if s.1 = false then s
  else if d = 0 then
    if o < mn ∨ o > mx then (false, s.2) else s
  else
    let t1 := (mn - o) * (1 / d)
    let t2 := (mx - o) * (1 / d)
    let lo := if t1 > t2 then t2 else t1
    let hi := if t1 > t2 then t1 else t2
    let near := max (Ext.fin lo) s.2.1
    let far := min (Ext.fin hi) s.2.2
    (decide (near ≤ far), near, far)

noncomputable def boxNearFar (b : B3 ℝ) (r : Ray ℝ) : Ext ℝ × Ext ℝ :=
  (slabNF r.origin.z r.dir.z b.min.z b.max.z
    (slabNF r.origin.y r.dir.y b.min.y b.max.y
      (slabNF r.origin.x r.dir.x b.min.x b.max.x (true, ⊥, ⊤)))).2

/-- `if (near < Epsilon) near = Epsilon;`, `src/accel/ray_sdf.cpp:129-130`. A box with finite corners
never gives `near = ⊤`; the value there is not used. -/
noncomputable def startAt (near : Ext ℝ) : ℝ :=
  match near with
  | ((t : ℝ) : WithTop ℝ) => if t < eps then eps else t
  | _ => eps

/-- `SDFAccel::intersect`, `src/accel/ray_sdf.cpp:121-181`. For the empty box the slab loop leaves
`-∞` and `+∞`, and every distance is infinite. -/
noncomputable def intersect (fs : List (V3 ℝ → Option ℝ)) (box : Option (B3 ℝ)) (r : Ray ℝ) :
    Res March :=
  match box with
  | none => march fs r ⊤ 2000 eps
  | some b => march fs r (boxNearFar b r).2 2000 (startAt (boxNearFar b r).1)

end Feign.Sdf
