import Verif.Shapes.Mesh
import Verif.Math.Matrix

/-!
# Grid meshes (model)

`GridObj::preProcess`, `src/shapes/grid_obj.cpp:21-159`, up to the geometry shader. The resolution is a pair
of natural numbers (a negative C++ `int` gives empty loops or a negative vector size, not modelled). The terrain
texture is an arbitrary function of the texture coordinates.
-/

namespace Feign.Shapes

section field
variable {K : Type} [Field K]

/-- The vertex of row `i`, column `j`, `grid_obj.cpp:42-44`; `rx`, `ry` are `resolution[0]`, `resolution[1]`. -/
def gridVertex (rx ry i j : ℕ) : V3 K :=
  ⟨(1 - -1) * (j : K) / ((rx : K) - 1) + -1, 0, (1 - -1) * (i : K) / ((ry : K) - 1) + -1⟩

/-- Its texture coordinates, `grid_obj.cpp:47-48`. -/
def gridUv (rx ry i j : ℕ) : V2 K := ⟨(j : K) / ((rx : K) - 1), (i : K) / ((ry : K) - 1)⟩

/-- The vertex loops, `grid_obj.cpp:38-52`: rows outside, columns inside. -/
def gridLoop {α : Type} (rx ry : ℕ) (f : ℕ → ℕ → α) : List α :=
  (List.range ry).flatMap fun i => (List.range rx).map fun j => f i j

/-- `Triangle(inds, inds, inds)`. -/
def sameFace (a b c : ℕ) : Face := ⟨![a, b, c], ![a, b, c], ![a, b, c]⟩

/-- The body of the triangle loops, `grid_obj.cpp:64-73`. -/
def gridCell (rx i j : ℕ) : List Face :=
  let one := (i - 1) * rx + j
  let two := i * rx + j
  let three := i * rx + (j - 1)
  let four := (i - 1) * rx + (j - 1)
  [sameFace one four two, sameFace four three two]

/-- The triangle loops, `grid_obj.cpp:55-75`: `i` from `1` to `ry - 1`, `j` from `1` to `rx - 1`. -/
def gridTris (rx ry : ℕ) : List Face :=
  (List.range (ry - 1)).flatMap fun i => (List.range (rx - 1)).flatMap fun j => gridCell rx (i + 1) (j + 1)

/-- The flat mesh, `grid_obj.cpp:26-75`. `none`: with one row or one column the coordinates are `0 / 0`. -/
def gridMesh (rx ry : ℕ) : Option (Mesh K) :=
  if rx = 1 ∨ ry = 1 then none
  else some ⟨gridLoop rx ry (gridVertex rx ry), gridLoop rx ry fun _ _ => ⟨0, 1, 0⟩,
    gridLoop rx ry (gridUv rx ry), gridTris rx ry⟩

/-- Displacement by the terrain map, `grid_obj.cpp:83-88`; `tex` is the first channel of the texture. -/
def displace (tex : K → K → K) (vs : List (V3 K)) : List (V3 K) :=
  vs.map fun v => ⟨v.x, v.y + tex (1 / 2 * (v.x + 1)) (1 / 2 * (v.z + 1)), v.z⟩

end field

/-- `(p1 - p0) ^ (p2 - p0)`, replaced by the vertical direction if it is zero, normalised,
`grid_obj.cpp:107-114`. `none` cannot occur. -/
noncomputable def faceNormal (p0 p1 p2 : V3 ℝ) : Option (V3 ℝ) :=
  let n := (p1 - p0).cross (p2 - p0)
  (if n.sqrNorm = 0 then (⟨0, 1, 0⟩ : V3 ℝ) else n).normalized

/-- `new_norms[i] += n`. -/
def addNormal (l : List (V3 ℝ)) (i : ℕ) (n : V3 ℝ) : Res (List (V3 ℝ)) :=
  if i < l.length then .ok (l.modify i (· + n)) else .ub "index out of range"

/-- The normal loop, `grid_obj.cpp:93-119`, over the remaining faces. -/
noncomputable def faceNormals (m : Mesh ℝ) : List Face → List (V3 ℝ) → Res (List (V3 ℝ))
  | [], acc => .ok acc
  | f :: fs, acc => do
    let (p0, p1, p2) ← m.corners f
    match faceNormal p0 p1 p2 with
    | none => .ub "not a number"
    | some n => do
      let acc ← addNormal acc (f.n 0) n
      let acc ← addNormal acc (f.n 1) n
      let acc ← addNormal acc (f.n 2) n
      faceNormals m fs acc

/-- `if (terrain_map)`, `grid_obj.cpp:79-122`: displaced vertices and accumulated normals (not yet
normalised). -/
noncomputable def terrainMesh (tex : ℝ → ℝ → ℝ) (m : Mesh ℝ) : Res (Mesh ℝ) := do
  let m' : Mesh ℝ := { m with vs := displace tex m.vs }
  let ns ← faceNormals m' m'.tris (List.replicate m'.ns.length ⟨0, 0, 0⟩)
  pure { m' with ns := ns }

/-- The final loop, `grid_obj.cpp:125-129`, for one normal: `(transform * ns[i]).normalized()`. -/
noncomputable def finalNormal (t : Xf ℝ) (n : V3 ℝ) : Option (V3 ℝ) := (t.normal n).normalized

end Feign.Shapes
