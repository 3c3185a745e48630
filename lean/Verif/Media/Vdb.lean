import Verif.Media.Model
import Mathlib.Algebra.Order.Floor.Defs
import Mathlib.Algebra.Order.Archimedean.Real.Basic

/-!
# Densities read from a volume file (model)

`src/media/density_funcs/vdb_density.cpp`, `include/feign/media/density_func.h:77-104`, for the build's setting
`OPENVDB true` (`include/feign/common.h:39`). The OpenVDB library itself is modelled as its documentation describes it:
a file is a list of grids with their names, a grid of floats is a value for every integer voxel (the background value
where nothing is stored) and a map from world coordinates to index coordinates, and `BoxSampler` interpolates between
the eight voxels around a point. Over the reals with exact arithmetic.
-/

namespace Feign.Media

/-- `openvdb::FloatGrid`: a value at every voxel and the map from world to index coordinates. -/
structure FloatGrid where
  voxel : Int → Int → Int → ℝ
  toIndex : V3 ℝ → V3 ℝ

/-- A grid of a file, `openvdb::GridBase`: of floats, or of some other type. -/
inductive VdbGrid where
  | floats (g : FloatGrid)
  | other

/-- `file.readGrid(name)`: the grid of that name. -/
def readGrid (name : String) : List (String × VdbGrid) → Option VdbGrid
  | [] => none
  | (n, g) :: rest => if n = name then some g else readGrid name rest

/-- The loop over the names, `vdb_density.cpp:26-37`; `base` is `baseGrid`, null (`none`) at first (`:24`). `all` is
the whole file, the list after it the part still to be visited. -/
def findDensity (all : List (String × VdbGrid)) :
    List (String × VdbGrid) → Option VdbGrid → Option VdbGrid
  | [], base => base
  | (n, _) :: rest, base => findDensity all rest (if n = "density" then readGrid n all else base)

/-- `gridPtrCast<FloatGrid>`, `vdb_density.cpp:39`: a null pointer stays null, and a grid of another type becomes
null. -/
def castGrid : Option VdbGrid → Option FloatGrid
  | some (.floats g) => some g
  | _ => none

/-- The members of `OpenVDBDensity`, `density_func.h:98-103`: `grid` may be null (`none`); `maxDensity` is `none` as
long as nothing was written to it. The member `bbox` is never used. -/
structure Vdb where
  grid : Option FloatGrid
  maxDensity : Option ℝ

/-- `OpenVDBDensity::OpenVDBDensity`, `vdb_density.cpp:17-43`. A file that cannot be opened (`none`) makes
`file.open()` (`:22`) throw. -/
def Vdb.new : Option (List (String × VdbGrid)) → Res Vdb
  | none => .throw "IoError"
  | some gs => .ok ⟨castGrid (findDensity gs gs none), none⟩

/-- `OpenVDBDensity::preProcess`, `vdb_density.cpp:50-80`. It reads the bounds of the grid (`:53`) and makes a sampler
(`:58`); the computation of the maximum is commented out (`:60-78`). -/
def Vdb.preProcess (d : Vdb) : Res Vdb :=
  match d.grid with
  | none => .ub "null grid"
  | some _ => .ok d

/-- One step of the interpolation, `a + (b - a) * t`. -/
def mixTo (a b t : ℝ) : ℝ := a + (b - a) * t

/-- `openvdb::tools::BoxSampler`: the eight voxels around the index coordinates are mixed along `z`, then `y`, then
`x`. -/
noncomputable def boxSample (v : Int → Int → Int → ℝ) (x y z : ℝ) : ℝ :=
  let i := ⌊x⌋
  let j := ⌊y⌋
  let k := ⌊z⌋
  let line (i j : Int) : ℝ := mixTo (v i j k) (v i j (k + 1)) (z - k)
  let face (i : Int) : ℝ := mixTo (line i j) (line i (j + 1)) (y - j)
  mixTo (face i) (face (i + 1)) (x - i)

/-- `OpenVDBDensity::D`, `vdb_density.cpp:82-89`: the sampler is made from `*grid` (`:85`) and asked at the world
coordinates (`:88`). -/
noncomputable def Vdb.D (d : Vdb) (p : V3 ℝ) : Res (V3 ℝ) :=
  match d.grid with
  | none => .ub "null grid"
  | some g =>
    let q := g.toIndex p
    .ok (grey (boxSample g.voxel q.x q.y q.z))

/-- `OpenVDBDensity::maxDensity`, `vdb_density.cpp:97-100`: the value of a member that was never written is read. -/
def Vdb.max (d : Vdb) : Res ℝ :=
  match d.maxDensity with
  | none => .ub "uninitialised"
  | some m => .ok m

/-- `OpenVDBDensity::~OpenVDBDensity`, `vdb_density.cpp:45-48`. -/
def Vdb.destroy (d : Vdb) : Res Unit :=
  match d.grid with
  | none => .ub "null grid"
  | some _ => .ok ()

/-- What a scene does with the file: `fr_medium_density` constructs the density (`api.cpp:1077-1081`),
`Media::preProcess` prepares it (`standard.cpp:41`), and then densities are asked for. -/
noncomputable def Vdb.density (file : Option (List (String × VdbGrid))) (p : V3 ℝ) : Res (V3 ℝ) :=
  Vdb.new file >>= fun d => d.preProcess >>= fun d => d.D p

/-- The maximum reported after the same preparation. -/
def Vdb.reported (file : Option (List (String × VdbGrid))) : Res ℝ :=
  Vdb.new file >>= fun d => d.preProcess >>= fun d => d.max

end Feign.Media
