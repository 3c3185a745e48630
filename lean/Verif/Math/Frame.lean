import Verif.Math.VecReal

/-!
# Local shading frames (model)

`src/math/coord_frame.cpp`. Over the reals; a division by zero gives `none`.
-/

namespace Feign

/-- `struct CoordinateFrame`, `include/feign/math/coord_frame.h:16-20`. -/
@[ext] structure Frame where
  s : V3 ℝ
  t : V3 ℝ
  n : V3 ℝ

namespace Frame

open Classical in
/-- `coordinateSystem(a, b, c)`, `coord_frame.cpp:104-117`: returns `(b, c)`. -/
noncomputable def coordinateSystem (a : V3 ℝ) : Option (V3 ℝ × V3 ℝ) :=
  if |a.x| > |a.y| then
    let l := Real.sqrt (a.x * a.x + a.z * a.z)
    if l = 0 then none else
      let c : V3 ℝ := ⟨a.z * (1 / l), 0, -a.x * (1 / l)⟩
      some (c.cross a, c)
  else
    let l := Real.sqrt (a.y * a.y + a.z * a.z)
    if l = 0 then none else
      let c : V3 ℝ := ⟨0, a.z * (1 / l), -a.y * (1 / l)⟩
      some (c.cross a, c)

/-- `CoordinateFrame(n)`, `coord_frame.cpp:30-34`: `coordinateSystem(n, s, t)`. -/
noncomputable def ofNormal (n : V3 ℝ) : Option Frame :=
  (coordinateSystem n).map fun bc => ⟨bc.1, bc.2, n⟩

/-- `toLocal`, `coord_frame.cpp:36-41`. -/
def toLocal (f : Frame) (v : V3 ℝ) : V3 ℝ := ⟨v.dot f.s, v.dot f.t, v.dot f.n⟩

/-- `toWorld`, `coord_frame.cpp:43-48`. -/
def toWorld (f : Frame) (v : V3 ℝ) : V3 ℝ := f.s.smul v.x + f.t.smul v.y + f.n.smul v.z

/-- `sphericalDirection`, `coord_frame.cpp:119-129`. -/
noncomputable def sphericalDirection (cosTheta sinTheta phi : ℝ) (x y z : V3 ℝ) : V3 ℝ :=
  (x.smul (Real.cos phi)).smul sinTheta + (y.smul (Real.sin phi)).smul sinTheta + z.smul cosTheta

end Frame
end Feign
