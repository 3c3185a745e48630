import Verif.Math.Vec
import Verif.Math.BBox
import Mathlib.Algebra.Field.Basic

/-!
# 4×4 matrices and transforms (model)

`struct Matrix3`, `struct Matrix4`, `include/feign/math/vector.h:1234-1751`; `src/math/transform.cpp`.
Entries are exact. A division by a zero determinant or a zero homogeneous coordinate has no finite result;
the model returns `none`.
-/

namespace Feign

/-- `Matrix4<T>`, `include/feign/math/vector.h:1371-1751`: `n[16]`, row by row. -/
@[ext] structure M4 (K : Type) where
  (n0 n1 n2 n3 n4 n5 n6 n7 n8 n9 n10 n11 n12 n13 n14 n15 : K)
  deriving DecidableEq

/-- `Matrix3<T>`, `vector.h:1233-1369`: `n[9]`, row by row. -/
@[ext] structure M3 (K : Type) where
  (n0 n1 n2 n3 n4 n5 n6 n7 n8 : K)
  deriving DecidableEq

/-- `Vec4<T>`, `vector.h:818`. -/
@[ext] structure V4 (K : Type) where
  (x y z w : K)
  deriving DecidableEq

namespace M3
variable {K : Type} [CommRing K]
/-- `operator*(Vec3)`, `vector.h:1295-1304`. -/
def mulVec (m : M3 K) (v : V3 K) : V3 K :=
  ⟨m.n0 * v.x + m.n1 * v.y + m.n2 * v.z, m.n3 * v.x + m.n4 * v.y + m.n5 * v.z,
   m.n6 * v.x + m.n7 * v.y + m.n8 * v.z⟩
/-- `operator*(Matrix3)`, `vector.h:1276-1293`. -/
def mul (a b : M3 K) : M3 K :=
  ⟨a.n0 * b.n0 + a.n1 * b.n3 + a.n2 * b.n6, a.n0 * b.n1 + a.n1 * b.n4 + a.n2 * b.n7,
   a.n0 * b.n2 + a.n1 * b.n5 + a.n2 * b.n8,
   a.n3 * b.n0 + a.n4 * b.n3 + a.n5 * b.n6, a.n3 * b.n1 + a.n4 * b.n4 + a.n5 * b.n7,
   a.n3 * b.n2 + a.n4 * b.n5 + a.n5 * b.n8,
   a.n6 * b.n0 + a.n7 * b.n3 + a.n8 * b.n6, a.n6 * b.n1 + a.n7 * b.n4 + a.n8 * b.n7,
   a.n6 * b.n2 + a.n7 * b.n5 + a.n8 * b.n8⟩
/-- transpose `operator!`, `vector.h:1327-1342`. -/
def transpose (m : M3 K) : M3 K := ⟨m.n0, m.n3, m.n6, m.n1, m.n4, m.n7, m.n2, m.n5, m.n8⟩
/-- `identity()`, `vector.h:1259-1274`. -/
def one : M3 K := ⟨1, 0, 0, 0, 1, 0, 0, 0, 1⟩
end M3

namespace M4
variable {K : Type} [Field K]

/-- `identity()`, `vector.h:1422-1444`. -/
def one : M4 K := ⟨1, 0, 0, 0, 0, 1, 0, 0, 0, 0, 1, 0, 0, 0, 0, 1⟩
/-- `scale`, `vector.h:1446-1456`. -/
def scale (v : V3 K) : M4 K := ⟨v.x, 0, 0, 0, 0, v.y, 0, 0, 0, 0, v.z, 0, 0, 0, 0, 1⟩
/-- `translate`, `vector.h:1458-1471`. -/
def translate (v : V3 K) : M4 K := ⟨1, 0, 0, v.x, 0, 1, 0, v.y, 0, 0, 1, v.z, 0, 0, 0, 1⟩
/-- The matrix written by `rotate`, `vector.h:1489-1505`, for cosine `c`, sine `s` and the normalised axis
`u`. -/
def rotateCS (c s : K) (u : V3 K) : M4 K :=
  let t := 1 - c
  ⟨c + u.x * u.x * t, u.x * u.y * t + u.z * s, u.x * u.z * t - u.y * s, 0,
   u.x * u.y * t - u.z * s, c + u.y * u.y * t, u.y * u.z * t + u.x * s, 0,
   u.x * u.z * t + u.y * s, u.y * u.z * t - u.x * s, c + u.z * u.z * t, 0,
   0, 0, 0, 1⟩
/-- `topLeftCorner()`, `vector.h:1405-1420`. -/
def topLeft (m : M4 K) : M3 K := ⟨m.n0, m.n1, m.n2, m.n4, m.n5, m.n6, m.n8, m.n9, m.n10⟩
/-- `operator*(Matrix4)`, `vector.h:1514-1539`. -/
def mul (a b : M4 K) : M4 K :=
  ⟨a.n0 * b.n0 + a.n1 * b.n4 + a.n2 * b.n8 + a.n3 * b.n12,
   a.n0 * b.n1 + a.n1 * b.n5 + a.n2 * b.n9 + a.n3 * b.n13,
   a.n0 * b.n2 + a.n1 * b.n6 + a.n2 * b.n10 + a.n3 * b.n14,
   a.n0 * b.n3 + a.n1 * b.n7 + a.n2 * b.n11 + a.n3 * b.n15,
   a.n4 * b.n0 + a.n5 * b.n4 + a.n6 * b.n8 + a.n7 * b.n12,
   a.n4 * b.n1 + a.n5 * b.n5 + a.n6 * b.n9 + a.n7 * b.n13,
   a.n4 * b.n2 + a.n5 * b.n6 + a.n6 * b.n10 + a.n7 * b.n14,
   a.n4 * b.n3 + a.n5 * b.n7 + a.n6 * b.n11 + a.n7 * b.n15,
   a.n8 * b.n0 + a.n9 * b.n4 + a.n10 * b.n8 + a.n11 * b.n12,
   a.n8 * b.n1 + a.n9 * b.n5 + a.n10 * b.n9 + a.n11 * b.n13,
   a.n8 * b.n2 + a.n9 * b.n6 + a.n10 * b.n10 + a.n11 * b.n14,
   a.n8 * b.n3 + a.n9 * b.n7 + a.n10 * b.n11 + a.n11 * b.n15,
   a.n12 * b.n0 + a.n13 * b.n4 + a.n14 * b.n8 + a.n15 * b.n12,
   a.n12 * b.n1 + a.n13 * b.n5 + a.n14 * b.n9 + a.n15 * b.n13,
   a.n12 * b.n2 + a.n13 * b.n6 + a.n14 * b.n10 + a.n15 * b.n14,
   a.n12 * b.n3 + a.n13 * b.n7 + a.n14 * b.n11 + a.n15 * b.n15⟩
/-- `operator*(Vec4)`, `vector.h:1541-1551`. -/
def mulVec (m : M4 K) (v : V4 K) : V4 K :=
  ⟨m.n0 * v.x + m.n1 * v.y + m.n2 * v.z + m.n3 * v.w, m.n4 * v.x + m.n5 * v.y + m.n6 * v.z + m.n7 * v.w,
   m.n8 * v.x + m.n9 * v.y + m.n10 * v.z + m.n11 * v.w,
   m.n12 * v.x + m.n13 * v.y + m.n14 * v.z + m.n15 * v.w⟩
/-- transpose `operator!`, `vector.h:1574-1596`. -/
def transpose (m : M4 K) : M4 K :=
  ⟨m.n0, m.n4, m.n8, m.n12, m.n1, m.n5, m.n9, m.n13, m.n2, m.n6, m.n10, m.n14, m.n3, m.n7, m.n11, m.n15⟩

/-- The determinant accumulated by `operator~`, `include/feign/math/vector.h:1603-1619`. -/

def det (m : M4 K) : K :=
  0 + m.n0 * (m.n5 * m.n10 * m.n15 + m.n6 * m.n11 * m.n13 + m.n7 * m.n9 * m.n14 - m.n7 * m.n10 * m.n13 - m.n6 * m.n9 * m.n15 - m.n5 * m.n11 * m.n14)
    - m.n4 * (m.n1 * m.n10 * m.n15 + m.n2 * m.n11 * m.n13 + m.n3 * m.n9 * m.n14 - m.n3 * m.n10 * m.n13 - m.n2 * m.n9 * m.n15 - m.n1 * m.n11 * m.n14)
    + m.n8 * (m.n1 * m.n6 * m.n15 + m.n2 * m.n7 * m.n13 + m.n3 * m.n5 * m.n14 - m.n3 * m.n6 * m.n13 - m.n2 * m.n5 * m.n15 - m.n1 * m.n7 * m.n14)
    - m.n12 * (m.n1 * m.n6 * m.n11 + m.n2 * m.n7 * m.n9 + m.n3 * m.n5 * m.n10 - m.n3 * m.n6 * m.n9 - m.n2 * m.n5 * m.n11 - m.n1 * m.n7 * m.n10)

/-- `m11`, `vector.h:1621-1623`. -/
def m11 (m : M4 K) : K :=
  m.n5 * m.n10 * m.n15 + m.n6 * m.n11 * m.n13 + m.n7 * m.n9 * m.n14 - m.n7 * m.n10 * m.n13 - m.n6 * m.n9 * m.n15 - m.n5 * m.n11 * m.n14

/-- `m12`, `vector.h:1625-1627`. -/
def m12 (m : M4 K) : K :=
  m.n4 * m.n10 * m.n15 + m.n6 * m.n11 * m.n12 + m.n7 * m.n8 * m.n14 - m.n7 * m.n10 * m.n12 - m.n6 * m.n8 * m.n15 - m.n4 * m.n11 * m.n14

/-- `m13`, `vector.h:1629-1631`. -/
def m13 (m : M4 K) : K :=
  m.n4 * m.n9 * m.n15 + m.n5 * m.n11 * m.n12 + m.n7 * m.n8 * m.n13 - m.n7 * m.n9 * m.n12 - m.n5 * m.n8 * m.n15 - m.n4 * m.n11 * m.n13

/-- `m14`, `vector.h:1633-1635`. -/
def m14 (m : M4 K) : K :=
  m.n4 * m.n9 * m.n14 + m.n5 * m.n10 * m.n12 + m.n6 * m.n8 * m.n13 - m.n6 * m.n9 * m.n12 - m.n5 * m.n8 * m.n14 - m.n4 * m.n10 * m.n13

/-- `m21`, `vector.h:1637-1639`. -/
def m21 (m : M4 K) : K :=
  m.n1 * m.n10 * m.n15 + m.n2 * m.n11 * m.n13 + m.n3 * m.n9 * m.n14 - m.n3 * m.n10 * m.n13 - m.n2 * m.n9 * m.n15 - m.n1 * m.n11 * m.n14

/-- `m22`, `vector.h:1641-1643`. -/
def m22 (m : M4 K) : K :=
  m.n0 * m.n10 * m.n15 + m.n2 * m.n11 * m.n12 + m.n3 * m.n8 * m.n14 - m.n3 * m.n10 * m.n12 - m.n2 * m.n8 * m.n15 - m.n0 * m.n11 * m.n14

/-- `m23`, `vector.h:1645-1647`. -/
def m23 (m : M4 K) : K :=
  m.n0 * m.n9 * m.n15 + m.n1 * m.n11 * m.n12 + m.n3 * m.n8 * m.n13 - m.n3 * m.n9 * m.n12 - m.n1 * m.n8 * m.n15 - m.n0 * m.n11 * m.n13

/-- `m24`, `vector.h:1649-1651`. -/
def m24 (m : M4 K) : K :=
  m.n0 * m.n9 * m.n14 + m.n1 * m.n10 * m.n12 + m.n2 * m.n8 * m.n13 - m.n2 * m.n9 * m.n12 - m.n1 * m.n8 * m.n14 - m.n0 * m.n10 * m.n13

/-- `m31`, `vector.h:1653-1655`. -/
def m31 (m : M4 K) : K :=
  m.n1 * m.n6 * m.n15 + m.n2 * m.n7 * m.n13 + m.n3 * m.n5 * m.n14 - m.n3 * m.n6 * m.n13 - m.n2 * m.n5 * m.n15 - m.n1 * m.n7 * m.n14

/-- `m32`, `vector.h:1657-1659`. -/
def m32 (m : M4 K) : K :=
  m.n0 * m.n6 * m.n15 + m.n2 * m.n7 * m.n12 + m.n3 * m.n4 * m.n14 - m.n3 * m.n6 * m.n12 - m.n2 * m.n4 * m.n15 - m.n0 * m.n7 * m.n14

/-- `m33`, `vector.h:1661-1663`. -/
def m33 (m : M4 K) : K :=
  m.n0 * m.n5 * m.n15 + m.n1 * m.n7 * m.n12 + m.n3 * m.n4 * m.n13 - m.n3 * m.n5 * m.n12 - m.n1 * m.n4 * m.n15 - m.n0 * m.n7 * m.n13

/-- `m34`, `vector.h:1665-1667`. -/
def m34 (m : M4 K) : K :=
  m.n0 * m.n5 * m.n14 + m.n1 * m.n6 * m.n12 + m.n2 * m.n4 * m.n13 - m.n2 * m.n5 * m.n12 - m.n1 * m.n4 * m.n14 - m.n0 * m.n6 * m.n13

/-- `m41`, `vector.h:1669-1671`. -/
def m41 (m : M4 K) : K :=
  m.n1 * m.n6 * m.n11 + m.n2 * m.n7 * m.n9 + m.n3 * m.n5 * m.n10 - m.n3 * m.n6 * m.n9 - m.n2 * m.n5 * m.n11 - m.n1 * m.n7 * m.n10

/-- `m42`, `vector.h:1673-1675`. -/
def m42 (m : M4 K) : K :=
  m.n0 * m.n6 * m.n11 + m.n2 * m.n7 * m.n8 + m.n3 * m.n4 * m.n10 - m.n3 * m.n6 * m.n8 - m.n2 * m.n4 * m.n11 - m.n0 * m.n7 * m.n10

/-- `m43`, `vector.h:1677-1679`. -/
def m43 (m : M4 K) : K :=
  m.n0 * m.n5 * m.n11 + m.n1 * m.n7 * m.n8 + m.n3 * m.n4 * m.n9 - m.n3 * m.n5 * m.n8 - m.n1 * m.n4 * m.n11 - m.n0 * m.n7 * m.n9

/-- `m44`, `vector.h:1681-1683`. -/
def m44 (m : M4 K) : K :=
  m.n0 * m.n5 * m.n10 + m.n1 * m.n6 * m.n8 + m.n2 * m.n4 * m.n9 - m.n2 * m.n5 * m.n8 - m.n1 * m.n4 * m.n10 - m.n0 * m.n6 * m.n9

/-- The entries written by `operator~`, `vector.h:1685-1700`. -/
def inverseEntries (m : M4 K) : M4 K :=
  ⟨m.m11 / m.det, -m.m21 / m.det, m.m31 / m.det, -m.m41 / m.det,
   -m.m12 / m.det, m.m22 / m.det, -m.m32 / m.det, m.m42 / m.det,
   m.m13 / m.det, -m.m23 / m.det, m.m33 / m.det, -m.m43 / m.det,
   -m.m14 / m.det, m.m24 / m.det, -m.m34 / m.det, m.m44 / m.det⟩

/-- `operator~`, `vector.h:1599-1703`: `none` when the determinant is zero (the code then divides by
zero). -/
def inverse [DecidableEq K] (m : M4 K) : Option (M4 K) := if m.det = 0 then none else some m.inverseEntries

/-- Matrix with the given columns: four `setCol` calls, `vector.h:1705-1711, 1733-1736`. -/
def ofCols (a b c d : V4 K) : M4 K :=
  ⟨a.x, b.x, c.x, d.x, a.y, b.y, c.y, d.y, a.z, b.z, c.z, d.z, a.w, b.w, c.w, d.w⟩

end M4

/-- `class Transform`, `include/feign/math/transform.h:17-46`. -/
@[ext] structure Xf (K : Type) where
  mat : M4 K
  inv : M4 K
  deriving DecidableEq

namespace Xf
variable {K : Type} [Field K]

/-- `Transform()`, `src/math/transform.cpp:15-19`. -/
def one : Xf K := ⟨M4.one, M4.one⟩
/-- `Transform(const Matrix4f &)`, `transform.cpp:21-25`. -/
def ofMatrix [DecidableEq K] (m : M4 K) : Option (Xf K) := m.inverse.map fun i => ⟨m, i⟩
/-- `inverse()`, `transform.cpp:34-37`. -/
def inverse (t : Xf K) : Xf K := ⟨t.inv, t.mat⟩
/-- `operator*(const Transform &)`, `transform.cpp:39-44` (and `operator*=`, `:72-76`). -/
def mul (a b : Xf K) : Xf K := ⟨a.mat.mul b.mat, b.inv.mul a.inv⟩
/-- `operator*(const Vector3f &)`, `transform.cpp:46-49`. -/
def vec (t : Xf K) (v : V3 K) : V3 K := t.mat.topLeft.mulVec v
/-- `operator*(const Normal3f &)`, `transform.cpp:51-55`. -/
def normal (t : Xf K) (v : V3 K) : V3 K := t.inv.topLeft.transpose.mulVec v
/-- `operator*(const Point3f &)`, `transform.cpp:57-62`. -/
def point [DecidableEq K] (t : Xf K) (p : V3 K) : Option (V3 K) :=
  let h := t.mat.mulVec ⟨p.x, p.y, p.z, 1⟩
  if h.w = 0 then none else some ⟨h.x / h.w, h.y / h.w, h.z / h.w⟩
/-- `operator*(const Ray3f &)`, `transform.cpp:64-70`. -/
def ray [DecidableEq K] (t : Xf K) (r : Ray K) : Option (Ray K) :=
  (t.point r.origin).map fun o => ⟨o, t.vec r.dir, r.near, r.far⟩

end Xf
end Feign
