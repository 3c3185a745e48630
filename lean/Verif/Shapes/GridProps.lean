import Verif.Shapes.Grid
import Verif.Shapes.MeshProps
import Mathlib.Data.List.Basic
import Mathlib.Data.List.Flatten
import Mathlib.Tactic.Positivity

/-! # Grid meshes: well-formedness, tiling of the square, terrain normals -/

set_option linter.unusedSectionVars false

namespace Feign.Shapes

section loops

theorem gridLoop_length {α : Type} (rx ry : ℕ) (f : ℕ → ℕ → α) : (gridLoop rx ry f).length = rx * ry := by
  unfold gridLoop
  rw [List.length_flatMap]
  simp [mul_comm]

theorem gridLoop_get {α : Type} (rx : ℕ) (f : ℕ → ℕ → α) : ∀ (ry i j : ℕ), i < ry → j < rx →
    (gridLoop rx ry f)[i * rx + j]? = some (f i j)
  | 0, i, _, hi, _ => absurd hi (by omega)
  | ry + 1, i, j, hi, hj => by
    have hsplit : gridLoop rx (ry + 1) f = gridLoop rx ry f ++ (List.range rx).map fun j => f ry j := by
      simp [gridLoop, List.range_succ, List.flatMap_append]
    rw [hsplit]
    by_cases h : i < ry
    · rw [List.getElem?_append_left, gridLoop_get rx f ry i j h hj]
      rw [gridLoop_length]
      calc i * rx + j < i * rx + rx := by omega
        _ = rx * (i + 1) := by ring
        _ ≤ rx * ry := Nat.mul_le_mul_left _ h
    · have : i = ry := by omega
      subst this
      rw [List.getElem?_append_right (by rw [gridLoop_length, mul_comm]; omega), gridLoop_length,
        mul_comm rx i, Nat.add_sub_cancel_left]
      simp [hj]

end loops

variable {K : Type} [Field K] [LinearOrder K] [IsStrictOrderedRing K]

theorem mem_gridTris {rx ry : ℕ} {f : Face} : f ∈ gridTris rx ry ↔
    ∃ i j, i + 1 < ry ∧ j + 1 < rx ∧
      (f = sameFace (i * rx + (j + 1)) (i * rx + j) ((i + 1) * rx + (j + 1)) ∨
       f = sameFace (i * rx + j) ((i + 1) * rx + j) ((i + 1) * rx + (j + 1))) := by
  unfold gridTris
  simp only [List.mem_flatMap, List.mem_range, gridCell, Nat.add_sub_cancel, List.mem_cons,
    List.not_mem_nil, or_false]
  constructor
  · rintro ⟨i, hi, j, hj, h⟩; exact ⟨i, j, by omega, by omega, h⟩
  · rintro ⟨i, j, hi, hj, h⟩; exact ⟨i, by omega, j, by omega, h⟩

private theorem idx_lt {rx ry i j : ℕ} (hi : i < ry) (hj : j < rx) : i * rx + j < rx * ry := by
  calc i * rx + j < i * rx + rx := by omega
    _ = rx * (i + 1) := by ring
    _ ≤ rx * ry := Nat.mul_le_mul_left _ hi

private theorem three {P : ℕ → Prop} {a b c : ℕ} (ha : P a) (hb : P b) (hc : P c) :
    ∀ k : Fin 3, P (![a, b, c] k)
  | 0 => ha
  | 1 => hb
  | 2 => hc

/-- A grid of resolution `rx × ry` (both at least 2) has `rx * ry` vertices, normals and texture
coordinates and `2 (rx - 1)(ry - 1)` triangles; every triangle refers to three different existing vertices;
texture coordinates are between 0 and 1 and follow the position. -/
theorem grid_well_formed (rx ry : ℕ) (hx : 2 ≤ rx) (hy : 2 ≤ ry) :
    ∃ m : Mesh K, gridMesh rx ry = some m ∧
      m.vs.length = rx * ry ∧ m.ns.length = rx * ry ∧ m.uvs.length = rx * ry ∧
      m.tris.length = 2 * ((rx - 1) * (ry - 1)) ∧
      (∀ f ∈ m.tris, (∀ k, f.v k < m.vs.length) ∧ Function.Injective f.v ∧ f.n = f.v ∧ f.uv = f.v) ∧
      (∀ (k : ℕ) (v : V3 K) (w : V2 K), m.vs[k]? = some v → m.uvs[k]? = some w →
        v.x = 2 * w.x - 1 ∧ v.y = 0 ∧ v.z = 2 * w.y - 1 ∧ 0 ≤ w.x ∧ w.x ≤ 1 ∧ 0 ≤ w.y ∧ w.y ≤ 1) := by
  refine ⟨_, by unfold gridMesh; rw [if_neg (by omega)], gridLoop_length _ _ _, gridLoop_length _ _ _,
    gridLoop_length _ _ _, ?_, ?_, ?_⟩
  · unfold gridTris gridCell
    simp only [List.length_flatMap, List.length_cons, List.length_nil]
    simp
    ring
  · intro f hf
    rw [gridLoop_length]
    obtain ⟨i, j, hi, hj, h⟩ := mem_gridTris.mp hf
    have h1 := idx_lt (rx := rx) (ry := ry) (i := i) (j := j + 1) (by omega) hj
    have h2 := idx_lt (rx := rx) (ry := ry) (i := i) (j := j) (by omega) (by omega)
    have h3 := idx_lt (rx := rx) (ry := ry) (i := i + 1) (j := j + 1) hi hj
    have h4 := idx_lt (rx := rx) (ry := ry) (i := i + 1) (j := j) hi (by omega)
    have hmul : (i + 1) * rx = i * rx + rx := by ring
    have inj : ∀ a b c : ℕ, a ≠ b → a ≠ c → b ≠ c → Function.Injective ![a, b, c] := by
      intro a b c hab hac hbc k l hkl
      fin_cases k <;> fin_cases l <;> simp at hkl ⊢ <;> first | exact absurd hkl ‹_› | exact absurd hkl.symm ‹_›
    rcases h with rfl | rfl
    · exact ⟨three (P := (· < rx * ry)) h1 h2 h3, inj _ _ _ (by omega) (by omega) (by omega), rfl, rfl⟩
    · exact ⟨three (P := (· < rx * ry)) h2 h4 h3, inj _ _ _ (by omega) (by omega) (by omega), rfl, rfl⟩
  · intro k v w hv hw
    have hk : k < rx * ry := by
      have := (List.getElem?_eq_some_iff.mp hv).1
      rwa [gridLoop_length] at this
    have hr0 : 0 < rx := by omega
    have hi : k / rx < ry := by rw [Nat.div_lt_iff_lt_mul hr0, mul_comm]; exact hk
    have hj : k % rx < rx := Nat.mod_lt _ hr0
    have hkk : k = k / rx * rx + k % rx := by rw [mul_comm]; exact (Nat.div_add_mod k rx).symm
    rw [hkk, gridLoop_get rx _ ry _ _ hi hj] at hv hw
    obtain rfl := Option.some.inj hv
    obtain rfl := Option.some.inj hw
    have hX : (0 : K) < (rx : K) - 1 := by
      have : (2 : K) ≤ (rx : K) := by exact_mod_cast hx
      linarith
    have hY : (0 : K) < (ry : K) - 1 := by
      have : (2 : K) ≤ (ry : K) := by exact_mod_cast hy
      linarith
    have hjK : ((k % rx : ℕ) : K) ≤ (rx : K) - 1 := by
      have : ((k % rx : ℕ) : K) + 1 ≤ (rx : K) := by exact_mod_cast hj
      linarith
    have hiK : ((k / rx : ℕ) : K) ≤ (ry : K) - 1 := by
      have : ((k / rx : ℕ) : K) + 1 ≤ (ry : K) := by exact_mod_cast hi
      linarith
    refine ⟨?_, rfl, ?_, ?_, ?_, ?_, ?_⟩
    · simp only [gridVertex, gridUv]; ring
    · simp only [gridVertex, gridUv]; ring
    · exact div_nonneg (Nat.cast_nonneg _) hX.le
    · exact (div_le_one hX).mpr hjK
    · exact div_nonneg (Nat.cast_nonneg _) hY.le
    · exact (div_le_one hY).mpr hiK

/-- Specification: the corners of a face. -/
def Mesh.Corners (m : Mesh K) (f : Face) (p0 p1 p2 : V3 K) : Prop :=
  m.vs[f.v 0]? = some p0 ∧ m.vs[f.v 1]? = some p1 ∧ m.vs[f.v 2]? = some p2

/-- A position in grid coordinates. -/
private def gridPos (rx ry : ℕ) (a b : K) : V3 K := ⟨2 * a / ((rx : K) - 1) - 1, 0, 2 * b / ((ry : K) - 1) - 1⟩

private theorem gridVertex_eq (rx ry i j : ℕ) : (gridVertex rx ry i j : V3 K) = gridPos rx ry (j : K) (i : K) := by
  ext <;> simp [gridVertex, gridPos] <;> ring

private theorem cell_cases {a : K} : ∀ {n : ℕ}, 0 < n → 0 ≤ a → a ≤ n → ∃ j : ℕ, j < n ∧ (j : K) ≤ a ∧ a ≤ j + 1
  | 0, hn, _, _ => absurd hn (by omega)
  | n + 1, _, h0, h1 => by
    by_cases h : (n : K) ≤ a
    · exact ⟨n, by omega, h, by push_cast at h1; exact h1⟩
    · rcases Nat.eq_zero_or_pos n with rfl | hn
      · exact absurd (by simpa using h0) h
      · obtain ⟨j, hj, a1, a2⟩ := cell_cases hn h0 (not_le.mp h).le
        exact ⟨j, by omega, a1, a2⟩

private theorem corners_lower {rx ry i j : ℕ} (hi : i + 1 < ry) (hj : j + 1 < rx) (m : Mesh K)
    (hvs : m.vs = gridLoop rx ry (gridVertex rx ry)) :
    m.Corners (sameFace (i * rx + (j + 1)) (i * rx + j) ((i + 1) * rx + (j + 1)))
      (gridPos rx ry (j + 1) i) (gridPos rx ry j i) (gridPos rx ry (j + 1) (i + 1)) := by
  refine ⟨?_, ?_, ?_⟩ <;> rw [hvs]
  · have := gridLoop_get rx (gridVertex (K := K) rx ry) ry i (j + 1) (by omega) hj
    rw [gridVertex_eq] at this; push_cast at this; exact this
  · have := gridLoop_get rx (gridVertex (K := K) rx ry) ry i j (by omega) (by omega)
    rw [gridVertex_eq] at this; exact this
  · have := gridLoop_get rx (gridVertex (K := K) rx ry) ry (i + 1) (j + 1) hi hj
    rw [gridVertex_eq] at this; push_cast at this; exact this

private theorem corners_upper {rx ry i j : ℕ} (hi : i + 1 < ry) (hj : j + 1 < rx) (m : Mesh K)
    (hvs : m.vs = gridLoop rx ry (gridVertex rx ry)) :
    m.Corners (sameFace (i * rx + j) ((i + 1) * rx + j) ((i + 1) * rx + (j + 1)))
      (gridPos rx ry j i) (gridPos rx ry j (i + 1)) (gridPos rx ry (j + 1) (i + 1)) := by
  refine ⟨?_, ?_, ?_⟩ <;> rw [hvs]
  · have := gridLoop_get rx (gridVertex (K := K) rx ry) ry i j (by omega) (by omega)
    rw [gridVertex_eq] at this; exact this
  · have := gridLoop_get rx (gridVertex (K := K) rx ry) ry (i + 1) j hi (by omega)
    rw [gridVertex_eq] at this; push_cast at this; exact this
  · have := gridLoop_get rx (gridVertex (K := K) rx ry) ry (i + 1) (j + 1) hi hj
    rw [gridVertex_eq] at this; push_cast at this; exact this

/-- Before any displacement every stored normal points straight up, away from the plane of the grid. -/
theorem grid_normals_up (rx ry : ℕ) (m : Mesh K) (hm : gridMesh rx ry = some m) (n : V3 K) (hn : n ∈ m.ns) :
    n = ⟨0, 1, 0⟩ := by
  unfold gridMesh at hm
  split_ifs at hm
  rw [← Option.some.inj hm] at hn
  simp only [gridLoop, List.mem_flatMap, List.mem_map] at hn
  obtain ⟨_, _, _, _, rfl⟩ := hn
  rfl

example : ∃ m : Mesh ℚ, gridMesh 2 3 = some m ∧ m.ns.length = 6 := by
  obtain ⟨m, h, -, h', -⟩ := grid_well_formed (K := ℚ) 2 3 (by norm_num) (by norm_num)
  exact ⟨m, h, h'⟩

/-- The triangles cover the square: every point of `[-1, 1] × {0} × [-1, 1]` lies in some triangle. -/
theorem grid_covers (rx ry : ℕ) (hx : 2 ≤ rx) (hy : 2 ≤ ry) (m : Mesh K) (hm : gridMesh rx ry = some m)
    (x z : K) (hx1 : -1 ≤ x) (hx2 : x ≤ 1) (hz1 : -1 ≤ z) (hz2 : z ≤ 1) :
    ∃ f ∈ m.tris, ∃ p0 p1 p2, m.Corners f p0 p1 p2 ∧ InTriangle p0 p1 p2 ⟨x, 0, z⟩ := by
  unfold gridMesh at hm
  rw [if_neg (by omega)] at hm
  obtain rfl := Option.some.inj hm
  have hX : (0 : K) < (rx : K) - 1 := by
    have : (2 : K) ≤ (rx : K) := by exact_mod_cast hx
    linarith
  have hY : (0 : K) < (ry : K) - 1 := by
    have : (2 : K) ≤ (ry : K) := by exact_mod_cast hy
    linarith
  have cX : ((rx - 1 : ℕ) : K) = (rx : K) - 1 := by rw [Nat.cast_sub (by omega)]; simp
  have cY : ((ry - 1 : ℕ) : K) = (ry : K) - 1 := by rw [Nat.cast_sub (by omega)]; simp
  obtain ⟨j, hj, j1, j2⟩ := cell_cases (a := (x + 1) / 2 * ((rx : K) - 1)) (n := rx - 1) (by omega)
    (by apply mul_nonneg _ hX.le; linarith) (by rw [cX]; nlinarith)
  obtain ⟨i, hi, i1, i2⟩ := cell_cases (a := (z + 1) / 2 * ((ry : K) - 1)) (n := ry - 1) (by omega)
    (by apply mul_nonneg _ hY.le; linarith) (by rw [cY]; nlinarith)
  have ex : x = 2 * ((x + 1) / 2 * ((rx : K) - 1)) / ((rx : K) - 1) - 1 := by field_simp; ring
  have ez : z = 2 * ((z + 1) / 2 * ((ry : K) - 1)) / ((ry : K) - 1) - 1 := by field_simp; ring
  generalize (x + 1) / 2 * ((rx : K) - 1) = a at *
  generalize (z + 1) / 2 * ((ry : K) - 1) = b at *
  by_cases hab : b - i ≤ a - j
  · refine ⟨_, mem_gridTris.mpr ⟨i, j, by omega, by omega, Or.inl rfl⟩, _, _, _,
      corners_lower (by omega) (by omega) _ rfl, (j : K) + 1 - a, b - i, by linarith, by linarith, by linarith, ?_⟩
    rw [ex, ez]
    ext <;> simp only [gridPos, V3.add_x, V3.add_y, V3.add_z, V3.smul_x, V3.smul_y, V3.smul_z, V3.sub_x,
      V3.sub_y, V3.sub_z] <;> ring
  · refine ⟨_, mem_gridTris.mpr ⟨i, j, by omega, by omega, Or.inr rfl⟩, _, _, _,
      corners_upper (by omega) (by omega) _ rfl, (b - i) - (a - j), a - j, by linarith [not_le.mp hab], by linarith,
      by linarith, ?_⟩
    rw [ex, ez]
    ext <;> simp only [gridPos, V3.add_x, V3.add_y, V3.add_z, V3.smul_x, V3.smul_y, V3.smul_z, V3.sub_x,
      V3.sub_y, V3.sub_z] <;> ring

/-- Specification: the points of a triangle that are on none of its edges. -/
def InsideTriangle (p0 p1 p2 q : V3 K) : Prop :=
  ∃ u v : K, 0 < u ∧ 0 < v ∧ u + v < 1 ∧ q = p0 + (p1 - p0).smul u + (p2 - p0).smul v

/-- Specification: two faces have no common point that is inside one of them. -/
def Mesh.Apart (m : Mesh K) (f g : Face) : Prop :=
  ∀ p0 p1 p2 q0 q1 q2 x, m.Corners f p0 p1 p2 → m.Corners g q0 q1 q2 →
    ¬ (InsideTriangle p0 p1 p2 x ∧ InTriangle q0 q1 q2 x) ∧ ¬ (InTriangle p0 p1 p2 x ∧ InsideTriangle q0 q1 q2 x)

/-- The points of the two triangles of cell `(i, j)` in grid coordinates. -/
private theorem lower_coords {rx ry : ℕ} (hX : (0 : K) < (rx : K) - 1) (hY : (0 : K) < (ry : K) - 1) (i j : ℕ)
    (a b u v : K) :
    gridPos rx ry a b = gridPos rx ry ((j : K) + 1) i + (gridPos rx ry (j : K) i - gridPos rx ry ((j : K) + 1) i).smul u +
      (gridPos rx ry ((j : K) + 1) ((i : K) + 1) - gridPos rx ry ((j : K) + 1) (i : K)).smul v ↔
    a = j + 1 - u ∧ b = i + v := by
  have hX' := hX.ne'
  have hY' := hY.ne'
  constructor
  · intro h
    have h1 := congrArg V3.x h
    have h2 := congrArg V3.z h
    simp only [gridPos, V3.add_x, V3.add_z, V3.smul_x, V3.smul_z, V3.sub_x, V3.sub_z] at h1 h2
    field_simp at h1 h2
    constructor
    · linarith
    · linarith
  · rintro ⟨rfl, rfl⟩
    ext <;> simp only [gridPos, V3.add_x, V3.add_y, V3.add_z, V3.smul_x, V3.smul_y, V3.smul_z, V3.sub_x,
      V3.sub_y, V3.sub_z] <;> ring

private theorem upper_coords {rx ry : ℕ} (hX : (0 : K) < (rx : K) - 1) (hY : (0 : K) < (ry : K) - 1) (i j : ℕ)
    (a b u v : K) :
    gridPos rx ry a b = gridPos rx ry (j : K) i + (gridPos rx ry (j : K) ((i : K) + 1) - gridPos rx ry (j : K) (i : K)).smul u +
      (gridPos rx ry ((j : K) + 1) ((i : K) + 1) - gridPos rx ry (j : K) (i : K)).smul v ↔
    a = j + v ∧ b = i + u + v := by
  have hX' := hX.ne'
  have hY' := hY.ne'
  constructor
  · intro h
    have h1 := congrArg V3.x h
    have h2 := congrArg V3.z h
    simp only [gridPos, V3.add_x, V3.add_z, V3.smul_x, V3.smul_z, V3.sub_x, V3.sub_z] at h1 h2
    field_simp at h1 h2
    constructor
    · linarith
    · linarith
  · rintro ⟨rfl, rfl⟩
    ext <;> simp only [gridPos, V3.add_x, V3.add_y, V3.add_z, V3.smul_x, V3.smul_y, V3.smul_z, V3.sub_x,
      V3.sub_y, V3.sub_z] <;> ring

private theorem gridPos_inj {rx ry : ℕ} (hX : (0 : K) < (rx : K) - 1) (hY : (0 : K) < (ry : K) - 1) {a b c d : K}
    (h : gridPos rx ry a b = gridPos rx ry c d) : a = c ∧ b = d := by
  have hX' := hX.ne'
  have hY' := hY.ne'
  have h1 := congrArg V3.x h
  have h2 := congrArg V3.z h
  simp only [gridPos] at h1 h2
  constructor
  · field_simp at h1; linarith
  · field_simp at h2; linarith

/-- Where the points of a face of cell `(i, j)` are: `lower` says which of the two faces. -/
private def CellAt (i j : ℕ) (lower : Bool) (a b : K) : Prop :=
  (j : K) ≤ a ∧ a ≤ j + 1 ∧ (i : K) ≤ b ∧ b ≤ i + 1 ∧ (if lower then b - i ≤ a - j else a - j ≤ b - i)

private def CellIn (i j : ℕ) (lower : Bool) (a b : K) : Prop :=
  (j : K) < a ∧ a < j + 1 ∧ (i : K) < b ∧ b < i + 1 ∧ (if lower then b - i < a - j else a - j < b - i)

private def cellFace (rx i j : ℕ) (lower : Bool) : Face :=
  if lower then sameFace (i * rx + (j + 1)) (i * rx + j) ((i + 1) * rx + (j + 1))
  else sameFace (i * rx + j) ((i + 1) * rx + j) ((i + 1) * rx + (j + 1))

private theorem corners_unique {m : Mesh K} {f : Face} {p0 p1 p2 q0 q1 q2 : V3 K}
    (h : m.Corners f p0 p1 p2) (h' : m.Corners f q0 q1 q2) : p0 = q0 ∧ p1 = q1 ∧ p2 = q2 := by
  obtain ⟨a, b, c⟩ := h
  obtain ⟨a', b', c'⟩ := h'
  exact ⟨Option.some.inj (a.symm.trans a'), Option.some.inj (b.symm.trans b'), Option.some.inj (c.symm.trans c')⟩

private theorem face_points {rx ry i j : ℕ} (hX : (0 : K) < (rx : K) - 1) (hY : (0 : K) < (ry : K) - 1)
    (hi : i + 1 < ry) (hj : j + 1 < rx) (m : Mesh K) (hvs : m.vs = gridLoop rx ry (gridVertex rx ry))
    (lower : Bool) (p0 p1 p2 x : V3 K) (hc : m.Corners (cellFace rx i j lower) p0 p1 p2) :
    (InTriangle p0 p1 p2 x → ∃ a b, x = gridPos rx ry a b ∧ CellAt i j lower a b) ∧
    (InsideTriangle p0 p1 p2 x → ∃ a b, x = gridPos rx ry a b ∧ CellIn i j lower a b) := by
  cases lower with
  | true =>
    obtain ⟨rfl, rfl, rfl⟩ := corners_unique hc (corners_lower hi hj m hvs)
    constructor
    · rintro ⟨u, v, hu, hv, huv, rfl⟩
      refine ⟨j + 1 - u, i + v, ((lower_coords hX hY i j _ _ u v).mpr ⟨rfl, rfl⟩).symm, ?_, ?_, ?_, ?_, ?_⟩
      all_goals first | linarith | skip
      simp only [if_true]; linarith
    · rintro ⟨u, v, hu, hv, huv, rfl⟩
      refine ⟨j + 1 - u, i + v, ((lower_coords hX hY i j _ _ u v).mpr ⟨rfl, rfl⟩).symm, ?_, ?_, ?_, ?_, ?_⟩
      all_goals first | linarith | skip
      simp only [if_true]; linarith
  | false =>
    obtain ⟨rfl, rfl, rfl⟩ := corners_unique hc (corners_upper hi hj m hvs)
    constructor
    · rintro ⟨u, v, hu, hv, huv, rfl⟩
      refine ⟨j + v, i + u + v, ((upper_coords hX hY i j _ _ u v).mpr ⟨rfl, rfl⟩).symm, ?_, ?_, ?_, ?_, ?_⟩
      all_goals first | linarith | skip
      simp only [Bool.false_eq_true, if_false]; linarith
    · rintro ⟨u, v, hu, hv, huv, rfl⟩
      refine ⟨j + v, i + u + v, ((upper_coords hX hY i j _ _ u v).mpr ⟨rfl, rfl⟩).symm, ?_, ?_, ?_, ?_, ?_⟩
      all_goals first | linarith | skip
      simp only [Bool.false_eq_true, if_false]; linarith

private theorem cells_apart {i j i' j' : ℕ} {l l' : Bool} (hne : (i, j, l) ≠ (i', j', l')) {a b : K}
    (h : CellIn i j l a b) (h' : CellAt i' j' l' a b) : False := by
  obtain ⟨h1, h2, h3, h4, h5⟩ := h
  obtain ⟨k1, k2, k3, k4, k5⟩ := h'
  have ej : j = j' := by
    have e1 : (j : K) < (j' : K) + 1 := lt_of_lt_of_le h1 k2
    have e2 : (j' : K) < (j : K) + 1 := lt_of_le_of_lt k1 h2
    have e1' : j < j' + 1 := by exact_mod_cast e1
    have e2' : j' < j + 1 := by exact_mod_cast e2
    omega
  have ei : i = i' := by
    have e1 : (i : K) < (i' : K) + 1 := lt_of_lt_of_le h3 k4
    have e2 : (i' : K) < (i : K) + 1 := lt_of_le_of_lt k3 h4
    have e1' : i < i' + 1 := by exact_mod_cast e1
    have e2' : i' < i + 1 := by exact_mod_cast e2
    omega
  subst ei ej
  cases l <;> cases l' <;> simp at hne h5 k5
  · linarith
  · linarith

/-- Different triangles of the grid do not overlap. Together with `grid_covers`: every cell is covered exactly
by its two triangles. -/
theorem grid_no_overlap (rx ry : ℕ) (hx : 2 ≤ rx) (hy : 2 ≤ ry) (m : Mesh K) (hm : gridMesh rx ry = some m) :
    m.tris.Pairwise m.Apart := by
  unfold gridMesh at hm
  rw [if_neg (by omega)] at hm
  obtain rfl := Option.some.inj hm
  have hX : (0 : K) < (rx : K) - 1 := by
    have : (2 : K) ≤ (rx : K) := by exact_mod_cast hx
    linarith
  have hY : (0 : K) < (ry : K) - 1 := by
    have : (2 : K) ≤ (ry : K) := by exact_mod_cast hy
    linarith
  have main : ∀ i j i' j' l l', i + 1 < ry → j + 1 < rx → i' + 1 < ry → j' + 1 < rx →
      (i, j, l) ≠ (i', j', l') →
      Mesh.Apart (K := K) ⟨gridLoop rx ry (gridVertex rx ry), gridLoop rx ry fun _ _ => ⟨0, 1, 0⟩,
        gridLoop rx ry (gridUv rx ry), gridTris rx ry⟩ (cellFace rx i j l) (cellFace rx i' j' l') := by
    intro i j i' j' l l' hi hj hi' hj' hne p0 p1 p2 q0 q1 q2 x hp hq
    have fp := face_points hX hY hi hj _ rfl l p0 p1 p2 x hp
    have fq := face_points hX hY hi' hj' _ rfl l' q0 q1 q2 x hq
    constructor
    · rintro ⟨hin, hx⟩
      obtain ⟨a, b, e, h⟩ := fp.2 hin
      obtain ⟨a', b', e', h'⟩ := fq.1 hx
      obtain ⟨rfl, rfl⟩ := gridPos_inj hX hY (e.symm.trans e')
      exact cells_apart hne h h'
    · rintro ⟨hx, hin⟩
      obtain ⟨a, b, e, h⟩ := fp.1 hx
      obtain ⟨a', b', e', h'⟩ := fq.2 hin
      obtain ⟨rfl, rfl⟩ := gridPos_inj hX hY (e.symm.trans e')
      exact cells_apart (Ne.symm hne) h' h
  have hcell : ∀ i j, ∀ f ∈ gridCell rx (i + 1) (j + 1), ∃ l, f = cellFace rx i j l := by
    intro i j f hf
    simp only [gridCell, Nat.add_sub_cancel, List.mem_cons, List.not_mem_nil, or_false] at hf
    rcases hf with rfl | rfl
    · exact ⟨true, rfl⟩
    · exact ⟨false, rfl⟩
  show (gridTris rx ry).Pairwise _
  unfold gridTris
  rw [List.pairwise_flatMap]
  constructor
  · intro i hi
    have hi' := List.mem_range.mp hi
    rw [List.pairwise_flatMap]
    constructor
    · intro j hj
      have hj' := List.mem_range.mp hj
      show List.Pairwise _ (gridCell rx (i + 1) (j + 1))
      have := main i j i j true false (by omega) (by omega) (by omega) (by omega) (by simp)
      simp only [gridCell, Nat.add_sub_cancel, List.pairwise_cons, List.mem_cons, List.not_mem_nil, or_false,
        forall_eq, false_imp_iff, implies_true, List.Pairwise.nil, and_true]
      exact this
    · refine List.Pairwise.imp_of_mem ?_ List.pairwise_lt_range
      intro j j' hj hj' hlt f hf g hg
      rw [List.mem_range] at hj hj'
      obtain ⟨l, rfl⟩ := hcell i j f hf
      obtain ⟨l', rfl⟩ := hcell i j' g hg
      exact main i j i j' l l' (by omega) (by omega) (by omega) (by omega) (by
        intro h; simp only [Prod.mk.injEq] at h; omega)
  · refine List.Pairwise.imp_of_mem ?_ List.pairwise_lt_range
    intro i i' hi hi' hlt f hf g hg
    rw [List.mem_range] at hi hi'
    obtain ⟨j, hj, hf⟩ := List.mem_flatMap.mp hf
    obtain ⟨j', hj', hg⟩ := List.mem_flatMap.mp hg
    rw [List.mem_range] at hj hj'
    obtain ⟨l, rfl⟩ := hcell i j f hf
    obtain ⟨l', rfl⟩ := hcell i' j' g hg
    exact main i j i' j' l l' (by omega) (by omega) (by omega) (by omega) (by
      intro h; simp only [Prod.mk.injEq] at h; omega)

/-- The smallest grid, in full: four vertices, two triangles. -/
example : ((gridMesh 2 2 : Option (Mesh ℚ)).map fun m => (m.vs.map fun v => (v.x, v.y, v.z))) =
    some [(-1, 0, -1), (1, 0, -1), (-1, 0, 1), (1, 0, 1)] := by
  norm_num [gridMesh, gridLoop, gridVertex, List.range_succ]

example : gridTris 2 2 = [sameFace 1 0 3, sameFace 0 2 3] := rfl

/-- With a single row there is no grid: positions would be `0 / 0`. -/
example : (gridMesh 3 1 : Option (Mesh ℚ)) = none := rfl

end Feign.Shapes
