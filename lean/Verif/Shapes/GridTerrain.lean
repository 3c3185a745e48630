import Verif.Shapes.GridProps
import Verif.Math.VecRealLemmas
import Verif.Math.MatrixProps

/-! # Displaced grids: normals -/

set_option linter.unusedSectionVars false

namespace Feign.Shapes

/-- The displaced vertex of row `i`, column `j`. -/
private noncomputable def dv (rx ry : ℕ) (tex : ℝ → ℝ → ℝ) (i j : ℕ) : V3 ℝ :=
  ⟨(1 - -1) * (j : ℝ) / ((rx : ℝ) - 1) + -1,
    (gridVertex rx ry i j : V3 ℝ).y + tex (1 / 2 * ((gridVertex rx ry i j : V3 ℝ).x + 1))
      (1 / 2 * ((gridVertex rx ry i j : V3 ℝ).z + 1)),
    (1 - -1) * (i : ℝ) / ((ry : ℝ) - 1) + -1⟩

private theorem dv_get (rx ry : ℕ) (tex : ℝ → ℝ → ℝ) (i j : ℕ) (hi : i < ry) (hj : j < rx) :
    readAt (displace tex (gridLoop rx ry (gridVertex rx ry))) (i * rx + j) = .ok (dv rx ry tex i j) := by
  unfold readAt displace
  rw [List.getElem?_map, gridLoop_get rx _ ry i j hi hj]
  rfl

/-- All faces of the grid are oriented upwards, and stay so under any vertical displacement: the vertical
component of the cross product of the two edges is positive. -/
theorem terrain_faces_up (rx ry : ℕ) (hx : 2 ≤ rx) (hy : 2 ≤ ry) (m : Mesh ℝ) (hm : gridMesh rx ry = some m)
    (tex : ℝ → ℝ → ℝ) (f : Face) (hf : f ∈ m.tris) :
    ∃ p0 p1 p2, ({ m with vs := displace tex m.vs } : Mesh ℝ).corners f = .ok (p0, p1, p2) ∧
      0 < ((p1 - p0).cross (p2 - p0)).y := by
  unfold gridMesh at hm
  rw [if_neg (by omega)] at hm
  obtain rfl := Option.some.inj hm
  have hX : (0 : ℝ) < (rx : ℝ) - 1 := by
    have : (2 : ℝ) ≤ (rx : ℝ) := by exact_mod_cast hx
    linarith
  have hY : (0 : ℝ) < (ry : ℝ) - 1 := by
    have : (2 : ℝ) ≤ (ry : ℝ) := by exact_mod_cast hy
    linarith
  have pos : 0 < 2 / ((rx : ℝ) - 1) * (2 / ((ry : ℝ) - 1)) := by positivity
  obtain ⟨i, j, hi, hj, h⟩ := mem_gridTris.mp hf
  rcases h with rfl | rfl
  · refine ⟨dv rx ry tex i (j + 1), dv rx ry tex i j, dv rx ry tex (i + 1) (j + 1), ?_, ?_⟩
    · unfold Mesh.corners
      simp only [sameFace, Matrix.cons_val_zero, Matrix.cons_val_one, Matrix.cons_val]
      rw [dv_get rx ry tex i (j + 1) (by omega) hj, dv_get rx ry tex i j (by omega) (by omega),
        dv_get rx ry tex (i + 1) (j + 1) hi hj]
      rfl
    · simp only [V3.cross, V3.sub_x, V3.sub_z, dv]
      push_cast
      refine lt_of_lt_of_eq pos ?_
      ring
  · refine ⟨dv rx ry tex i j, dv rx ry tex (i + 1) j, dv rx ry tex (i + 1) (j + 1), ?_, ?_⟩
    · unfold Mesh.corners
      simp only [sameFace, Matrix.cons_val_zero, Matrix.cons_val_one, Matrix.cons_val]
      rw [dv_get rx ry tex i j (by omega) (by omega), dv_get rx ry tex (i + 1) j hi (by omega),
        dv_get rx ry tex (i + 1) (j + 1) hi hj]
      rfl
    · simp only [V3.cross, V3.sub_x, V3.sub_z, dv]
      push_cast
      refine lt_of_lt_of_eq pos ?_
      ring

/-- What the accumulation does: each entry grows by the unit normals of the faces that use it. -/
private theorem addNormal_spec (l : List (V3 ℝ)) (i : ℕ) (n : V3 ℝ) (hi : i < l.length) :
    ∃ l', addNormal l i n = .ok l' ∧ l'.length = l.length ∧
      ∀ (k : ℕ) (v : V3 ℝ), l'[k]? = some v → ∃ w, l[k]? = some w ∧ v = if i = k then w + n else w := by
  refine ⟨l.modify i (· + n), by unfold addNormal; rw [if_pos hi], by simp, ?_⟩
  intro k v hv
  rw [List.getElem?_modify] at hv
  by_cases h : i = k
  · simp only [h, if_true] at hv ⊢
    cases hk : l[k]? with
    | none => rw [hk] at hv; simp at hv
    | some w => rw [hk] at hv; simp at hv; exact ⟨w, rfl, hv.symm⟩
  · simp only [h, if_false] at hv ⊢
    exact ⟨v, by simpa using hv, rfl⟩

private theorem faceNormals_spec (m : Mesh ℝ) (N : ℕ) : ∀ (fs : List Face) (acc : List (V3 ℝ)),
    acc.length = N →
    (∀ f ∈ fs, (∀ k, f.n k < N) ∧
      ∃ p0 p1 p2, m.corners f = .ok (p0, p1, p2) ∧ 0 < ((p1 - p0).cross (p2 - p0)).y) →
    ∃ acc', faceNormals m fs acc = .ok acc' ∧ acc'.length = N ∧
      ∀ (k : ℕ) (v : V3 ℝ), acc'[k]? = some v → ∃ w, acc[k]? = some w ∧ w.y ≤ v.y ∧
        ((∃ f ∈ fs, ∃ c, f.n c = k) → w.y < v.y)
  | [], acc, hN, _ => ⟨acc, rfl, hN, fun k v hv => ⟨v, hv, le_refl _, by simp⟩⟩
  | f :: fs, acc, hN, hf => by
    obtain ⟨hidx, p0, p1, p2, hc, hy⟩ := hf f (by simp)
    have hne : (p1 - p0).cross (p2 - p0) ≠ 0 := by
      intro h; rw [h] at hy; exact absurd hy (lt_irrefl _)
    obtain ⟨u, hu, _, hsm⟩ := V3.normalized_spec _ hne
    have hfn : faceNormal p0 p1 p2 = some u := by
      unfold faceNormal
      dsimp only
      rw [if_neg, hu]
      intro h0
      apply hne
      exact (V3.sqrNorm_eq_zero _).mp h0
    have huy : 0 < u.y := by
      have hnp := V3.norm_pos _ hne
      have := congrArg V3.y hsm
      rw [V3.smul_y] at this
      rw [← this] at hy
      exact (pos_iff_pos_of_mul_pos hy).mpr hnp
    obtain ⟨a1, h1, l1, s1⟩ := addNormal_spec acc (f.n 0) u (by rw [hN]; exact hidx 0)
    obtain ⟨a2, h2, l2, s2⟩ := addNormal_spec a1 (f.n 1) u (by rw [l1, hN]; exact hidx 1)
    obtain ⟨a3, h3, l3, s3⟩ := addNormal_spec a2 (f.n 2) u (by rw [l2, l1, hN]; exact hidx 2)
    obtain ⟨acc', hacc, hl, hs⟩ := faceNormals_spec m N fs a3 (by rw [l3, l2, l1, hN])
      (fun g hg => hf g (by simp [hg]))
    refine ⟨acc', ?_, hl, ?_⟩
    · unfold faceNormals
      rw [hc]
      show (match faceNormal p0 p1 p2 with
        | none => _
        | some n => _) = _
      rw [hfn]
      show (addNormal acc (f.n 0) u >>= _) = _
      rw [h1]
      show (addNormal a1 (f.n 1) u >>= _) = _
      rw [h2]
      show (addNormal a2 (f.n 2) u >>= _) = _
      rw [h3]
      exact hacc
    · intro k v hv
      obtain ⟨w3, e3, q3, r3⟩ := hs k v hv
      obtain ⟨w2, e2, q2⟩ := s3 k w3 e3
      obtain ⟨w1, e1, q1⟩ := s2 k w2 e2
      obtain ⟨w0, e0, q0⟩ := s1 k w1 e1
      have y1 : w1.y = if f.n 0 = k then w0.y + u.y else w0.y := by rw [q0]; split_ifs <;> rfl
      have y2 : w2.y = if f.n 1 = k then w1.y + u.y else w1.y := by rw [q1]; split_ifs <;> rfl
      have y3 : w3.y = if f.n 2 = k then w2.y + u.y else w2.y := by rw [q2]; split_ifs <;> rfl
      have g1 : w0.y ≤ w1.y := by rw [y1]; split_ifs <;> linarith
      have g2 : w1.y ≤ w2.y := by rw [y2]; split_ifs <;> linarith
      have g3 : w2.y ≤ w3.y := by rw [y3]; split_ifs <;> linarith
      refine ⟨w0, e0, by linarith, ?_⟩
      rintro ⟨g, hg, c, hgc⟩
      rcases List.mem_cons.mp hg with rfl | hg
      · have : c = 0 ∨ c = 1 ∨ c = 2 := by fin_cases c <;> simp
        rcases this with rfl | rfl | rfl
        · rw [if_pos hgc] at y1; linarith
        · rw [if_pos hgc] at y2; linarith
        · rw [if_pos hgc] at y3; linarith
      · have := r3 ⟨g, hg, c, hgc⟩
        linarith

/-- Every vertex is a corner of some face. -/
theorem grid_vertex_used (rx ry : ℕ) (hx : 2 ≤ rx) (hy : 2 ≤ ry) (k : ℕ) (hk : k < rx * ry) :
    ∃ f ∈ gridTris rx ry, ∃ c, f.n c = k := by
  have hr0 : 0 < rx := by omega
  have hi : k / rx < ry := by rw [Nat.div_lt_iff_lt_mul hr0, mul_comm]; exact hk
  have hj : k % rx < rx := Nat.mod_lt _ hr0
  have hkk : k = k / rx * rx + k % rx := by rw [mul_comm]; exact (Nat.div_add_mod k rx).symm
  generalize k / rx = i at *
  generalize k % rx = j at *
  subst hkk
  by_cases h : i + 1 < ry
  · by_cases h' : j + 1 < rx
    · exact ⟨_, mem_gridTris.mpr ⟨i, j, h, h', Or.inr rfl⟩, 0, rfl⟩
    · obtain ⟨j, rfl⟩ : ∃ j', j = j' + 1 := ⟨j - 1, by omega⟩
      exact ⟨_, mem_gridTris.mpr ⟨i, j, h, by omega, Or.inl rfl⟩, 0, rfl⟩
  · obtain ⟨i, rfl⟩ : ∃ i', i = i' + 1 := ⟨i - 1, by omega⟩
    by_cases h' : j + 1 < rx
    · exact ⟨_, mem_gridTris.mpr ⟨i, j, by omega, h', Or.inr rfl⟩, 1, rfl⟩
    · obtain ⟨j, rfl⟩ : ∃ j', j = j' + 1 := ⟨j - 1, by omega⟩
      exact ⟨_, mem_gridTris.mpr ⟨i, j, by omega, by omega, Or.inr rfl⟩, 2, rfl⟩

/-- Whatever the terrain map returns, the displaced grid is built without error, keeps its triangles and
horizontal positions, and has for every vertex a normal with a positive vertical component. -/
theorem terrain_normals (rx ry : ℕ) (hx : 2 ≤ rx) (hy : 2 ≤ ry) (m : Mesh ℝ) (hm : gridMesh rx ry = some m)
    (tex : ℝ → ℝ → ℝ) :
    ∃ m', terrainMesh tex m = .ok m' ∧ m'.tris = m.tris ∧ m'.vs.length = m.vs.length ∧
      (∀ (k : ℕ) (v w : V3 ℝ), m.vs[k]? = some v → m'.vs[k]? = some w → w.x = v.x ∧ w.z = v.z) ∧
      m'.ns.length = m.vs.length ∧ ∀ n ∈ m'.ns, 0 < n.y := by
  have hup := terrain_faces_up rx ry hx hy m hm tex
  obtain ⟨m0, hm0, hv, hn, huv, ht, hfa, _⟩ := grid_well_formed (K := ℝ) rx ry hx hy
  obtain rfl : m0 = m := Option.some.inj (hm0.symm.trans hm)
  have htris : m0.tris = gridTris rx ry := by
    unfold gridMesh at hm
    rw [if_neg (by omega)] at hm
    obtain rfl := Option.some.inj hm
    rfl
  obtain ⟨acc, hacc, hlen, hspec⟩ := faceNormals_spec ({ m0 with vs := displace tex m0.vs } : Mesh ℝ) (rx * ry)
    m0.tris (List.replicate m0.ns.length ⟨0, 0, 0⟩) (by simp [hn])
    (fun f hf => ⟨fun k => by
      obtain ⟨a, _, b, _⟩ := hfa f hf
      rw [b, ← hv]; exact a k, hup f hf⟩)
  refine ⟨{ m0 with vs := displace tex m0.vs, ns := acc }, ?_, rfl, by simp [displace], ?_, by simp [hlen, hv], ?_⟩
  · unfold terrainMesh
    show (faceNormals _ m0.tris (List.replicate m0.ns.length ⟨0, 0, 0⟩) >>= _) = _
    rw [hacc]; rfl
  · intro k v w h1 h2
    have h2' : (displace tex m0.vs)[k]? = some w := h2
    unfold displace at h2'
    rw [List.getElem?_map, h1] at h2'
    obtain rfl := Option.some.inj h2'
    exact ⟨rfl, rfl⟩
  · intro n hmem
    obtain ⟨k, hk⟩ := List.getElem?_of_mem hmem
    obtain ⟨w, hw, _, hlt⟩ := hspec k n hk
    have hklt : k < rx * ry := by
      have := (List.getElem?_eq_some_iff.mp hk).1
      rw [← hlen]; exact this
    rw [htris] at hlt
    have := hlt (grid_vertex_used rx ry hx hy k hklt)
    have hw0 : w = ⟨0, 0, 0⟩ := by
      have := List.mem_of_getElem? hw
      exact (List.mem_replicate.mp this).2
    rw [hw0] at this
    exact this

/-- The normals that are stored in the end are unit vectors, for every invertible affine placement: the
normalisation never divides by zero. -/
theorem terrain_final_normals (rx ry : ℕ) (hx : 2 ≤ rx) (hy : 2 ≤ ry) (m m' : Mesh ℝ)
    (hm : gridMesh rx ry = some m) (tex : ℝ → ℝ → ℝ) (hm' : terrainMesh tex m = .ok m') (t : Xf ℝ)
    (hv : Xf.Valid t) (ha : Xf.Aff t) (n : V3 ℝ) (hn : n ∈ m'.ns) :
    ∃ u, finalNormal t n = some u ∧ u.sqrNorm = 1 := by
  obtain ⟨m1, h1, _, _, _, _, hpos⟩ := terrain_normals rx ry hx hy m hm tex
  obtain rfl : m1 = m' := by rw [hm'] at h1; cases h1; rfl
  have hne : t.normal n ≠ 0 := by
    intro h
    have hback := ((Xf.inverse_undoes t hv).2 ha n).2
    rw [h] at hback
    have : t.inverse.normal 0 = (0 : V3 ℝ) := by
      ext <;> simp [Xf.normal, M3.mulVec]
    rw [this] at hback
    have := hpos n hn
    rw [← hback] at this
    exact absurd this (lt_irrefl _)
  obtain ⟨u, hu, hunit, _⟩ := V3.normalized_spec _ hne
  exact ⟨u, hu, hunit⟩

/-- A 2 × 2 grid with a ridge is an instance. -/
example : ∃ m m' : Mesh ℝ, gridMesh 2 2 = some m ∧ terrainMesh (fun u v => u * v) m = .ok m' ∧ m'.ns.length = 4 := by
  obtain ⟨m, h, hl, _⟩ := grid_well_formed (K := ℝ) 2 2 (le_refl _) (le_refl _)
  obtain ⟨m', h', _, _, _, hn, _⟩ := terrain_normals 2 2 (le_refl _) (le_refl _) m h (fun u v => u * v)
  exact ⟨m, m', h, h', by rw [hn, hl]⟩

end Feign.Shapes
