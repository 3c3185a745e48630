import Verif.Integrators.FacetLawful

/-! # Scenes of triangles: sampling a lamp and hitting it (lemmas) -/

set_option linter.unusedSectionVars false
set_option linter.unusedSimpArgs false
set_option linter.unusedVariables false

namespace Feign.Integrators

open Sampling MeasureTheory Warp Bsdf Lights Shapes Set
open scoped ENNReal

/-! ### Rays and points of a triangle -/

/-- Every vector in terms of two edges and the normal. -/
theorem decompose (q e1 e2 : V3 ℝ) : q.smul ((e1.cross e2).dot (e1.cross e2)) =
    e1.smul ((q.cross e2).dot (e1.cross e2)) + e2.smul ((e1.cross q).dot (e1.cross e2)) +
      (e1.cross e2).smul (q.dot (e1.cross e2)) := by
  ext <;> simp only [V3.cross, V3.dot, V3.add_x, V3.add_y, V3.add_z, V3.smul_x, V3.smul_y, V3.smul_z] <;> ring

theorem dot_self_pos {v : V3 ℝ} (h : v ≠ 0) : 0 < v.dot v := by
  rw [← norm_sq]
  have := norm_pos_of_ne h
  positivity

theorem hitPoint_eq (T : Facet) (a b : ℝ) :
    hitPoint T.p0 T.p1 T.p2 a b = T.p0 + (T.p1 - T.p0).smul a + (T.p2 - T.p0).smul b := by
  unfold hitPoint
  ext <;> simp only [V3.add_x, V3.add_y, V3.add_z, V3.smul_x, V3.smul_y, V3.smul_z, V3.sub_x, V3.sub_y, V3.sub_z] <;> ring

theorem patch_eq (T : Facet) (p : V3 ℝ) (x : ℝ × ℝ) :
    patch (T.p0 - p) (T.p1 - T.p0) (T.p2 - T.p0) x = hitPoint T.p0 T.p1 T.p2 x.1 x.2 - p := by
  rw [hitPoint_eq]
  unfold patch
  ext <;> simp only [V3.add_x, V3.add_y, V3.add_z, V3.smul_x, V3.smul_y, V3.smul_z, V3.sub_x, V3.sub_y, V3.sub_z] <;> ring

/-- A ray that meets a triangle meets it in the point with the coordinates found. -/
theorem meets_point (T : Facet) (h : T.cross ≠ 0) (r : Ray) (hm : T.Meets r) :
    r.1 + r.2.smul (T.dist r) = hitPoint T.p0 T.p1 T.p2 (T.coords r).1 (T.coords r).2 := by
  have hN := dot_self_pos h
  have hd := hm.1
  have hplane : (r.1 + r.2.smul (T.dist r) - T.p0).dot T.cross = 0 := by
    have e : (r.1 + r.2.smul (T.dist r) - T.p0).dot T.cross =
        T.dist r * r.2.dot T.cross - (T.p0 - r.1).dot T.cross := by
      simp only [V3.dot, V3.add_x, V3.add_y, V3.add_z, V3.smul_x, V3.smul_y, V3.smul_z, V3.sub_x, V3.sub_y, V3.sub_z]
      ring
    rw [e, Facet.dist, div_mul_cancel₀ _ hd, sub_self]
  have hdec := decompose (r.1 + r.2.smul (T.dist r) - T.p0) (T.p1 - T.p0) (T.p2 - T.p0)
  have hc : (T.p1 - T.p0).cross (T.p2 - T.p0) = T.cross := rfl
  rw [hc, hplane] at hdec
  have e1 : (T.coords r).1 = ((r.1 + r.2.smul (T.dist r) - T.p0).cross (T.p2 - T.p0)).dot T.cross / T.cross.dot T.cross := rfl
  have e2 : (T.coords r).2 = ((T.p1 - T.p0).cross (r.1 + r.2.smul (T.dist r) - T.p0)).dot T.cross / T.cross.dot T.cross := rfl
  rw [hitPoint_eq, e1, e2]
  generalize ((r.1 + r.2.smul (T.dist r) - T.p0).cross (T.p2 - T.p0)).dot T.cross = A at *
  generalize ((T.p1 - T.p0).cross (r.1 + r.2.smul (T.dist r) - T.p0)).dot T.cross = B at *
  generalize T.cross.dot T.cross = N at *
  have hx := congrArg V3.x hdec
  have hy := congrArg V3.y hdec
  have hz := congrArg V3.z hdec
  simp only [V3.add_x, V3.add_y, V3.add_z, V3.smul_x, V3.smul_y, V3.smul_z, V3.sub_x, V3.sub_y, V3.sub_z] at hx hy hz
  ext <;> simp only [V3.add_x, V3.add_y, V3.add_z, V3.smul_x, V3.smul_y, V3.smul_z, V3.sub_x, V3.sub_y, V3.sub_z]
  · field_simp; linear_combination hx
  · field_simp; linear_combination hy
  · field_simp; linear_combination hz

theorem meets_holds (T : Facet) (h : T.cross ≠ 0) (r : Ray) (hm : T.Meets r) : T.Holds (r.1 + r.2.smul (T.dist r)) :=
  ⟨(T.coords r).1, (T.coords r).2, hm.2.1, hm.2.2.1, hm.2.2.2.1, meets_point T h r hm⟩

/-- The ray from a point off the plane to a point of the triangle. -/
theorem toward (T : Facet) (h : T.cross ≠ 0) (p : V3 ℝ) (a b : ℝ) (v : V3 ℝ) (hv : v = hitPoint T.p0 T.p1 T.p2 a b - p)
    (hc : (T.p0 - p).dot T.cross ≠ 0) :
    v.dot T.cross = (T.p0 - p).dot T.cross ∧ 0 < v.norm ∧ (v.smul (1 / v.norm)).dot T.cross ≠ 0 ∧
      T.dist (p, v.smul (1 / v.norm)) = v.norm ∧ T.coords (p, v.smul (1 / v.norm)) = (a, b) := by
  have hN := dot_self_pos h
  have h1 : v.dot T.cross = (T.p0 - p).dot T.cross := by
    rw [hv, hitPoint_eq]
    simp only [Facet.cross, V3.cross, V3.dot, V3.add_x, V3.add_y, V3.add_z, V3.smul_x, V3.smul_y, V3.smul_z, V3.sub_x,
      V3.sub_y, V3.sub_z]
    ring
  have h2 : 0 < v.norm := norm_pos_of_dot (n := T.cross) (by rw [h1]; exact hc)
  have h3 : (v.smul (1 / v.norm)).dot T.cross = v.dot T.cross / v.norm := by
    simp only [V3.dot, V3.smul_x, V3.smul_y, V3.smul_z]
    field_simp
  have h4 : T.dist (p, v.smul (1 / v.norm)) = v.norm := by
    unfold Facet.dist
    dsimp only
    rw [h3, h1]
    field_simp
  refine ⟨h1, h2, ?_, h4, ?_⟩
  · rw [h3, h1]
    exact div_ne_zero hc h2.ne'
  · have hq : p + (v.smul (1 / v.norm)).smul v.norm - T.p0 = (T.p1 - T.p0).smul a + (T.p2 - T.p0).smul b := by
      have hback : (v.smul (1 / v.norm)).smul v.norm = v := by
        ext <;> simp only [V3.smul_x, V3.smul_y, V3.smul_z] <;> field_simp
      rw [hback, hv, hitPoint_eq]
      ext <;> simp only [V3.add_x, V3.add_y, V3.add_z, V3.smul_x, V3.smul_y, V3.smul_z, V3.sub_x, V3.sub_y, V3.sub_z] <;> ring
    unfold Facet.coords
    dsimp only
    rw [h4, hq]
    have ea : (((T.p1 - T.p0).smul a + (T.p2 - T.p0).smul b).cross (T.p2 - T.p0)).dot T.cross = a * T.cross.dot T.cross := by
      simp only [Facet.cross, V3.cross, V3.dot, V3.add_x, V3.add_y, V3.add_z, V3.smul_x, V3.smul_y, V3.smul_z]
      ring
    have eb : ((T.p1 - T.p0).cross ((T.p1 - T.p0).smul a + (T.p2 - T.p0).smul b)).dot T.cross = b * T.cross.dot T.cross := by
      simp only [Facet.cross, V3.cross, V3.dot, V3.add_x, V3.add_y, V3.add_z, V3.smul_x, V3.smul_y, V3.smul_z]
      ring
    rw [ea, eb, mul_div_cancel_right₀ _ hN.ne', mul_div_cancel_right₀ _ hN.ne']

theorem norm_smul (v : V3 ℝ) (c : ℝ) : (v.smul c).norm = |c| * v.norm := by
  have e : (v.smul c).norm ^ 2 = (|c| * v.norm) ^ 2 := by
    rw [mul_pow, sq_abs, norm_sq, norm_sq]
    simp only [V3.dot, V3.smul_x, V3.smul_y, V3.smul_z]
    ring
  have h1 : 0 ≤ (v.smul c).norm := Real.sqrt_nonneg _
  have h2 : 0 ≤ v.norm := Real.sqrt_nonneg _
  exact (pow_left_inj₀ h1 (by positivity) two_ne_zero).1 e

/-- Sampling and hitting agree on what is visible. -/
theorem visible (fs : List Facet) (h : ∀ T ∈ fs, T.Proper) (hcl : LampsClear fs) (j k : ℕ) (T T' : Facet)
    (hk : fs[k]? = some T) (hj : fs[j]? = some T') (hjk : j ≠ k) (hg : T.glow.isSome) (p : V3 ℝ) (hp : T'.Holds p)
    (a b : ℝ) (ha : 0 ≤ a) (hb : 0 ≤ b) (hab : a + b ≤ 1) (v : V3 ℝ) (hv : v = hitPoint T.p0 T.p1 T.p2 a b - p)
    (hc : (T.p0 - p).dot T.cross ≠ 0) :
    winner fs (p, v.smul (1 / v.norm)) = some k ↔ ¬ shadowed fs p (v.smul (1 / v.norm)) (v.norm - 1 / 1000) = true := by
  have hT := (h T (List.mem_of_getElem? hk)).area
  obtain ⟨-, hn, hd, hdist, hco⟩ := toward T hT p a b v hv hc
  have hold : T.Holds (hitPoint T.p0 T.p1 T.p2 a b) := ⟨a, b, ha, hb, hab, rfl⟩
  have hfar : 1 / 1000 ≤ v.norm := by
    rw [hv]
    exact hcl k j T T' hk hj hjk.symm hg _ _ hold hp
  have hm : T.Meets (p, v.smul (1 / v.norm)) := by
    refine ⟨hd, ?_, ?_, ?_, ?_⟩
    · rw [hco]; exact ha
    · rw [hco]; exact hb
    · rw [hco]; exact hab
    · rw [hdist]; exact hfar
  have hsh : shadowed fs p (v.smul (1 / v.norm)) (v.norm - 1 / 1000) = true ↔
      ∃ S ∈ fs, S.Meets (p, v.smul (1 / v.norm)) ∧ S.dist (p, v.smul (1 / v.norm)) ≤ v.norm - 1 / 1000 := by
    simp [shadowed]
  rw [hsh]
  constructor
  · intro hw ⟨S, hS, hSm, hSd⟩
    obtain ⟨-, ⟨T2, h2, -, h3⟩, -⟩ := winner_some.1 hw
    rw [hk] at h2
    cases h2
    have := h3 S hS hSm
    rw [hdist] at this
    linarith
  · intro hno
    have key : ∀ (m : ℕ) (S : Facet), fs[m]? = some S → m ≠ k → S.Meets (p, v.smul (1 / v.norm)) →
        v.norm < S.dist (p, v.smul (1 / v.norm)) := by
      intro m S hS hmk hSm
      have hSp := (h S (List.mem_of_getElem? hS)).area
      have h1 : ¬ S.dist (p, v.smul (1 / v.norm)) ≤ v.norm - 1 / 1000 := fun hle =>
        hno ⟨S, List.mem_of_getElem? hS, hSm, hle⟩
      have h2 := hcl k m T S hk hS hmk.symm hg _ _ hold (meets_holds S hSp _ hSm)
      dsimp only at h2
      have e : hitPoint T.p0 T.p1 T.p2 a b - (p + (v.smul (1 / v.norm)).smul (S.dist (p, v.smul (1 / v.norm)))) =
          v.smul (1 - S.dist (p, v.smul (1 / v.norm)) / v.norm) := by
        have : hitPoint T.p0 T.p1 T.p2 a b = p + v := by
          rw [hv]; ext <;> simp
        rw [this]
        ext <;> simp only [V3.add_x, V3.add_y, V3.add_z, V3.smul_x, V3.smul_y, V3.smul_z, V3.sub_x, V3.sub_y, V3.sub_z] <;>
          field_simp <;> ring
      rw [e, norm_smul] at h2
      have e2 : |1 - S.dist (p, v.smul (1 / v.norm)) / v.norm| * v.norm = |v.norm - S.dist (p, v.smul (1 / v.norm))| := by
        have ea := abs_mul (1 - S.dist (p, v.smul (1 / v.norm)) / v.norm) v.norm
        rw [abs_of_pos hn] at ea
        rw [← ea]
        congr 1
        field_simp
      rw [e2] at h2
      rcases le_abs.1 h2 with h3 | h3 <;> linarith
    refine winner_some.2 ⟨?_, ⟨T, hk, hm, ?_⟩, ?_⟩
    · rw [List.getElem?_eq_some_iff] at hk
      exact hk.1
    · intro S hS hSm
      obtain ⟨m, hS⟩ := List.getElem?_of_mem hS
      rw [hdist]
      by_cases hmk : m = k
      · rw [hmk, hk] at hS
        cases hS
        rw [hdist]
      · exact (key m S hS hmk hSm).le
    · rintro m hmk ⟨S, hS, hSm, hle⟩
      have h1 := key m S hS hmk.ne hSm
      have h2 := hle T (List.mem_of_getElem? hk) hm
      rw [hdist] at h2
      linarith

/-! ### Null sets -/

/-- The triangle with its edges. -/
def closedTri : Set (ℝ × ℝ) := {x | 0 ≤ x.1 ∧ 0 ≤ x.2 ∧ x.1 + x.2 ≤ 1}

theorem measurableSet_closedTri : MeasurableSet closedTri :=
  (measurableSet_le measurable_const measurable_fst).inter ((measurableSet_le measurable_const measurable_snd).inter
    (measurableSet_le (measurable_fst.add measurable_snd) measurable_const))

theorem null_of_sections (S : Set (ℝ × ℝ)) (hS : MeasurableSet S) (h : ∀ x, {y | (x, y) ∈ S}.Finite) : volume S = 0 := by
  rw [Measure.volume_eq_prod, Measure.measure_prod_null hS]
  exact Filter.Eventually.of_forall fun x => (h x).measure_zero volume

theorem triangle_ae : (closedTri : Set (ℝ × ℝ)) =ᵐ[volume] triangle := by
  have h1 : volume {x : ℝ × ℝ | x.1 = 0} = 0 := by
    have e : {x : ℝ × ℝ | x.1 = 0} = ({0} : Set ℝ) ×ˢ univ := by ext x; simp
    rw [e, Measure.volume_eq_prod, Measure.prod_prod, Real.volume_singleton, zero_mul]
  have h2 : volume {x : ℝ × ℝ | x.2 = 0} = 0 :=
    null_of_sections _ (measurable_snd (measurableSet_singleton 0)) fun x => by simp
  have h3 : volume {x : ℝ × ℝ | x.1 + x.2 = 1} = 0 := by
    refine null_of_sections _ ((measurable_fst.add measurable_snd) (measurableSet_singleton 1)) fun x => ?_
    refine (Set.finite_singleton (1 - x)).subset fun y hy => ?_
    have : x + y = 1 := hy
    simp only [mem_singleton_iff]
    linarith
  have hsub : (triangle : Set (ℝ × ℝ)) ⊆ closedTri := fun x hx => ⟨hx.1.le, hx.2.1.le, hx.2.2.le⟩
  refine (ae_eq_of_subset_of_measure_ge (s := triangle) hsub ?_ measurableSet_triangle.nullMeasurableSet ?_).symm
  · have hcov : closedTri ⊆ triangle ∪ ({x : ℝ × ℝ | x.1 = 0} ∪ ({x | x.2 = 0} ∪ {x | x.1 + x.2 = 1})) := by
      intro x hx
      by_cases a : x.1 = 0
      · exact Or.inr (Or.inl a)
      · by_cases b : x.2 = 0
        · exact Or.inr (Or.inr (Or.inl b))
        · by_cases c : x.1 + x.2 = 1
          · exact Or.inr (Or.inr (Or.inr c))
          · exact Or.inl ⟨lt_of_le_of_ne hx.1 (Ne.symm a), lt_of_le_of_ne hx.2.1 (Ne.symm b), lt_of_le_of_ne hx.2.2 c⟩
    calc volume closedTri ≤ volume (triangle ∪ ({x : ℝ × ℝ | x.1 = 0} ∪ ({x | x.2 = 0} ∪ {x | x.1 + x.2 = 1}))) :=
          measure_mono hcov
      _ ≤ volume triangle + (volume {x : ℝ × ℝ | x.1 = 0} + (volume {x : ℝ × ℝ | x.2 = 0} +
            volume {x : ℝ × ℝ | x.1 + x.2 = 1})) :=
          (measure_union_le _ _).trans (add_le_add le_rfl ((measure_union_le _ _).trans
            (add_le_add le_rfl (measure_union_le _ _))))
      _ = volume triangle := by rw [h1, h2, h3]; simp
  · have hle : (triangle : Set (ℝ × ℝ)) ⊆ Icc (0 : ℝ) 1 ×ˢ Icc (0 : ℝ) 1 := fun x hx =>
      ⟨⟨hx.1.le, by linarith [hx.2.1, hx.2.2]⟩, ⟨hx.2.1.le, by linarith [hx.1, hx.2.2]⟩⟩
    have hle2 : closedTri ⊆ Icc (0 : ℝ) 1 ×ˢ Icc (0 : ℝ) 1 := fun x hx =>
      ⟨⟨hx.1, by linarith [hx.2.1, hx.2.2]⟩, ⟨hx.2.1, by linarith [hx.1, hx.2.2]⟩⟩
    refine ((measure_mono hle2).trans_lt ?_).ne
    rw [Measure.volume_eq_prod, Measure.prod_prod, Real.volume_Icc]
    simp

/-- The points of a patch at a given distance form a null set. -/
theorem circle_null (c e1 e2 : V3 ℝ) (he : e2 ≠ 0) (ρ : ℝ) :
    volume {x : ℝ × ℝ | (patch c e1 e2 x).dot (patch c e1 e2 x) = ρ} = 0 := by
  have hm : Measurable fun x : ℝ × ℝ => (patch c e1 e2 x).dot (patch c e1 e2 x) :=
    measurable_dot (measurable_patch c e1 e2) (measurable_patch c e1 e2)
  refine null_of_sections _ (hm (measurableSet_singleton ρ)) fun x => ?_
  have ha := dot_self_pos he
  by_cases hne : ∃ y, (x, y) ∈ {x : ℝ × ℝ | (patch c e1 e2 x).dot (patch c e1 e2 x) = ρ}
  · obtain ⟨y1, hy1⟩ := hne
    refine (Set.toFinite {y1, -(2 * ((c + e1.smul x).dot e2)) / e2.dot e2 - y1}).subset fun y hy => ?_
    have hq : ∀ y, (patch c e1 e2 (x, y)).dot (patch c e1 e2 (x, y)) =
        e2.dot e2 * y ^ 2 + 2 * ((c + e1.smul x).dot e2) * y + (c + e1.smul x).dot (c + e1.smul x) := by
      intro y
      simp only [patch, V3.dot, V3.add_x, V3.add_y, V3.add_z, V3.smul_x, V3.smul_y, V3.smul_z]
      ring
    have h1 : (patch c e1 e2 (x, y1)).dot (patch c e1 e2 (x, y1)) = ρ := hy1
    have h2 : (patch c e1 e2 (x, y)).dot (patch c e1 e2 (x, y)) = ρ := hy
    rw [hq] at h1 h2
    have h3 : (y - y1) * (e2.dot e2 * (y + y1) + 2 * ((c + e1.smul x).dot e2)) = 0 := by linear_combination h2 - h1
    rcases mul_eq_zero.1 h3 with h4 | h4
    · left; linarith
    · right
      simp only [mem_singleton_iff]
      field_simp
      linarith
  · push Not at hne
    have : {y | (x, y) ∈ {x : ℝ × ℝ | (patch c e1 e2 x).dot (patch c e1 e2 x) = ρ}} = ∅ := by
      ext y; simpa using hne y
    rw [this]
    exact Set.finite_empty

/-! ### One lamp -/

open Classical in
/-- The light that a lamp sends along a ray that hits it. -/
noncomputable def lampSent (fs : List Facet) (i : Fin 3) (p : V3 ℝ) (T : Facet) (k : ℕ) (v : V3 ℝ) : ℝ≥0∞ :=
  if winner fs (p, v) = some k then ENNReal.ofReal ((T.emitted v).get i) else 0

theorem measurable_lampSent (fs : List Facet) (i : Fin 3) (p : V3 ℝ) (T : Facet) (k : ℕ) :
    Measurable (lampSent fs i p T k) := by
  unfold lampSent
  have hw : Measurable fun v => winner fs (p, v) := (measurable_winner fs).comp (measurable_const.prodMk measurable_id)
  exact Measurable.ite (hw (t := {some k}) MeasurableSpace.measurableSet_top)
    ((measurable_get i).comp (measurable_emitted T)).ennreal_ofReal measurable_const

theorem lamp_plane (fs : List Facet) (h : ∀ T ∈ fs, T.Proper) (i : Fin 3) (p : V3 ℝ) (T : Facet) (k : ℕ)
    (hk : fs[k]? = some T) (hc : (T.p0 - p).dot T.cross = 0) (v : V3 ℝ) : lampSent fs i p T k v = 0 := by
  unfold lampSent
  rw [if_neg]
  intro hw
  obtain ⟨-, ⟨T2, h2, hm, -⟩, -⟩ := winner_some.1 hw
  rw [hk] at h2
  cases h2
  have := hm.2.2.2.2
  rw [Facet.dist] at this
  dsimp only at this
  rw [hc, zero_div] at this
  norm_num at this

/-- The sampled contribution of a point of the lamp is what the lamp sends along the ray, times the density of the
directions, unless something is in between (and off a circle). -/
theorem share_agree (T : Facet) (hT : T.cross ≠ 0) (I : V3 ℝ) {i : Fin 3} (hI : 0 ≤ I.get i) (hg : T.glow = some I)
    (blocked : Blocked) (p n A : V3 ℝ) (hA : 0 ≤ A.get i) (back : ℝ) (hback : 0 < back) (q : V3 ℝ)
    (c : ℝ) (hc : (q - p).dot T.cross = c) (hv : 0 < (q - p).norm)
    (hne : ¬ (q - p).dot (q - p) = (1000 * (c / T.cross.norm)) ^ 2) :
    ENNReal.ofReal 2 * ENNReal.ofReal ((shareAt T I blocked p n A back q).get i) =
      if blocked p ((q - p).smul (1 / (q - p).norm)) ((q - p).norm - 1 / 1000) = true then 0
      else ENNReal.ofReal (A.get i) * (ENNReal.ofReal (1 / Real.pi * (max 0 ((q - p).dot n) * |c| / (q - p).norm ^ 4)) *
        ENNReal.ofReal ((T.emitted ((q - p).smul (1 / (q - p).norm))).get i)) := by
  have hpi := Real.pi_pos
  have hNn := norm_pos_of_ne hT
  have hfr := (frame_spec T hT).2
  have hcos : (-((q - p).smul (1 / (q - p).norm))).dot T.normal = -c / ((q - p).norm * T.cross.norm) := by
    rw [← hc]
    simp only [Facet.normal, V3.dot, V3.smul_x, V3.smul_y, V3.smul_z, V3.neg_x, V3.neg_y, V3.neg_z]
    field_simp
    ring
  have hem : T.emitted ((q - p).smul (1 / (q - p).norm)) =
      if -c / ((q - p).norm * T.cross.norm) < 1 / 1000 then 0 else I := by
    have hz : -(T.frame.toLocal ((q - p).smul (1 / (q - p).norm))).z = -c / ((q - p).norm * T.cross.norm) := by
      rw [← hcos]
      simp only [Frame.toLocal, hfr, V3.dot, V3.neg_x, V3.neg_y, V3.neg_z]
      ring
    unfold Facet.emitted
    rw [hg]
    dsimp only
    rw [hz]
    rfl
  have hnw : n.dot ((q - p).smul (1 / (q - p).norm)) = (q - p).dot n / (q - p).norm := by
    simp only [V3.dot, V3.smul_x, V3.smul_y, V3.smul_z]
    field_simp
  have hvv := norm_sq (q - p)
  have hoff : -c / ((q - p).norm * T.cross.norm) ≠ 1 / 1000 := by
    intro he
    apply hne
    have : (q - p).norm = 1000 * (-(c / T.cross.norm)) := by
      field_simp at he
      field_simp
      linarith
    rw [← hvv, this]
    ring
  have hA2 : triArea T.p0 T.p1 T.p2 = T.cross.norm * (1 / 2) := rfl
  rw [hem]
  unfold shareAt
  dsimp only
  rw [hcos, hnw, hA2]
  by_cases hb : blocked p ((q - p).smul (1 / (q - p).norm)) ((q - p).norm - 1 / 1000) = true
  · rw [if_pos (Or.inl hb), if_pos hb, get_zero, ENNReal.ofReal_zero, mul_zero]
  · rw [if_neg hb]
    by_cases hd : -c / ((q - p).norm * T.cross.norm) ≤ 1 / 1000
    · rw [if_pos (Or.inr (Or.inr (Or.inr hd))), if_pos (lt_of_le_of_ne hd hoff), get_zero, ENNReal.ofReal_zero, mul_zero,
        mul_zero, mul_zero]
    · have hlt : ¬ -c / ((q - p).norm * T.cross.norm) < 1 / 1000 := fun hl => hd hl.le
      rw [if_neg hlt]
      by_cases hn : (q - p).dot n ≤ 0
      · rw [if_pos (Or.inr (Or.inr (Or.inl (div_nonpos_of_nonpos_of_nonneg hn hv.le)))), max_eq_left hn, zero_mul, zero_div,
          mul_zero, get_zero, ENNReal.ofReal_zero, zero_mul, mul_zero, mul_zero]
      · have hn' := not_le.1 hn
        have hcn : c < 0 := by
          by_contra hcn
          have : -c / ((q - p).norm * T.cross.norm) ≤ 0 :=
            div_nonpos_of_nonpos_of_nonneg (by linarith) (by positivity)
          linarith
        rw [if_neg, max_eq_right hn'.le, abs_of_neg hcn, get_smul, get_mul, ← ENNReal.ofReal_mul (by norm_num),
          ← ENNReal.ofReal_mul, ← ENNReal.ofReal_mul hA]
        · congr 1
          field_simp
        · have : 0 < -c := by linarith
          positivity
        · push Not
          refine ⟨by simpa using hb, hback, div_pos hn' hv, not_le.1 hd⟩

theorem lamp_integral (fs : List Facet) (h : ∀ T ∈ fs, T.Proper) (hcl : LampsClear fs) (j k : ℕ) (T T' : Facet)
    (I : V3 ℝ) (hk : fs[k]? = some T) (hj : fs[j]? = some T') (hjk : j ≠ k) (hg : T.glow = some I) (p : V3 ℝ)
    (hp : T'.Holds p) (f : Frame) (hf : f.Orthonormal) (A : V3 ℝ) (hA : NonNeg A) (back : ℝ) (hback : 0 < back)
    (i : Fin 3) :
    ∫⁻ q, ENNReal.ofReal ((lampShare T I (shadowed fs) p f.n A back (pair (uniTri ⟨q.1, q.2⟩))).get i) ∂square =
      ENNReal.ofReal (A.get i) * ∫⁻ q, lampSent fs i p T k (f.toWorld (cosHemi ⟨q.1, q.2⟩)) ∂square := by
  have hP := h T (List.mem_of_getElem? hk)
  have hT := hP.area
  have hI := (hP.glow I hg).get i
  have hAi := hA.get i
  have hpi := Real.pi_pos
  have hNn := norm_pos_of_ne hT
  have hfr := frame_spec T hT
  have hms : Measurable fun x : ℝ × ℝ => ENNReal.ofReal ((lampShare T I (shadowed fs) p f.n A back x).get i) :=
    ((measurable_get i).comp (measurable_share T I _ (measurable_shadowed fs) measurable_const measurable_const
      measurable_const measurable_const (measurable_hitPoint T))).ennreal_ofReal
  rw [uniTri_lintegral _ hms]
  by_cases hc : (T.p0 - p).dot T.cross = 0
  · -- the point lies in the plane of the lamp
    simp only [lamp_plane fs h i p T k hk hc, lintegral_zero, mul_zero]
    have hz : ∀ x : ℝ × ℝ, lampShare T I (shadowed fs) p f.n A back x = 0 := by
      intro x
      unfold lampShare shareAt
      dsimp only
      rw [if_pos]
      right; right; right
      have h1 : (hitPoint T.p0 T.p1 T.p2 x.1 x.2 - p).dot T.cross = 0 := by
        rw [← hc, hitPoint_eq]
        simp only [Facet.cross, V3.cross, V3.dot, V3.add_x, V3.add_y, V3.add_z, V3.smul_x, V3.smul_y, V3.smul_z, V3.sub_x,
          V3.sub_y, V3.sub_z]
        ring
      have h2 : ∀ (v : V3 ℝ) (s : ℝ), v.dot T.cross = 0 → (-(v.smul s)).dot T.normal = 0 := by
        intro v s hv
        have : (-(v.smul s)).dot T.normal = -(s * (1 / T.cross.norm) * v.dot T.cross) := by
          simp only [Facet.normal, V3.dot, V3.smul_x, V3.smul_y, V3.smul_z, V3.neg_x, V3.neg_y, V3.neg_z]
          ring
        rw [this, hv]; ring
      rw [h2 _ _ h1]
      norm_num
    simp only [hz, get_zero, ENNReal.ofReal_zero, mul_zero, lintegral_zero]
  · have hN : (T.p1 - T.p0).cross (T.p2 - T.p0) = T.cross := rfl
    have hnus := nusselt f hf (T.p0 - p) (T.p1 - T.p0) (T.p2 - T.p0) hc closedTri measurableSet_closedTri
      (lampSent fs i p T k) (measurable_lampSent fs i p T k) ?_
    · rw [hnus, setLIntegral_congr triangle_ae, ← lintegral_const_mul]
      · -- off the circle the two integrands agree
        have he2 : T.p2 - T.p0 ≠ 0 := by
          intro e
          apply hT
          rw [Facet.cross, e]
          ext <;> simp [V3.cross]
        have hnull := circle_null (T.p0 - p) (T.p1 - T.p0) (T.p2 - T.p0) he2
          ((1000 * ((T.p0 - p).dot T.cross / T.cross.norm)) ^ 2)
        refine lintegral_congr_ae ?_
        rw [Filter.EventuallyEq, ae_restrict_iff' measurableSet_triangle]
        have hae : ∀ᵐ x : ℝ × ℝ, ¬ (patch (T.p0 - p) (T.p1 - T.p0) (T.p2 - T.p0) x).dot
            (patch (T.p0 - p) (T.p1 - T.p0) (T.p2 - T.p0) x) = (1000 * ((T.p0 - p).dot T.cross / T.cross.norm)) ^ 2 :=
          measure_eq_zero_iff_ae_notMem.1 hnull
        filter_upwards [hae] with x hx hxt
        obtain ⟨hx1, hx2, hx3⟩ := hxt
        rw [uniTriPdf, if_neg (by dsimp only; linarith), if_neg (by dsimp only; linarith)]
        rw [patch_eq] at hx ⊢
        rw [hN]
        have hvis := visible fs h hcl j k T T' hk hj hjk (by rw [hg]; rfl) p hp x.1 x.2 hx1.le hx2.le hx3.le
          (hitPoint T.p0 T.p1 T.p2 x.1 x.2 - p) rfl hc
        obtain ⟨hvN, hvn, -, -, -⟩ := toward T hT p x.1 x.2 (hitPoint T.p0 T.p1 T.p2 x.1 x.2 - p) rfl hc
        unfold lampShare lampSent
        rw [share_agree T hT I hI hg (shadowed fs) p f.n A hAi back hback (hitPoint T.p0 T.p1 T.p2 x.1 x.2)
          ((T.p0 - p).dot T.cross) hvN hvn hx]
        by_cases hw : winner fs (p, (hitPoint T.p0 T.p1 T.p2 x.1 x.2 - p).smul
            (1 / (hitPoint T.p0 T.p1 T.p2 x.1 x.2 - p).norm)) = some k
        · rw [if_pos hw, if_neg (hvis.1 hw)]
        · rw [if_neg hw, if_pos (not_not.1 fun hs => hw (hvis.2 hs)), mul_zero, mul_zero]
      · have hmp := measurable_patch (T.p0 - p) (T.p1 - T.p0) (T.p2 - T.p0)
        have hmn := measurable_norm hmp
        have hmd : Measurable fun x => (patch (T.p0 - p) (T.p1 - T.p0) (T.p2 - T.p0) x).dot f.n :=
          measurable_dot hmp measurable_const
        exact (measurable_const.mul (((measurable_const.max hmd).mul measurable_const).div
          (hmn.pow_const 4))).ennreal_ofReal.mul ((measurable_lampSent fs i p T k).comp
            (measurable_V3smul hmp (measurable_const.div hmn)))
    · intro v hvn hne
      have hw : winner fs (p, v) = some k := by
        by_contra hw
        exact hne (by unfold lampSent; rw [if_neg hw])
      obtain ⟨-, ⟨T2, h2, hm, -⟩, -⟩ := winner_some.1 hw
      rw [hk] at h2
      cases h2
      have hpt := meets_point T hT (p, v) hm
      refine ⟨T.coords (p, v), ⟨hm.2.1, hm.2.2.1, hm.2.2.2.1⟩, T.dist (p, v), by linarith [hm.2.2.2.2], ?_⟩
      rw [patch_eq, ← hpt]
      ext <;> simp

end Feign.Integrators
