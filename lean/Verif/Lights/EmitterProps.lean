import Verif.Lights.EmitterLemmas
import Verif.Lights.TriIntegral
import Mathlib.Tactic.NormNum
import Mathlib.Tactic.FieldSimp

/-!
# C83: what lights answer to a direct light request

Point light: unit direction towards the light, inverse square falloff. Spot light: the cone, right for a unit
direction only, no falloff. Directional light: the given direction, of any length. Area light: right average for a mesh
of one triangle; with more triangles only the first one is used, with points off the light.
-/

set_option linter.unusedSectionVars false
set_option linter.unusedSimpArgs false
set_option linter.unusedVariables false

namespace Feign.Lights

open Feign.Sampling Feign.Shapes Feign.Warp MeasureTheory Set

/-! ## Point lights -/

/-- A point light is found in the unit direction from `p` to the light, at its distance, with the power spread evenly
over the sphere of that radius. -/
theorem point_light (I pos p : V3 ℝ) (u : V2 ℝ) (hp : pos ≠ p) :
    ∃ s d, (Light.point I pos).sampleNee p u = .ok (some s) ∧ 0 < d ∧ s.wi.sqrNorm = 1 ∧ p + s.wi.smul d = pos ∧
      s.sqrDist = some (d ^ 2) ∧ s.pdf = 1 ∧ s.value.smul (4 * Real.pi * d ^ 2) = I := by
  obtain ⟨hn, e1, e2, e3⟩ := normalized_sub p pos hp
  refine ⟨⟨(pos - p).smul (1 / (pos - p).norm), some (pos - p).sqrNorm,
    (I.smul (1 / (pos - p).sqrNorm)).smul (1 / (4 * Real.pi)), 1⟩, (pos - p).norm, ?_, hn, e2, ?_, ?_, rfl, ?_⟩
  · simp only [Light.sampleNee, e1, Option.map_some]
  · ext <;> simp only [V3.add_x, V3.add_y, V3.add_z, V3.smul_x, V3.smul_y, V3.smul_z, V3.sub_x, V3.sub_y, V3.sub_z] <;>
      field_simp <;> ring
  · rw [e3]
  · have hpi := Real.pi_pos
    simp only [e3]
    ext <;> simp only [V3.smul_x, V3.smul_y, V3.smul_z] <;> field_simp

/-- At the position of the light itself nothing is a number. -/
theorem point_light_at_light (I pos : V3 ℝ) (u : V2 ℝ) : (Light.point I pos).sampleNee pos u = .ok none := by
  have : (pos - pos).normalized = none := by
    rw [V3.normalized_eq_none]
    ext <;> simp [V3.sub_x, V3.sub_y, V3.sub_z] <;> rfl
  simp only [Light.sampleNee, this, Option.map_none]

/-- Non-vacuity: a light two units above. -/
example : ∃ s, (Light.point ⟨16, 16, 16⟩ ⟨0, 0, 2⟩).sampleNee ⟨0, 0, 0⟩ ⟨0, 0⟩ = .ok (some s) ∧
    s.value.x * Real.pi = 1 := by
  obtain ⟨s, d, h, hd, h1, h2, h3, -, h4⟩ := point_light ⟨16, 16, 16⟩ ⟨0, 0, 2⟩ ⟨0, 0, 0⟩ ⟨0, 0⟩ (by simp)
  refine ⟨s, h, ?_⟩
  have hx := congrArg V3.x h2
  have hy := congrArg V3.y h2
  have hz := congrArg V3.z h2
  have hv := congrArg V3.x h4
  simp only [V3.add_x, V3.add_y, V3.add_z, V3.smul_x, V3.smul_y, V3.smul_z, V3.sqrNorm] at hx hy hz hv h1
  have : d ^ 2 = 4 := by
    have : d ^ 2 * (s.wi.x * s.wi.x + s.wi.y * s.wi.y + s.wi.z * s.wi.z) =
      (0 + s.wi.x * d) ^ 2 + (0 + s.wi.y * d) ^ 2 + (0 + s.wi.z * d) ^ 2 := by ring
    rw [h1, hx, hy, hz] at this
    linarith
  rw [this] at hv
  linarith

/-! ## Spot lights -/

/-- The point `p` lies strictly inside the cone with tip `pos`, axis `dir` and half angle `degrees`. -/
def InCone (pos dir : V3 ℝ) (degrees : ℝ) (p : V3 ℝ) : Prop :=
  Real.cos (degrees * (Real.pi / 180)) * (dir.norm * (p - pos).norm) < (p - pos).dot dir

/-- The sample of a spot light. -/
theorem spot_sample (pos dir radiance p : V3 ℝ) (degrees : ℝ) (u : V2 ℝ) (hp : pos ≠ p) :
    ∃ s d, (Light.newSpot pos dir radiance degrees).sampleNee p u = .ok (some s) ∧ 0 < d ∧ s.wi.sqrNorm = 1 ∧
      p + s.wi.smul d = pos ∧ s.pdf = 1 ∧ s.sqrDist = none ∧
      (Real.cos (degrees * (Real.pi / 180)) * (p - pos).norm < (p - pos).dot dir → s.value = radiance) ∧
      (¬ Real.cos (degrees * (Real.pi / 180)) * (p - pos).norm < (p - pos).dot dir → s.value = 0) := by
  obtain ⟨hn, e1, e2, e3⟩ := normalized_sub p pos hp
  have hsym : (p - pos).norm = (pos - p).norm := by
    unfold V3.norm
    congr 1
    simp only [V3.sub_x, V3.sub_y, V3.sub_z]
    ring
  have hdot : (-((pos - p).smul (1 / (pos - p).norm))).dot dir = (p - pos).dot dir / (pos - p).norm := by
    simp only [V3.dot, V3.neg_x, V3.neg_y, V3.neg_z, V3.smul_x, V3.smul_y, V3.smul_z, V3.sub_x, V3.sub_y, V3.sub_z]
    field_simp
    ring
  refine ⟨⟨(pos - p).smul (1 / (pos - p).norm), none,
    if (-((pos - p).smul (1 / (pos - p).norm))).dot dir > Real.cos (degrees * (Real.pi / 180)) then radiance else 0, 1⟩,
    (pos - p).norm, ?_, hn, e2, ?_, rfl, rfl, ?_, ?_⟩
  · simp only [Light.newSpot, Light.sampleNee, e1, Option.map_some]
  · ext <;> simp only [V3.add_x, V3.add_y, V3.add_z, V3.smul_x, V3.smul_y, V3.smul_z, V3.sub_x, V3.sub_y, V3.sub_z] <;>
      field_simp <;> ring
  · intro h
    simp only [hdot, gt_iff_lt]
    rw [if_pos]
    rw [lt_div_iff₀ hn, ← hsym]
    exact h
  · intro h
    simp only [hdot, gt_iff_lt]
    rw [if_neg]
    rw [lt_div_iff₀ hn, ← hsym]
    exact h

/-- **Partial.** A spot light given with a unit direction lights exactly the points inside its cone.
Missing: directions of other lengths (`spot_cone_refuted`); the given direction is never normalised. -/
theorem spot_cone_partial (pos dir radiance p : V3 ℝ) (degrees : ℝ) (u : V2 ℝ) (hp : pos ≠ p)
    (hd : dir.sqrNorm = 1) :
    ∃ s, (Light.newSpot pos dir radiance degrees).sampleNee p u = .ok (some s) ∧
      (InCone pos dir degrees p → s.value = radiance) ∧ (¬ InCone pos dir degrees p → s.value = 0) := by
  obtain ⟨s, d, h, -, -, -, -, -, h1, h2⟩ := spot_sample pos dir radiance p degrees u hp
  have hn : dir.norm = 1 := by
    have := V3.norm_sq dir
    rw [hd] at this
    nlinarith [V3.norm_nonneg dir]
  refine ⟨s, h, fun hc => h1 ?_, fun hc => h2 fun hc' => hc ?_⟩
  · unfold InCone at hc; rwa [hn, one_mul] at hc
  · unfold InCone; rwa [hn, one_mul]

/-- A spot light of half angle 60 degrees given with a direction of length 2 lights a point that is outside of its
cone. -/
theorem spot_cone_refuted :
    ∃ (pos dir p : V3 ℝ) (s : LightSample), ¬ InCone pos dir 60 p ∧
      (Light.newSpot pos dir ⟨1, 1, 1⟩ 60).sampleNee p ⟨0, 0⟩ = .ok (some s) ∧ s.value = ⟨1, 1, 1⟩ := by
  have hc : Real.cos (60 * (Real.pi / 180)) = 1 / 2 := by
    rw [show (60 : ℝ) * (Real.pi / 180) = Real.pi / 3 by ring, Real.cos_pi_div_three]
  have hne : (⟨0, 0, 0⟩ : V3 ℝ) ≠ ⟨12, 0, 5⟩ := by simp
  have hnorm : ((⟨12, 0, 5⟩ : V3 ℝ) - ⟨0, 0, 0⟩).norm = 13 := by
    unfold V3.norm
    simp only [V3.sub_x, V3.sub_y, V3.sub_z]
    rw [show ((12 : ℝ) - 0) * (12 - 0) + (0 - 0) * (0 - 0) + (5 - 0) * (5 - 0) = 13 ^ 2 by norm_num]
    exact Real.sqrt_sq (by norm_num)
  have hdn : (⟨0, 0, 2⟩ : V3 ℝ).norm = 2 := by
    unfold V3.norm
    rw [show (0 : ℝ) * 0 + 0 * 0 + 2 * 2 = 2 ^ 2 by norm_num]
    exact Real.sqrt_sq (by norm_num)
  obtain ⟨s, d, h, -, -, -, -, -, h1, -⟩ := spot_sample ⟨0, 0, 0⟩ ⟨0, 0, 2⟩ ⟨1, 1, 1⟩ ⟨12, 0, 5⟩ 60 ⟨0, 0⟩ hne
  refine ⟨⟨0, 0, 0⟩, ⟨0, 0, 2⟩, ⟨12, 0, 5⟩, s, ?_, h, h1 ?_⟩
  · unfold InCone
    rw [hc, hnorm, hdn]
    simp only [V3.dot, V3.sub_x, V3.sub_y, V3.sub_z]
    norm_num
  · rw [hc, hnorm]
    simp only [V3.dot, V3.sub_x, V3.sub_y, V3.sub_z]
    norm_num

/-- The light of a spot light does not weaken with distance: two points in the same direction from it get the same
value. (A point light gives a quarter at twice the distance, `point_light`.) -/
theorem spot_no_falloff (pos dir radiance p : V3 ℝ) (degrees k : ℝ) (u u' : V2 ℝ) (hp : pos ≠ p) (hk : 0 < k) :
    ∃ s s', (Light.newSpot pos dir radiance degrees).sampleNee p u = .ok (some s) ∧
      (Light.newSpot pos dir radiance degrees).sampleNee (pos + (p - pos).smul k) u' = .ok (some s') ∧
      s.value = s'.value := by
  have hpk : pos ≠ pos + (p - pos).smul k := by
    intro e
    apply hp
    have h1 := congrArg V3.x e
    have h2 := congrArg V3.y e
    have h3 := congrArg V3.z e
    simp only [V3.add_x, V3.add_y, V3.add_z, V3.smul_x, V3.smul_y, V3.smul_z, V3.sub_x, V3.sub_y, V3.sub_z] at h1 h2 h3
    ext
    · have : (p.x - pos.x) * k = 0 := by linarith
      rcases mul_eq_zero.mp this with h | h <;> linarith
    · have : (p.y - pos.y) * k = 0 := by linarith
      rcases mul_eq_zero.mp this with h | h <;> linarith
    · have : (p.z - pos.z) * k = 0 := by linarith
      rcases mul_eq_zero.mp this with h | h <;> linarith
  obtain ⟨s, d, h, -, -, -, -, -, h1, h2⟩ := spot_sample pos dir radiance p degrees u hp
  obtain ⟨s', d', h', -, -, -, -, -, h1', h2'⟩ :=
    spot_sample pos dir radiance (pos + (p - pos).smul k) degrees u' hpk
  refine ⟨s, s', h, h', ?_⟩
  have hsub : pos + (p - pos).smul k - pos = (p - pos).smul k := by
    ext <;> simp only [V3.add_x, V3.add_y, V3.add_z, V3.smul_x, V3.smul_y, V3.smul_z, V3.sub_x, V3.sub_y, V3.sub_z] <;>
      ring
  have hnorm : ((p - pos).smul k).norm = (p - pos).norm * k := by
    unfold V3.norm
    simp only [V3.smul_x, V3.smul_y, V3.smul_z]
    rw [show (p - pos).x * k * ((p - pos).x * k) + (p - pos).y * k * ((p - pos).y * k) +
      (p - pos).z * k * ((p - pos).z * k) =
      ((p - pos).x * (p - pos).x + (p - pos).y * (p - pos).y + (p - pos).z * (p - pos).z) * k ^ 2 by ring,
      Real.sqrt_mul' _ (sq_nonneg k), Real.sqrt_sq hk.le]
  have hdot : ((p - pos).smul k).dot dir = (p - pos).dot dir * k := by
    simp only [V3.dot, V3.smul_x, V3.smul_y, V3.smul_z]
    ring
  rw [hsub, hnorm, hdot] at h1' h2'
  by_cases hc : Real.cos (degrees * (Real.pi / 180)) * (p - pos).norm < (p - pos).dot dir
  · rw [h1 hc, h1' (by nlinarith)]
  · rw [h2 hc, h2' (by intro hh; apply hc; nlinarith)]

/-- Falloff with the square of the distance fails for spot lights. -/
theorem spot_falloff_refuted :
    ∃ (pos dir p p' : V3 ℝ) (s s' : LightSample), (p' - pos) = (p - pos).smul 2 ∧
      (Light.newSpot pos dir ⟨1, 1, 1⟩ 60).sampleNee p ⟨0, 0⟩ = .ok (some s) ∧
      (Light.newSpot pos dir ⟨1, 1, 1⟩ 60).sampleNee p' ⟨0, 0⟩ = .ok (some s') ∧
      s.value = ⟨1, 1, 1⟩ ∧ s'.value ≠ s.value.smul (1 / 4) := by
  have hc : Real.cos (60 * (Real.pi / 180)) = 1 / 2 := by
    rw [show (60 : ℝ) * (Real.pi / 180) = Real.pi / 3 by ring, Real.cos_pi_div_three]
  have hne : (⟨0, 0, 0⟩ : V3 ℝ) ≠ ⟨0, 0, 1⟩ := by simp
  obtain ⟨s, s', h, h', e⟩ := spot_no_falloff ⟨0, 0, 0⟩ ⟨0, 0, 1⟩ ⟨1, 1, 1⟩ ⟨0, 0, 1⟩ 60 2 ⟨0, 0⟩ ⟨0, 0⟩ hne (by norm_num)
  obtain ⟨t, ht, h1, -⟩ := spot_cone_partial ⟨0, 0, 0⟩ ⟨0, 0, 1⟩ ⟨1, 1, 1⟩ ⟨0, 0, 1⟩ 60 ⟨0, 0⟩ hne (by norm_num [V3.sqrNorm])
  rw [h] at ht
  obtain rfl := Option.some.inj (Res.ok.inj ht)
  have hin : InCone ⟨0, 0, 0⟩ ⟨0, 0, 1⟩ 60 ⟨0, 0, 1⟩ := by
    unfold InCone V3.norm
    rw [hc]
    simp only [V3.dot, V3.sub_x, V3.sub_y, V3.sub_z]
    norm_num
  refine ⟨⟨0, 0, 0⟩, ⟨0, 0, 1⟩, ⟨0, 0, 1⟩, _, s, s', ?_, h, h', h1 hin, ?_⟩
  · ext <;> simp only [V3.add_x, V3.add_y, V3.add_z, V3.smul_x, V3.smul_y, V3.smul_z, V3.sub_x, V3.sub_y, V3.sub_z] <;>
      ring
  · rw [← e, h1 hin]
    intro hh
    have := congrArg V3.x hh
    simp only [V3.smul_x] at this
    norm_num at this

/-! ## Directional lights -/

/-- **Partial.** A directional light given with a unit direction is found in that direction with its radiance, from
everywhere, and a ray in that direction sees that radiance. Missing: directions of other lengths
(`directional_unit_refuted`). -/
theorem directional_partial (dir radiance p : V3 ℝ) (u : V2 ℝ) (hd : dir.sqrNorm = 1) :
    ∃ s, (Light.newDirectional dir radiance).sampleNee p u = .ok (some s) ∧ s.wi = dir ∧ s.wi.sqrNorm = 1 ∧
      s.value = radiance ∧ s.pdf = 1 ∧ (Light.newDirectional dir radiance).evaluate s.wi = .ok s.value := by
  refine ⟨_, rfl, rfl, hd, rfl, rfl, ?_⟩
  simp only [Light.newDirectional, Light.evaluate]
  rw [if_pos]
  simp only [V3.sqrNorm, V3.sub_x, V3.sub_y, V3.sub_z, sub_self, mul_zero, add_zero]
  exact eps_pos

/-- A directional light given with a direction of length 2 is sampled with a direction of length 2: the cosine at the
surface is doubled. -/
theorem directional_unit_refuted :
    ∃ (dir radiance p : V3 ℝ) (s : LightSample), dir ≠ 0 ∧
      (Light.newDirectional dir radiance).sampleNee p ⟨0, 0⟩ = .ok (some s) ∧ s.wi.norm = 2 := by
  refine ⟨⟨0, 0, 2⟩, ⟨1, 1, 1⟩, ⟨0, 0, 0⟩, _, ?_, rfl, ?_⟩
  · intro e
    have := congrArg V3.z e
    exact two_ne_zero this
  · show (⟨0, 0, 2⟩ : V3 ℝ).norm = 2
    unfold V3.norm
    rw [show (0 : ℝ) * 0 + 0 * 0 + 2 * 2 = 2 ^ 2 by norm_num]
    exact Real.sqrt_sq (by norm_num)

/-! ## Directional mesh lights -/

/-- A directional mesh light shines in one direction only, but a ray that hits it from the front sees its full
intensity from every direction. -/
theorem dirMesh_direction_refuted :
    ∃ (dir intensity wi : V3 ℝ) (inst : ℕ), dir.sqrNorm = 1 ∧ wi.sqrNorm = 1 ∧ intensity ≠ 0 ∧
      (∀ p u, (Light.newDirMesh dir intensity inst).sampleNee p u = .ok (some ⟨-dir, none, intensity, 1⟩)) ∧
      wi ≠ dir ∧ wi ≠ -dir ∧ (Light.newDirMesh dir intensity inst).evaluate wi = .ok intensity := by
  refine ⟨⟨1, 0, 0⟩, ⟨1, 1, 1⟩, ⟨0, 0, -1⟩, 0, by norm_num [V3.sqrNorm], by norm_num [V3.sqrNorm], ?_,
    fun _ _ => rfl, ?_, ?_, ?_⟩
  · intro e; exact one_ne_zero (congrArg V3.x e)
  · intro e; exact zero_ne_one (congrArg V3.x e)
  · intro e
    have := congrArg V3.x e
    simp only [V3.neg_x] at this
    norm_num at this
  · simp only [Light.newDirMesh, Light.evaluate]
    rw [if_neg]
    unfold eps
    norm_num

/-- **Partial.** Seen from behind, or edge on, a directional mesh light is black. Missing: it should also be black away
from its direction (`dirMesh_direction_refuted`). -/
theorem dirMesh_front_partial (dir intensity wi : V3 ℝ) (inst : ℕ) :
    (-wi.z < eps → (Light.newDirMesh dir intensity inst).evaluate wi = .ok 0) ∧
    (eps ≤ -wi.z → (Light.newDirMesh dir intensity inst).evaluate wi = .ok intensity) := by
  simp only [Light.newDirMesh, Light.evaluate]
  exact ⟨fun h => by rw [if_pos h], fun h => by rw [if_neg (not_lt.mpr h)]⟩

/-! ## Area lights -/

/-- Every sample of an area light is computed from its first triangle, whatever the number of triangles. -/
theorem mesh_first_triangle (intensity p p0 p1 p2 n : V3 ℝ) (inst : ℕ) (m : Mesh ℝ) (f : Face) (fs : List Face)
    (areas : List ℝ) (u : V2 ℝ) (hm : m.tris = f :: fs) (ha : faceAreas m m.tris = .ok areas)
    (hc : m.corners f = .ok (p0, p1, p2)) (h0 : 0 < triArea p0 p1 p2) (hu : u.x ≤ 1) :
    ∃ l, Light.newMesh intensity inst m = .ok l ∧
      (m.shadingNormal f (uniTri ⟨u.x / (triArea p0 p1 p2 / areas.sum), u.y⟩).x
        (uniTri ⟨u.x / (triArea p0 p1 p2 / areas.sum), u.y⟩).y = .ok (some n) →
      l.sampleNee p u = .ok (areaSample intensity p
        (hitPoint p0 p1 p2 (uniTri ⟨u.x / (triArea p0 p1 p2 / areas.sum), u.y⟩).x
          (uniTri ⟨u.x / (triArea p0 p1 p2 / areas.sum), u.y⟩).y) n
        (1 / triArea p0 p1 p2 * (triArea p0 p1 p2 / areas.sum)))) := by
  have hnn := faceAreas_nonneg m _ _ ha
  have hfa := ha
  rw [hm] at hfa
  simp only [faceAreas, hc, Res.bind_ok] at hfa
  obtain ⟨rest, hr, he⟩ := Res.bind_eq_ok.mp hfa
  simp only [Res.pure_eq, Res.ok.injEq] at he
  subst he
  have hsum : 0 < (triArea p0 p1 p2 :: rest).sum := by
    rw [List.sum_cons]
    have := List.sum_nonneg (l := rest) fun a h => hnn a (List.mem_cons_of_mem _ h)
    linarith
  obtain ⟨cdf, ht⟩ : ∃ cdf, areaTable (triArea p0 p1 p2 :: rest) = .ok cdf := ⟨_, areaTable_eq _ hsum.ne'⟩
  have hs := area_selection_eq _ hnn hsum (by simp) (by simpa using h0) _ ht u.x hu
  refine ⟨.mesh intensity inst m cdf, ?_, ?_⟩
  · simp only [Light.newMesh, ha, Res.bind_ok, ht, Res.pure_eq]
  · intro hn
    simp only [Light.sampleNee, meshSample]
    rw [hs]
    simp only [Res.bind_ok, List.getElem_cons_zero]
    rw [hm]
    simp only [getAt, lt_irrefl, if_false, Int.toNat_zero, List.getElem?_cons_zero, Res.bind_ok, hc]
    rw [hn]
    simp only [Res.bind_ok]
    rw [if_neg h0.ne']
    rfl

/-- If the first triangle has no area, sampling is undefined. -/
theorem mesh_degenerate_first (intensity p : V3 ℝ) (inst : ℕ) (m : Mesh ℝ) (areas : List ℝ) (u : V2 ℝ)
    (ha : faceAreas m m.tris = .ok (0 :: areas)) (hs : 0 < (0 :: areas).sum) (hu : u.x ≤ 1) :
    ∃ l, Light.newMesh intensity inst m = .ok l ∧ (l.sampleNee p u).isUb = true := by
  have hnn := faceAreas_nonneg m _ _ ha
  obtain ⟨cdf, ht⟩ : ∃ cdf, areaTable ((0 : ℝ) :: areas) = .ok cdf := ⟨_, areaTable_eq _ hs.ne'⟩
  have h := area_selection_degenerate_first _ hnn hs (by simp) (by simp) _ ht u.x hu
  refine ⟨.mesh intensity inst m cdf, by simp only [Light.newMesh, ha, Res.bind_ok, ht, Res.pure_eq], ?_⟩
  simp only [Light.sampleNee, meshSample]
  match hx : sampleReusePdf cdf u.x, h with
  | .ub w, _ => rfl

/-- Part of the direct light estimate from the random numbers `u`: the sampled value times everything else that depends
on the direction, the value and the distance (`F`: visibility, cosine at the surface, material), divided by the
density. `none`: no such number. -/
noncomputable def estimate (l : Light) (p : V3 ℝ) (F : V3 ℝ → V3 ℝ → ℝ → ℝ) (u : V2 ℝ) : Option ℝ :=
  match l.sampleNee p u with
  | .ok (some s) => s.sqrDist.map fun d2 => if s.pdf = 0 then 0 else F s.wi s.value d2 / s.pdf
  | _ => none

/-- What the light at the point `q` of a light with normal `n` there contributes per area: nothing if the cosine at the
light is at most `Epsilon`, else cosine over squared distance times the rest. -/
noncomputable def perArea (intensity p q n : V3 ℝ) (F : V3 ℝ → V3 ℝ → ℝ → ℝ) : ℝ :=
  if (p - q).dot n / (q - p).norm ≤ eps then 0
  else F ((q - p).smul (1 / (q - p).norm)) intensity ((q - p).norm ^ 2) *
    ((p - q).dot n / (q - p).norm) / (q - p).norm ^ 2

/-- The integral of `h` over the triangle with corners `p0`, `p1`, `p2`: `h` gets the two coordinates, and
`|(p1 - p0) × (p2 - p0)|` is the area per unit of the coordinates. -/
noncomputable def triIntegral (p0 p1 p2 : V3 ℝ) (h : ℝ → ℝ → ℝ) : ℝ :=
  ∫ a in Ioo (0 : ℝ) 1, ∫ b in Ioo (0 : ℝ) (1 - a), h a b * ((p1 - p0).cross (p2 - p0)).norm

/-- **Partial.** For a light of one triangle, seen from a point off the triangle, the average of the estimate over the
random numbers is the integral over the triangle of what it contributes per area, for all other factors `F`.
Missing: lights of more triangles (`mesh_on_light_refuted`, `mesh_first_triangle`). -/
theorem mesh_average_partial (intensity p p0 p1 p2 : V3 ℝ) (inst : ℕ) (m : Mesh ℝ) (f : Face)
    (nrm : ℝ → ℝ → V3 ℝ) (F : V3 ℝ → V3 ℝ → ℝ → ℝ) (hm : m.tris = [f]) (hc : m.corners f = .ok (p0, p1, p2))
    (h0 : 0 < triArea p0 p1 p2)
    (hn : ∀ a b, 0 < a → 0 < b → a + b < 1 → m.shadingNormal f a b = .ok (some (nrm a b)))
    (hp : ∀ a b, 0 < a → 0 < b → a + b < 1 → hitPoint p0 p1 p2 a b ≠ p) :
    ∃ l, Light.newMesh intensity inst m = .ok l ∧
      ∃ e : V2 ℝ → ℝ, (∀ x y, 0 < x → x < 1 → 0 < y → y < 1 → estimate l p F ⟨x, y⟩ = some (e ⟨x, y⟩)) ∧
        ∫ x in Ioo (0 : ℝ) 1, ∫ y in Ioo (0 : ℝ) 1, e ⟨x, y⟩ =
          triIntegral p0 p1 p2 fun a b => perArea intensity p (hitPoint p0 p1 p2 a b) (nrm a b) F := by
  have hfa : faceAreas m m.tris = .ok [triArea p0 p1 p2] := by
    rw [hm]; simp only [faceAreas, hc, Res.bind_ok, Res.pure_eq]
  have hsum : [triArea p0 p1 p2].sum = triArea p0 p1 p2 := by simp
  have hq : triArea p0 p1 p2 / triArea p0 p1 p2 = 1 := div_self h0.ne'
  obtain ⟨l, hl, -⟩ := mesh_first_triangle intensity p p0 p1 p2 0 inst m f [] _ ⟨0, 0⟩ hm hfa hc h0 (by norm_num)
  refine ⟨l, hl, fun u => triArea p0 p1 p2 *
    perArea intensity p (hitPoint p0 p1 p2 (uniTri u).x (uniTri u).y) (nrm (uniTri u).x (uniTri u).y) F, ?_, ?_⟩
  · intro x y hx0 hx1 hy0 hy1
    have hr0 := Real.sqrt_pos.mpr hx0
    have hr1 : Real.sqrt x < 1 := by rw [Real.sqrt_lt' one_pos]; simpa using hx1
    have ha : 0 < (uniTri ⟨x, y⟩).x := by simp only [uniTri]; linarith
    have hb : 0 < (uniTri ⟨x, y⟩).y := by simp only [uniTri]; positivity
    have hab : (uniTri ⟨x, y⟩).x + (uniTri ⟨x, y⟩).y < 1 := by simp only [uniTri]; nlinarith
    obtain ⟨l', hl', hs⟩ := mesh_first_triangle intensity p p0 p1 p2
      (nrm (uniTri ⟨x, y⟩).x (uniTri ⟨x, y⟩).y) inst m f [] _ ⟨x, y⟩ hm hfa hc h0 hx1.le
    rw [hl] at hl'
    obtain rfl := Res.ok.inj hl'
    rw [hsum, hq, div_one, mul_one] at hs
    have hs := hs (hn _ _ ha hb hab)
    show estimate l p F ⟨x, y⟩ = some (triArea p0 p1 p2 * perArea intensity p
      (hitPoint p0 p1 p2 (uniTri ⟨x, y⟩).x (uniTri ⟨x, y⟩).y) (nrm (uniTri ⟨x, y⟩).x (uniTri ⟨x, y⟩).y) F)
    generalize (uniTri ⟨x, y⟩).x = a at *
    generalize (uniTri ⟨x, y⟩).y = b at *
    have hqp := hp a b ha hb hab
    generalize hitPoint p0 p1 p2 a b = q at *
    generalize nrm a b = n at *
    obtain ⟨hnp, e1, e2, e3⟩ := normalized_sub p q hqp
    have hdot : (-((q - p).smul (1 / (q - p).norm))).dot n = (p - q).dot n / (q - p).norm := by
      simp only [V3.dot, V3.neg_x, V3.neg_y, V3.neg_z, V3.smul_x, V3.smul_y, V3.smul_z, V3.sub_x, V3.sub_y, V3.sub_z]
      field_simp
      ring
    unfold estimate
    rw [hs]
    unfold areaSample perArea
    rw [e1]
    simp only [hdot]
    split_ifs with hcos
    · simp
    · have hcp : 0 < (p - q).dot n / (q - p).norm := lt_trans eps_pos (not_le.mp hcos)
      have hpdf : 1 / triArea p0 p1 p2 * (q - p).sqrNorm / |(p - q).dot n / (q - p).norm| ≠ 0 := by
        rw [e3, abs_of_pos hcp]; positivity
      simp only [Option.map_some, if_neg hpdf]
      rw [abs_of_pos hcp, e3]
      congr 1
      field_simp
  · rw [integral_uniTri (fun v => triArea p0 p1 p2 * perArea intensity p (hitPoint p0 p1 p2 v.x v.y) (nrm v.x v.y) F)]
    unfold triIntegral
    rw [← integral_const_mul]
    apply setIntegral_congr_fun measurableSet_Ioo
    intro a ha
    simp only
    rw [← integral_const_mul]
    apply setIntegral_congr_fun measurableSet_Ioo
    intro b hb
    simp only [triArea]
    ring

/-- A square light of two triangles: there is a random pair for which the sampled point is not on the light. -/
theorem mesh_on_light_refuted :
    ∃ (m : Mesh ℝ) (u : V2 ℝ) (l : Light) (s : LightSample) (d2 : ℝ), 0 ≤ u.x ∧ u.x < 1 ∧ 0 ≤ u.y ∧ u.y < 1 ∧
      (∀ v ∈ m.vs, 0 ≤ v.x ∧ v.x ≤ 1 ∧ 0 ≤ v.y ∧ v.y ≤ 1 ∧ v.z = 0) ∧
      Light.newMesh ⟨1, 1, 1⟩ 0 m = .ok l ∧ l.sampleNee ⟨-1 / 5, 0, 1⟩ u = .ok (some s) ∧ s.sqrDist = some d2 ∧
      ((⟨-1 / 5, 0, 1⟩ : V3 ℝ) + s.wi.smul (Real.sqrt d2)).x < 0 ∧ s.value = ⟨1, 1, 1⟩ ∧ 0 < s.pdf := by
  let f : Face := ⟨![0, 1, 2], ![0, 0, 0], ![0, 0, 0]⟩
  let g : Face := ⟨![0, 2, 3], ![0, 0, 0], ![0, 0, 0]⟩
  let m : Mesh ℝ := ⟨[⟨0, 0, 0⟩, ⟨1, 0, 0⟩, ⟨1, 1, 0⟩, ⟨0, 1, 0⟩], [], [], [f, g]⟩
  have hf : m.corners f = .ok (⟨0, 0, 0⟩, ⟨1, 0, 0⟩, ⟨1, 1, 0⟩) := rfl
  have hg : m.corners g = .ok (⟨0, 0, 0⟩, ⟨1, 1, 0⟩, ⟨0, 1, 0⟩) := rfl
  have e1 : ((⟨1, 0, 0⟩ : V3 ℝ) - ⟨0, 0, 0⟩).cross (⟨1, 1, 0⟩ - ⟨0, 0, 0⟩) = ⟨0, 0, 1⟩ := by
    ext <;> simp [V3.cross, V3.sub_x, V3.sub_y, V3.sub_z]
  have e2 : ((⟨1, 1, 0⟩ : V3 ℝ) - ⟨0, 0, 0⟩).cross (⟨0, 1, 0⟩ - ⟨0, 0, 0⟩) = ⟨0, 0, 1⟩ := by
    ext <;> simp [V3.cross, V3.sub_x, V3.sub_y, V3.sub_z]
  have e3 : (⟨0, 0, 1⟩ : V3 ℝ).norm = 1 := by unfold V3.norm; norm_num
  have af : triArea (⟨0, 0, 0⟩ : V3 ℝ) ⟨1, 0, 0⟩ ⟨1, 1, 0⟩ = 1 / 2 := by unfold triArea; rw [e1, e3]; norm_num
  have ag : triArea (⟨0, 0, 0⟩ : V3 ℝ) ⟨1, 1, 0⟩ ⟨0, 1, 0⟩ = 1 / 2 := by unfold triArea; rw [e2, e3]; norm_num
  have hfa : faceAreas m m.tris = .ok [1 / 2, 1 / 2] := by
    show faceAreas m [f, g] = _
    simp only [faceAreas, hf, hg, Res.bind_ok, Res.pure_eq, af, ag]
  obtain ⟨l, hl, hs⟩ := mesh_first_triangle ⟨1, 1, 1⟩ ⟨-1 / 5, 0, 1⟩ _ _ _ ⟨0, 0, 1⟩ 0 m f [g] _ ⟨18 / 25, 0⟩ rfl hfa hf
    (by rw [af]; norm_num) (by norm_num)
  have hsq : Real.sqrt (36 / 25) = 6 / 5 := by
    rw [show (36 : ℝ) / 25 = (6 / 5) ^ 2 by norm_num]; exact Real.sqrt_sq (by norm_num)
  rw [af] at hs
  have hr : (18 / 25 : ℝ) / (1 / 2 / [1 / 2, 1 / 2].sum) = 36 / 25 := by norm_num
  simp only [hr, uniTri, hsq] at hs
  have hn : m.shadingNormal f (1 - 6 / 5) (0 * (6 / 5)) = .ok (some ⟨0, 0, 1⟩) := by
    unfold Mesh.shadingNormal
    rw [if_neg (by simp [m]), hf]
    simp only [Res.bind_ok, geomNormal, e1, Res.pure_eq]
    unfold V3.normalized
    rw [e3, if_neg one_ne_zero]
    simp
  have hs := hs hn
  have hq : hitPoint (⟨0, 0, 0⟩ : V3 ℝ) ⟨1, 0, 0⟩ ⟨1, 1, 0⟩ (1 - 6 / 5) (0 * (6 / 5)) = ⟨-1 / 5, 0, 0⟩ := by
    ext <;> simp only [hitPoint, V3.add_x, V3.add_y, V3.add_z, V3.smul_x, V3.smul_y, V3.smul_z] <;> norm_num
  rw [hq] at hs
  have hd : (⟨-1 / 5, 0, 0⟩ : V3 ℝ) - ⟨-1 / 5, 0, 1⟩ = ⟨0, 0, -1⟩ := by
    ext <;> simp only [V3.sub_x, V3.sub_y, V3.sub_z] <;> norm_num
  have hnm : (⟨0, 0, -1⟩ : V3 ℝ).norm = 1 := by unfold V3.norm; norm_num
  have hnz : (⟨0, 0, -1⟩ : V3 ℝ).normalized = some ⟨0, 0, -1⟩ := by
    unfold V3.normalized
    rw [hnm, if_neg one_ne_zero]
    simp
  have hsn : (⟨0, 0, -1⟩ : V3 ℝ).sqrNorm = 1 := by norm_num [V3.sqrNorm]
  have hdot : (-(⟨0, 0, -1⟩ : V3 ℝ)).dot ⟨0, 0, 1⟩ = 1 := by
    simp only [V3.dot, V3.neg_x, V3.neg_y, V3.neg_z]; norm_num
  unfold areaSample at hs
  rw [hd, hnz] at hs
  simp only [hdot, hsn] at hs
  rw [if_neg (by unfold eps; norm_num)] at hs
  refine ⟨m, ⟨18 / 25, 0⟩, l, _, 1, by norm_num, by norm_num, le_refl _, one_pos, ?_, hl, hs, rfl, ?_, rfl, ?_⟩
  · simp [m]
  · simp only [Real.sqrt_one, V3.add_x, V3.smul_x]; norm_num
  · simp only [abs_one]; norm_num

/-- A light looks the same hit and sampled: for a direction `w` (unit) reaching the point `q` of the light with normal
`n` at a cosine other than `Epsilon`, the value of the sample is what `evaluate` gives for a ray along `w`, whatever
the other two axes of the local frame there. -/
theorem mesh_emission_consistent (intensity p q s t n : V3 ℝ) (inst : ℕ) (m : Mesh ℝ) (cdf : List ℝ) (pdfArea : ℝ)
    (ls : LightSample) (h : areaSample intensity p q n pdfArea = some ls) (hne : -(ls.wi.dot n) ≠ eps) :
    (Light.mesh intensity inst m cdf).evaluate ((⟨s, t, n⟩ : Frame).toLocal ls.wi) = .ok ls.value := by
  unfold areaSample at h
  split at h
  · simp at h
  · rename_i wi hw
    have hd : (-wi).dot n = -(wi.dot n) := by
      simp only [V3.dot, V3.neg_x, V3.neg_y, V3.neg_z]; ring
    split_ifs at h with hc
    · obtain rfl := Option.some.inj h
      rw [hd] at hc
      exact congrArg Res.ok (if_pos (lt_of_le_of_ne hc hne))
    · obtain rfl := Option.some.inj h
      rw [hd] at hc
      exact congrArg Res.ok (if_neg (not_lt.mpr (not_le.mp hc).le))

/-- Non-vacuity for `mesh_average_partial` and `mesh_emission_consistent`: the triangle below the point `(0, 0, 1)`,
without normals. -/
example : ∃ l, Light.newMesh ⟨1, 1, 1⟩ 0 (⟨[⟨0, 0, 0⟩, ⟨1, 0, 0⟩, ⟨0, 1, 0⟩], [], [],
      [⟨![0, 1, 2], ![0, 0, 0], ![0, 0, 0]⟩]⟩ : Mesh ℝ) = .ok l ∧
    ∃ e : V2 ℝ → ℝ, (∀ x y, 0 < x → x < 1 → 0 < y → y < 1 →
      estimate l ⟨0, 0, 1⟩ (fun w _ _ => -w.z) ⟨x, y⟩ = some (e ⟨x, y⟩)) ∧
      ∫ x in Ioo (0 : ℝ) 1, ∫ y in Ioo (0 : ℝ) 1, e ⟨x, y⟩ =
        triIntegral ⟨0, 0, 0⟩ ⟨1, 0, 0⟩ ⟨0, 1, 0⟩ fun a b =>
          perArea ⟨1, 1, 1⟩ ⟨0, 0, 1⟩ (hitPoint ⟨0, 0, 0⟩ ⟨1, 0, 0⟩ ⟨0, 1, 0⟩ a b) ⟨0, 0, 1⟩ (fun w _ _ => -w.z) := by
  have e1 : ((⟨1, 0, 0⟩ : V3 ℝ) - ⟨0, 0, 0⟩).cross (⟨0, 1, 0⟩ - ⟨0, 0, 0⟩) = ⟨0, 0, 1⟩ := by
    ext <;> simp [V3.cross, V3.sub_x, V3.sub_y, V3.sub_z]
  have e3 : (⟨0, 0, 1⟩ : V3 ℝ).norm = 1 := by unfold V3.norm; norm_num
  refine mesh_average_partial ⟨1, 1, 1⟩ ⟨0, 0, 1⟩ ⟨0, 0, 0⟩ ⟨1, 0, 0⟩ ⟨0, 1, 0⟩ 0 _ ⟨![0, 1, 2], ![0, 0, 0], ![0, 0, 0]⟩
    (fun _ _ => ⟨0, 0, 1⟩) (fun w _ _ => -w.z) rfl rfl ?_ ?_ ?_
  · unfold triArea; rw [e1, e3]; norm_num
  · intro a b _ _ _
    unfold Mesh.shadingNormal
    rw [if_neg (by simp)]
    show Res.ok (geomNormal ⟨0, 0, 0⟩ ⟨1, 0, 0⟩ ⟨0, 1, 0⟩) = _
    simp only [geomNormal, e1]
    unfold V3.normalized
    rw [e3, if_neg one_ne_zero]
    simp
  · intro a b _ _ _ e
    have := congrArg V3.z e
    simp only [hitPoint, V3.add_z, V3.smul_z] at this
    norm_num at this

end Feign.Lights
