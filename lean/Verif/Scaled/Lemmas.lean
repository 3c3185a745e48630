import Verif.Scaled.Spec
import Verif.Moved.SceneLemmas
import Verif.Sdf.ShapeProps
import Verif.Camera.PerspectiveProps
import Verif.Shapes.MeshLemmas
import Verif.Sampling.DiscretePdfLemmas
import Mathlib.Tactic.Ring
import Mathlib.Tactic.Linarith

/-!
# Change of unit: lemmas
-/

set_option linter.unusedSectionVars false

namespace Feign
open V3

theorem smul_sub_smul {K : Type} [CommRing K] (p q : V3 K) (k : K) : p.smul k - q.smul k = (p - q).smul k := by
  ext <;> simp only [sub_x, sub_y, sub_z, smul_x, smul_y, smul_z] <;> ring

theorem sqrNorm_smul (v : V3 ℝ) (k : ℝ) : (v.smul k).sqrNorm = k * k * v.sqrNorm := by
  simp only [sqrNorm, smul_x, smul_y, smul_z]
  ring

/-- A direction does not depend on the unit. -/
theorem normalized_smul (v : V3 ℝ) (k : ℝ) (hk : 0 < k) : (v.smul k).normalized = v.normalized := by
  by_cases h : v = 0
  · subst h
    rw [(normalized_eq_none _).mpr rfl, (normalized_eq_none _).mpr]
    ext <;> simp
  · rw [Camera.normalized_smul_pos v h k hk]
    have h1 := Camera.normalized_smul_pos v h 1 one_pos
    have h2 : v.smul 1 = v := by ext <;> simp
    rw [h2] at h1
    exact h1.symm

namespace Sdf

theorem dist_smul (p q : V3 ℝ) (k : ℝ) (hk : 0 < k) : dist (p.smul k) (q.smul k) = k * dist p q := by
  unfold dist
  rw [smul_sub_smul, Camera.V3.norm_smul, abs_of_pos hk]

/-- A solid has one signed distance only. -/
theorem signed_distance_unique {S : Set (V3 ℝ)} {f g : V3 ℝ → ℝ} (hf : IsSignedDistance S f) (hg : IsSignedDistance S g) :
    f = g := by
  have key : ∀ f g : V3 ℝ → ℝ, IsSignedDistance S f → IsSignedDistance S g → ∀ p, g p ≤ f p := by
    intro f g hf hg p
    by_cases h : 0 < f p
    · obtain ⟨q, hq, he⟩ := hf.outside_attained p h
      rw [← he]
      exact hg.outside_le p q hq
    · push Not at h
      have hg0 : g p ≤ 0 := (hg.inside_iff p).mpr ((hf.inside_iff p).mp h)
      have : -f p ≤ -g p := by
        apply le_of_forall_pos_le_add
        intro e he
        obtain ⟨q, hq, hd⟩ := hg.inside_approached p hg0 e he
        exact (hf.inside_le p q hq).trans hd
      linarith
  funext p
  exact le_antisymm (key g f hg hf p) (key f g hf hg p)

/-- Distances to a solid in the new unit. -/
theorem signed_distance_scaled {S : Set (V3 ℝ)} {f : V3 ℝ → ℝ} (hf : IsSignedDistance S f) (k : ℝ) (hk : 0 < k) :
    IsSignedDistance {q | q.smul (1 / k) ∈ S} (fun p => k * f (p.smul (1 / k))) := by
  have hk' : (0 : ℝ) < 1 / k := by positivity
  have hd : ∀ p q, dist p q = k * dist (p.smul (1 / k)) (q.smul (1 / k)) := by
    intro p q
    rw [dist_smul _ _ _ hk']
    field_simp
  have hin : ∀ q : V3 ℝ, (q.smul k).smul (1 / k) = q := by
    intro q
    rw [Camera.V3.smul_smul, mul_one_div_cancel hk.ne']
    ext <;> simp
  refine ⟨?_, ?_, ?_, ?_, ?_, ?_⟩
  · intro p
    show _ ↔ p.smul (1 / k) ∈ S
    rw [← hf.inside_iff]
    exact ⟨fun h => nonpos_of_mul_nonpos_right h hk, fun h => mul_nonpos_of_nonneg_of_nonpos hk.le h⟩
  · intro p q hq
    rw [hd]
    exact mul_le_mul_of_nonneg_left (hf.outside_le _ _ hq) hk.le
  · intro p hp
    obtain ⟨q, hq, he⟩ := hf.outside_attained _ ((mul_pos_iff_of_pos_left hk).mp hp)
    refine ⟨q.smul k, by simpa only [Set.mem_ofPred_eq, hin] using hq, ?_⟩
    rw [hd, hin, he]
  · intro p q hq
    rw [hd]
    have := mul_le_mul_of_nonneg_left (hf.inside_le (p.smul (1 / k)) _ hq) hk.le
    linarith
  · intro p hp e he
    obtain ⟨q, hq, hle⟩ := hf.inside_approached _ (nonpos_of_mul_nonpos_right hp hk) (e / k) (by positivity)
    refine ⟨q.smul k, by simpa only [Set.mem_ofPred_eq, hin] using hq, ?_⟩
    rw [hd, hin]
    have := mul_le_mul_of_nonneg_left hle hk.le
    have h2 : k * (e / k) = e := by field_simp
    linarith
  · intro p q
    rw [hd, ← mul_sub, abs_mul, abs_of_pos hk]
    exact mul_le_mul_of_nonneg_left (hf.lipschitz _ _) hk.le

theorem smul_back (q : V3 ℝ) (k : ℝ) (hk : 0 < k) : (q.smul (1 / k)).smul k = q := by
  rw [Camera.V3.smul_smul, one_div_mul_cancel hk.ne']
  ext <;> simp

theorem smul_there (q : V3 ℝ) (k : ℝ) (hk : 0 < k) : (q.smul k).smul (1 / k) = q := by
  rw [Camera.V3.smul_smul, mul_one_div_cancel hk.ne']
  ext <;> simp

theorem dot_smul_smul (a b : V3 ℝ) (k l : ℝ) : (a.smul k).dot (b.smul l) = k * l * a.dot b := by
  simp only [dot, smul_x, smul_y, smul_z]
  ring

theorem frustum_scaled (a b : V3 ℝ) (r s k : ℝ) (hk : 0 < k) (q : V3 ℝ) (h : q ∈ frustum a b r s) :
    q.smul k ∈ frustum (a.smul k) (b.smul k) (k * r) (k * s) := by
  obtain ⟨t, w, h0, h1, hw, hn, rfl⟩ := h
  refine ⟨t, w.smul k, h0, h1, ?_, ?_, ?_⟩
  · rw [smul_sub_smul, dot_smul_smul, hw, mul_zero]
  · rw [Camera.V3.norm_smul, abs_of_pos hk]
    have := mul_le_mul_of_nonneg_left hn hk.le
    linarith
  · ext <;> simp only [add_x, add_y, add_z, sub_x, sub_y, sub_z, smul_x, smul_y, smul_z] <;> ring

theorem cylinder_scaled (a b : V3 ℝ) (r k : ℝ) (hk : 0 < k) (q : V3 ℝ) (h : q ∈ cylinderSet a b r) :
    q.smul k ∈ cylinderSet (a.smul k) (b.smul k) (k * r) := by
  obtain ⟨t, w, h0, h1, hw, hn, rfl⟩ := h
  refine ⟨t, w.smul k, h0, h1, ?_, ?_, ?_⟩
  · rw [smul_sub_smul, dot_smul_smul, hw, mul_zero]
  · rw [Camera.V3.norm_smul, abs_of_pos hk]
    exact mul_le_mul_of_nonneg_left hn hk.le
  · ext <;> simp only [add_x, add_y, add_z, sub_x, sub_y, sub_z, smul_x, smul_y, smul_z] <;> ring

theorem Shape.scaled_back (s : Shape) (k : ℝ) (hk : 0 < k) : (s.scaled k).scaled (1 / k) = s := by
  have h : ∀ r, 1 / k * (k * r) = r := fun r => by field_simp
  cases s <;> simp only [Shape.scaled, smul_there _ _ hk, h]

theorem solid_scaled_sub (s : Shape) (k : ℝ) (hk : 0 < k) (q : V3 ℝ) (h : q ∈ s.solid) : q.smul k ∈ (s.scaled k).solid := by
  cases s with
  | sphere c r =>
    show dist (q.smul k) (c.smul k) ≤ k * r
    rw [dist_smul _ _ _ hk]
    exact mul_le_mul_of_nonneg_left h hk.le
  | plane c n =>
    show (q.smul k - c.smul k).dot n = 0
    have h' : (q - c).dot n = 0 := h
    have e : (q.smul k - c.smul k).dot n = k * (q - c).dot n := by
      simp only [dot, sub_x, sub_y, sub_z, smul_x, smul_y, smul_z]
      ring
    rw [e, h', mul_zero]
  | box t b =>
    obtain ⟨⟨h1, h2, h3⟩, h4, h5, h6⟩ := h
    refine ⟨⟨?_, ?_, ?_⟩, ?_, ?_, ?_⟩ <;> exact mul_le_mul_of_nonneg_right ‹_› hk.le
  | cylinder a b r => exact cylinder_scaled a b r k hk q h
  | cone a b r s => exact frustum_scaled a b r s k hk q h

theorem solid_scaled (s : Shape) (k : ℝ) (hk : 0 < k) : (s.scaled k).solid = {q | q.smul (1 / k) ∈ s.solid} := by
  ext q
  constructor
  · intro h
    have := solid_scaled_sub (s.scaled k) (1 / k) (by positivity) q h
    rwa [Shape.scaled_back s k hk] at this
  · intro h
    have := solid_scaled_sub s k hk _ h
    rwa [smul_back _ _ hk] at this

theorem wellFormed_scaled (s : Shape) (k : ℝ) (hk : 0 < k) (h : s.WellFormed) : (s.scaled k).WellFormed := by
  have hne : ∀ a b : V3 ℝ, a ≠ b → a.smul k ≠ b.smul k := by
    intro a b hab e
    apply hab
    rw [← smul_there a k hk, e, smul_there b k hk]
  cases s with
  | sphere c r => exact mul_nonneg hk.le h
  | plane c n => exact h
  | box t b =>
    obtain ⟨h1, h2, h3⟩ := h
    exact ⟨mul_le_mul_of_nonneg_right h1 hk.le, mul_le_mul_of_nonneg_right h2 hk.le, mul_le_mul_of_nonneg_right h3 hk.le⟩
  | cylinder a b r => exact ⟨hne a b h.1, mul_nonneg hk.le h.2⟩
  | cone a b r s => exact ⟨hne a b h.1, mul_nonneg hk.le h.2.1, mul_nonneg hk.le h.2.2⟩

theorem eval_scaled (s : Shape) (h : s.WellFormed) (k : ℝ) (hk : 0 < k) (p : V3 ℝ) :
    (s.scaled k).eval (p.smul k) = (s.eval p).map (k * ·) := by
  obtain ⟨f, hf, hd⟩ := primitives_exact s h
  obtain ⟨f', hf', hd'⟩ := primitives_exact _ (wellFormed_scaled s k hk h)
  rw [solid_scaled s k hk] at hd'
  have he := signed_distance_unique hd' (signed_distance_scaled hd k hk)
  rw [hf, hf', he]
  dsimp only
  rw [smul_there _ _ hk]
  rfl

end Sdf

/-! ## Meshes -/

namespace Shapes
variable {K : Type} [Field K] [LinearOrder K] [IsStrictOrderedRing K]

theorem triDet_scaled (p0 p1 p2 d : V3 K) (k : K) :
    triDet (p0.smul k) (p1.smul k) (p2.smul k) d = k * k * triDet p0 p1 p2 d := by
  simp only [triDet, dot, cross, sub_x, sub_y, sub_z, smul_x, smul_y, smul_z]
  ring

theorem planePoint_scaled (p0 p1 p2 : V3 K) (k u v : K) :
    planePoint (p0.smul k) (p1.smul k) (p2.smul k) u v = (planePoint p0 p1 p2 u v).smul k := by
  ext <;> simp only [planePoint, add_x, add_y, add_z, sub_x, sub_y, sub_z, smul_x, smul_y, smul_z] <;> ring

theorem hitPoint_scaled (p0 p1 p2 : V3 K) (k u v : K) :
    hitPoint (p0.smul k) (p1.smul k) (p2.smul k) u v = (hitPoint p0 p1 p2 u v).smul k := by
  rw [hitPoint_eq, hitPoint_eq, planePoint_scaled]

theorem scaled_point {k : K} {r r' : Ray K} (hr : r.ScaledTo k r') (t : K) : r'.point (k * t) = (r.point t).smul k := by
  unfold Ray.point
  rw [hr.origin, hr.dir]
  ext <;> simp only [add_x, add_y, add_z, smul_x, smul_y, smul_z] <;> ring

theorem smul_cancel (k : K) (hk : k ≠ 0) (p q : V3 K) : p.smul k = q.smul k ↔ p = q := by
  constructor
  · intro h
    have h1 := congrArg V3.x h
    have h2 := congrArg V3.y h
    have h3 := congrArg V3.z h
    simp only [smul_x, smul_y, smul_z] at h1 h2 h3
    ext
    · exact mul_right_cancel₀ hk h1
    · exact mul_right_cancel₀ hk h2
    · exact mul_right_cancel₀ hk h3
  · rintro rfl; rfl

theorem triTest_scaled (k : K) (hk : 0 < k) (p0 p1 p2 : V3 K) {r r' : Ray K} (hr : r.ScaledTo k r')
    (hd : detEps ≤ k * k * |triDet p0 p1 p2 r.dir| ↔ detEps ≤ |triDet p0 p1 p2 r.dir|) :
    triTest (p0.smul k) (p1.smul k) (p2.smul k) r' = (triTest p0 p1 p2 r).map (TriHit.scaled k) := by
  have key : ∀ h : TriHit K, triTest (p0.smul k) (p1.smul k) (p2.smul k) r' = some (h.scaled k) ↔ triTest p0 p1 p2 r = some h := by
    intro h
    rw [triTest_iff, triTest_iff, hr.dir, triDet_scaled, abs_mul, abs_of_pos (mul_pos hk hk), hd]
    show _ ∧ 0 ≤ h.u ∧ h.u ≤ 1 ∧ 0 ≤ h.v ∧ h.v ≤ 1 ∧ r'.near ≤ Ext.fin (k * h.t) ∧ Ext.fin (k * h.t) ≤ r'.far ∧
      r'.point (k * h.t) = planePoint _ _ _ h.u h.v ↔ _
    rw [hr.near, hr.far, scaled_point hr, planePoint_scaled, smul_cancel k hk.ne']
  cases h : triTest p0 p1 p2 r with
  | some x => rw [(key x).mpr h]; rfl
  | none =>
    rw [Option.map_none, Option.eq_none_iff_forall_ne_some]
    intro y hy
    have e : y = TriHit.scaled k ⟨y.u, y.v, y.t / k⟩ := by
      cases y
      simp only [TriHit.scaled, TriHit.mk.injEq, true_and]
      field_simp
    rw [e, key, h] at hy
    cases hy

theorem corners_scaled (k : K) (m : Mesh K) (f : Face) :
    (m.scaled k).corners f = (m.corners f >>= fun c => .ok (c.1.smul k, c.2.1.smul k, c.2.2.smul k)) := by
  unfold Mesh.corners Mesh.scaled
  simp only [readAt_map]
  cases readAt m.vs (f.v 0) with
  | ok a =>
    cases readAt m.vs (f.v 1) with
    | ok b => cases readAt m.vs (f.v 2) <;> rfl
    | throw e => rfl
    | ub e => rfl
  | throw e => rfl
  | ub e => rfl

/-- A result of the loop over the faces, in the new unit. -/
def scaledRes (k : K) : Res (Option (ℕ × TriHit K)) → Res (Option (ℕ × TriHit K))
  | .ok x => .ok (x.map fun a => (a.1, a.2.scaled k))
  | .throw e => .throw e
  | .ub e => .ub e

theorem intersectFrom_scaled (k : K) (hk : 0 < k) (m : Mesh K) (fs : List Face) : ∀ i (r r' : Ray K) best,
    r.ScaledTo k r' →
    (∀ f ∈ fs, ∀ c, m.corners f = .ok c →
      (detEps ≤ k * k * |triDet c.1 c.2.1 c.2.2 r.dir| ↔ detEps ≤ |triDet c.1 c.2.1 c.2.2 r.dir|)) →
    (m.scaled k).intersectFrom fs i r' (best.map fun a => (a.1, a.2.scaled k)) = scaledRes k (m.intersectFrom fs i r best) := by
  induction fs with
  | nil => intro i r r' best hr hd; rfl
  | cons f fs ih =>
    intro i r r' best hr hd
    unfold Mesh.intersectFrom
    rw [corners_scaled]
    cases hc : m.corners f with
    | ok c =>
      obtain ⟨p0, p1, p2⟩ := c
      have hx := hd f List.mem_cons_self (p0, p1, p2) hc
      have ht := triTest_scaled k hk p0 p1 p2 hr hx
      have hd' : ∀ g ∈ fs, ∀ c, m.corners g = .ok c →
          (detEps ≤ k * k * |triDet c.1 c.2.1 c.2.2 r.dir| ↔ detEps ≤ |triDet c.1 c.2.1 c.2.2 r.dir|) :=
        fun g hg => hd g (List.mem_cons_of_mem _ hg)
      show (match triTest (p0.smul k) (p1.smul k) (p2.smul k) r' with
        | some h => (m.scaled k).intersectFrom fs (i + 1) { r' with far := Ext.fin h.t } (some (i, h))
        | none => (m.scaled k).intersectFrom fs (i + 1) r' (best.map fun a => (a.1, a.2.scaled k))) = scaledRes k
          (match triTest p0 p1 p2 r with
        | some h => m.intersectFrom fs (i + 1) { r with far := Ext.fin h.t } (some (i, h))
        | none => m.intersectFrom fs (i + 1) r best)
      rw [ht]
      cases triTest p0 p1 p2 r with
      | none => exact ih _ _ _ _ hr hd'
      | some h =>
        refine ih (i + 1) { r with far := Ext.fin h.t } _ (some (i, h)) ⟨hr.origin, hr.dir, hr.near, fun t => ?_⟩ hd'
        show Ext.fin (k * t) ≤ Ext.fin (k * h.t) ↔ Ext.fin t ≤ Ext.fin h.t
        rw [Ext.fin_le_fin, Ext.fin_le_fin]
        exact mul_le_mul_iff_right₀ hk
    | throw e => simp only [scaledRes, Res.bind_throw]
    | ub e => simp only [scaledRes, Res.bind_ub]

end Shapes

namespace Shapes

theorem cross_scaled (a b : V3 ℝ) (k : ℝ) : (a.smul k).cross (b.smul k) = (a.cross b).smul (k * k) := by
  ext <;> simp only [cross, smul_x, smul_y, smul_z] <;> ring

theorem triArea_scaled (p0 p1 p2 : V3 ℝ) (k : ℝ) (hk : 0 < k) :
    triArea (p0.smul k) (p1.smul k) (p2.smul k) = k * k * triArea p0 p1 p2 := by
  unfold triArea
  rw [smul_sub_smul, smul_sub_smul, cross_scaled, Camera.V3.norm_smul, abs_of_pos (mul_pos hk hk)]
  ring

theorem geomNormal_scaled (p0 p1 p2 : V3 ℝ) (k : ℝ) (hk : 0 < k) :
    geomNormal (p0.smul k) (p1.smul k) (p2.smul k) = geomNormal p0 p1 p2 := by
  unfold geomNormal
  rw [smul_sub_smul, smul_sub_smul, cross_scaled, normalized_smul _ _ (mul_pos hk hk)]

theorem shadingNormal_scaled (k : ℝ) (hk : 0 < k) (m : Mesh ℝ) (f : Face) (a b : ℝ) :
    (m.scaled k).shadingNormal f a b = m.shadingNormal f a b := by
  unfold Mesh.shadingNormal
  show (if m.ns.length > 0 then _ else _) = _
  by_cases h : m.ns.length > 0
  · rw [if_pos h, if_pos h]; rfl
  · rw [if_neg h, if_neg h, corners_scaled]
    cases m.corners f with
    | ok c =>
      show Res.ok (geomNormal (c.1.smul k) (c.2.1.smul k) (c.2.2.smul k)) = Res.ok (geomNormal c.1 c.2.1 c.2.2)
      rw [geomNormal_scaled _ _ _ _ hk]
    | throw e => rfl
    | ub e => rfl

end Shapes

/-! ## Lights -/

namespace Lights
open Shapes Sampling

/-- A result of `sample_nee` in the new unit. -/
def scaledSample (k : ℝ) : Res (Option LightSample) → Res (Option LightSample)
  | .ok x => .ok (x.map (LightSample.scaled k))
  | .throw e => .throw e
  | .ub e => .ub e

theorem areaSample_scaled (k : ℝ) (hk : 0 < k) (I p q n : V3 ℝ) (a : ℝ) :
    areaSample I (p.smul k) (q.smul k) n (1 / (k * k) * a) = (areaSample I p q n a).map (LightSample.scaled k) := by
  unfold areaSample
  rw [smul_sub_smul, normalized_smul _ _ hk, sqrNorm_smul]
  cases (q - p).normalized with
  | none => rfl
  | some wi =>
    dsimp only
    by_cases h : (-wi).dot n ≤ eps
    · rw [if_pos h, if_pos h]; rfl
    · rw [if_neg h, if_neg h]
      have e : 1 / (k * k) * a * (k * k * (q - p).sqrNorm) = a * (q - p).sqrNorm := by field_simp
      rw [e]
      rfl

theorem meshSample_scaled (k : ℝ) (hk : 0 < k) (I : V3 ℝ) (m : Mesh ℝ) (cdf : List ℝ) (p : V3 ℝ) (u : V2 ℝ) :
    meshSample I (m.scaled k) cdf (p.smul k) u = scaledSample k (meshSample I m cdf p u) := by
  unfold meshSample
  cases sampleReusePdf cdf u.x with
  | ok x =>
    show (getAt m.tris x.1 >>= _) = scaledSample k (getAt m.tris x.1 >>= _)
    cases getAt m.tris x.1 with
    | ok f =>
      show ((m.scaled k).corners f >>= _) = scaledSample k (m.corners f >>= _)
      rw [corners_scaled]
      cases m.corners f with
      | ok c =>
        show ((m.scaled k).shadingNormal f _ _ >>= _) = scaledSample k (m.shadingNormal f _ _ >>= _)
        rw [shadingNormal_scaled _ hk]
        cases m.shadingNormal f (Warp.uniTri ⟨x.2.1, u.y⟩).x (Warp.uniTri ⟨x.2.1, u.y⟩).y with
        | ok n =>
          cases n with
          | none => rfl
          | some n =>
            show (if triArea (c.1.smul k) (c.2.1.smul k) (c.2.2.smul k) = 0 then Res.ok none else Res.ok (areaSample I (p.smul k)
              (hitPoint (c.1.smul k) (c.2.1.smul k) (c.2.2.smul k) _ _) n
                (1 / triArea (c.1.smul k) (c.2.1.smul k) (c.2.2.smul k) * x.2.2))) = scaledSample k
              (if triArea c.1 c.2.1 c.2.2 = 0 then Res.ok none else Res.ok (areaSample I p
              (hitPoint c.1 c.2.1 c.2.2 _ _) n (1 / triArea c.1 c.2.1 c.2.2 * x.2.2)))
            rw [triArea_scaled _ _ _ _ hk]
            by_cases h0 : triArea c.1 c.2.1 c.2.2 = 0
            · rw [if_pos h0, if_pos (by rw [h0, mul_zero])]; rfl
            · rw [if_neg h0, if_neg (mul_ne_zero (mul_pos hk hk).ne' h0), hitPoint_scaled]
              have e : 1 / (k * k * triArea c.1 c.2.1 c.2.2) * x.2.2 = 1 / (k * k) * (1 / triArea c.1 c.2.1 c.2.2 * x.2.2) := by
                field_simp
              rw [e, areaSample_scaled k hk]
              rfl
        | throw e => rfl
        | ub e => rfl
      | throw e => rfl
      | ub e => rfl
    | throw e => rfl
    | ub e => rfl
  | throw e => rfl
  | ub e => rfl

/-- The sample after the extra ray of lights that ask for one. -/
noncomputable def checkedSample (w : World) (p : V3 ℝ) (l : Light) (u : V2 ℝ) : Res (Option LightSample) := do
  match ← l.sampleNee p u with
  | none => pure none
  | some s => pure (initialCheck w p l s)

theorem lightEval_checked (w : World) (sp : Spot) (n : V3 ℝ) (inMedia : Bool) (c : ℝ) (l : Light) (u : V2 ℝ) :
    lightEval w sp n inMedia c l u = (checkedSample w sp.p l u >>= fun s => match s with
      | none => pure .nan
      | some s => match s.sqrDist with
        | none => .ub "sqr_dist is read before it is written"
        | some d2 =>
          let (hit, tr) := w.shadow s.wi (Real.sqrt d2 - eps)
          if hit && !w.ignoreShadows then pure .hidden
          else
            let li := if inMedia then s.value else s.value.smul (cosTerm (n.dot s.wi))
            pure (.seen (sp.frame.toLocal s.wi)
              (if s.pdf = 0 then 0 else (li.smul (1 / (c * s.pdf))) * tr))) := by
  unfold lightEval checkedSample
  cases l.sampleNee sp.p u with
  | ok s => cases s <;> rfl
  | throw e => rfl
  | ub e => rfl

theorem initialCheck_none (w : World) (p : V3 ℝ) (l : Light) (h : l.needsCheck = false) (s : LightSample) :
    initialCheck w p l s = some s := by
  unfold initialCheck
  rw [if_neg (by simp [h])]

theorem checkedSample_scaled (k : ℝ) (hk : 0 < k) {w w' : World} (hw : w.ScaledTo k w') (p : V3 ℝ) (l : Light) (u : V2 ℝ) :
    checkedSample w' (p.smul k) (l.scaled k) u = scaledSample k (checkedSample w p l u) := by
  have hkk : k * k ≠ 0 := (mul_pos hk hk).ne'
  have plain : ∀ l' : Light, (l'.scaled k).needsCheck = false → l'.needsCheck = false →
      (l'.scaled k).sampleNee (p.smul k) u = scaledSample k (l'.sampleNee p u) →
      checkedSample w' (p.smul k) (l'.scaled k) u = scaledSample k (checkedSample w p l' u) := by
    intro l' h1 h2 h
    unfold checkedSample
    rw [h]
    cases l'.sampleNee p u with
    | ok s =>
      cases s with
      | none => rfl
      | some s =>
        show Res.ok (initialCheck _ _ _ (s.scaled k)) = Res.ok ((initialCheck w p l' s).map (LightSample.scaled k))
        rw [initialCheck_none _ _ _ h1, initialCheck_none _ _ _ h2]
        rfl
    | throw e => rfl
    | ub e => rfl
  cases l with
  | point I pos =>
    refine plain _ rfl rfl ?_
    simp only [Light.scaled, Light.sampleNee, smul_sub_smul, normalized_smul _ _ hk, sqrNorm_smul, scaledSample]
    cases (pos - p).normalized with
    | none => rfl
    | some wi =>
      simp only [Option.map_some, LightSample.scaled]
      congr 3
      have e : 1 / (k * k * (pos - p).sqrNorm) = 1 / (k * k) * (1 / (pos - p).sqrNorm) := by
        rw [one_div_mul_one_div]
      rw [e]
      ext <;> simp only [smul_x, smul_y, smul_z] <;> field_simp
  | spot pos dir rad c =>
    refine plain _ rfl rfl ?_
    simp only [Light.scaled, Light.sampleNee, smul_sub_smul, normalized_smul _ _ hk, scaledSample]
    cases (pos - p).normalized <;> rfl
  | directional dir rad => exact plain _ rfl rfl rfl
  | mesh I inst m cdf => exact plain _ rfl rfl (meshSample_scaled k hk I m cdf p u)
  | dirMesh dir I inst =>
    show Res.ok (initialCheck w' (p.smul k) (.dirMesh dir (I.smul (k * k)) inst) ⟨-dir, none, I.smul (k * k), 1⟩) =
      Res.ok ((initialCheck w p (.dirMesh dir I inst) ⟨-dir, none, I, 1⟩).map (LightSample.scaled k))
    congr 1
    unfold initialCheck
    rw [if_pos (show (Light.dirMesh dir (I.smul (k * k)) inst).needsCheck = true from rfl),
      if_pos (show (Light.dirMesh dir I inst).needsCheck = true from rfl)]
    dsimp only
    rw [hw.first]
    cases w.first (-dir) with
    | none => rfl
    | some a =>
      obtain ⟨m, q⟩ := a
      show (if some inst = some m then
        if (q.smul k - p.smul k).sqrNorm = 0 then none else some _ else some _) = Option.map _ (if some inst = some m then _ else _)
      rw [smul_sub_smul, sqrNorm_smul]
      by_cases hm : some inst = some m
      · rw [if_pos hm, if_pos hm]
        by_cases h0 : (q - p).sqrNorm = 0
        · rw [if_pos h0, if_pos (by rw [h0, mul_zero])]; rfl
        · rw [if_neg h0, if_neg (mul_ne_zero hkk h0)]
          simp only [Option.map_some, LightSample.scaled]
          congr 2
          ext <;> simp only [smul_x, smul_y, smul_z] <;> field_simp
      · rw [if_neg hm, if_neg hm]; rfl
  | environment I => rfl

theorem lightEval_scaled (k : ℝ) (hk : 0 < k) {w w' : World} (hw : w.ScaledTo k w') (sp : Spot) (n : V3 ℝ) (inMedia : Bool)
    (c : ℝ) (l : Light) (u : V2 ℝ) :
    lightEval w' (sp.scaled k) n inMedia c (l.scaled k) u = lightEval w sp n inMedia c l u := by
  rw [lightEval_checked, lightEval_checked]
  show (checkedSample w' (sp.p.smul k) (l.scaled k) u >>= _) = _
  rw [checkedSample_scaled k hk hw]
  cases checkedSample w sp.p l u with
  | ok s =>
    cases s with
    | none => rfl
    | some s =>
      obtain ⟨wi, sd, v, pdf⟩ := s
      cases sd with
      | none => rfl
      | some d2 =>
        have e : Real.sqrt (k * k * d2) = k * Real.sqrt d2 := by
          rw [Real.sqrt_mul (mul_self_nonneg k), Real.sqrt_mul_self hk.le]
        let F : Bool → Bool × V3 ℝ → Res LightEval := fun ig x => if x.1 && !ig then pure .hidden else
          pure (.seen (sp.frame.toLocal wi) (if pdf = 0 then 0 else
            ((if inMedia then v else v.smul (cosTerm (n.dot wi))).smul (1 / (c * pdf))) * x.2))
        show F w'.ignoreShadows (w'.shadow wi (Real.sqrt (k * k * d2) - eps)) =
          F w.ignoreShadows (w.shadow wi (Real.sqrt d2 - eps))
        rw [e, hw.shadow, hw.ignore]
  | throw e => rfl
  | ub e => rfl

theorem infos_scaled (k : ℝ) (ls : List Light) :
    ((ls.map (Light.scaled k)).map fun l => (⟨l.meshNode⟩ : LightInfo)) = ls.map fun l => ⟨l.meshNode⟩ := by
  rw [List.map_map]
  congr 1
  funext l
  cases l <;> rfl

theorem evalOne_scaled (k : ℝ) (hk : 0 < k) {w w' : World} (hw : w.ScaledTo k w') (sp : Spot) (inMedia : Bool) (ls : List Light)
    (c : ℝ) (u : V2 ℝ) :
    evalOne w' (sp.scaled k) inMedia (ls.map (Light.scaled k)) c u = evalOne w sp inMedia ls c u := by
  unfold evalOne
  rw [infos_scaled]
  show (chooseEmitter _ sp.inst c >>= _) = _
  congr 1
  funext x
  obtain ⟨i, pdf⟩ := x
  cases i with
  | none => rfl
  | some i =>
    cases pdf with
    | none => rfl
    | some pdf =>
      show (getAt (ls.map (Light.scaled k)) i >>= _) = (getAt ls i >>= _)
      have h2 : getAt (ls.map (Light.scaled k)) i = (getAt ls i >>= fun l => .ok (l.scaled k)) := by
        unfold getAt
        by_cases hi : (i : Int) < 0
        · rw [if_pos hi, if_pos hi]; rfl
        · rw [if_neg hi, if_neg hi, List.getElem?_map]
          cases ls[(i : Int).toNat]? <;> rfl
      rw [h2]
      cases getAt ls i with
      | ok l =>
        show (lightEval w' (sp.scaled k) _ inMedia pdf (l.scaled k) u >>= _) = _
        rw [lightEval_scaled k hk hw]
        rfl
      | throw e => rfl
      | ub e => rfl

theorem evalAll_scaled (k : ℝ) (hk : 0 < k) {w w' : World} (hw : w.ScaledTo k w') (sp : Spot) (inMedia : Bool) (ls : List Light) :
    ∀ us : List (V2 ℝ), evalAll w' (sp.scaled k) inMedia (ls.map (Light.scaled k)) us = evalAll w sp inMedia ls us := by
  induction ls with
  | nil => intro us; cases us <;> rfl
  | cons l ls ih =>
    intro us
    cases us with
    | nil => rfl
    | cons u us =>
      show (lightEval w' (sp.scaled k) _ inMedia 1 (l.scaled k) u >>= fun e =>
        evalAll w' (sp.scaled k) inMedia (ls.map (Light.scaled k)) us >>= _) = _
      rw [lightEval_scaled k hk hw, ih]
      rfl

theorem faceAreas_scaled (k : ℝ) (hk : 0 < k) (m : Mesh ℝ) (fs : List Face) :
    faceAreas (m.scaled k) fs = (faceAreas m fs >>= fun as => .ok (as.map (k * k * ·))) := by
  induction fs with
  | nil => rfl
  | cons f fs ih =>
    unfold faceAreas
    rw [corners_scaled, ih]
    cases m.corners f with
    | ok c =>
      show (((faceAreas m fs) >>= fun as => Res.ok (as.map (k * k * ·))) >>= fun rest =>
        .ok (triArea (c.1.smul k) (c.2.1.smul k) (c.2.2.smul k) :: rest)) = _
      rw [triArea_scaled _ _ _ _ hk]
      cases faceAreas m fs <;> rfl
    | throw e => rfl
    | ub e => rfl

theorem runningSums_scaled (a : ℝ) (l : List ℝ) : ∀ acc, runningSums (a * acc) (l.map (a * ·)) = (runningSums acc l).map (a * ·) := by
  induction l with
  | nil => intro acc; rfl
  | cons x xs ih =>
    intro acc
    simp only [List.map_cons, runningSums, ← mul_add, ih]

theorem areaTable_scaled (a : ℝ) (ha : a ≠ 0) (as : List ℝ) : areaTable (as.map (a * ·)) = areaTable as := by
  have hs : (as.map (a * ·)).sum = a * as.sum := by
    induction as with
    | nil => simp
    | cons x xs ih => simp only [List.map_cons, List.sum_cons, ih]; ring
  by_cases h : as.sum = 0
  · unfold areaTable normalizeCdf
    rw [runningSums_getLast, runningSums_getLast, hs, h]
    simp
  · rw [areaTable_eq _ h, areaTable_eq _ (by rw [hs]; exact mul_ne_zero ha h), hs]
    have := runningSums_scaled a as 0
    rw [mul_zero] at this
    rw [this, List.map_map]
    congr 2
    funext x
    show a * x * (1 / (a * as.sum)) = x * (1 / as.sum)
    field_simp

end Lights

/-! ## Paths -/

namespace Integrators
open Sampling

theorem ScaledRoom.wi {k : ℝ} {S S' : Room} (h : ScaledRoom k S S') (r : Ray) : S'.wi (scaledRay k r) = S.wi r := by
  unfold Room.wi
  rw [h.frame]
  rfl

theorem ScaledRoom.onward {k : ℝ} {S S' : Room} (h : ScaledRoom k S S') (r : Ray) (s : Bsdf.Sample) :
    S'.onward (scaledRay k r) s = ((S.onward r s).albedo, (S.onward r s).pdf, (S.onward r s).cos,
      scaledRay k (S.onward r s).ray) := by
  unfold Room.onward
  rw [h.frame, h.point]
  rfl

theorem ScaledRoom.scatter {k : ℝ} {S S' : Room} (h : ScaledRoom k S S') (r : Ray) (ω : Stream) :
    S'.scatter (scaledRay k r) ω = (((S.scatter r ω).1.albedo, (S.scatter r ω).1.pdf, (S.scatter r ω).1.cos,
      scaledRay k (S.scatter r ω).1.ray), (S.scatter r ω).2) := by
  unfold Room.scatter
  rw [h.material, h.albedo, h.wi, h.eps, h.intIor, h.extIor]
  cases S.material r with
  | diffuse =>
    dsimp only
    cases Bsdf.diffuseSample (S.albedo r) (S.wi r) ⟨(next2 ω).1.1, (next2 ω).1.2⟩ with
    | none => rfl
    | some s => dsimp only; rw [h.onward]
  | mirror =>
    dsimp only
    cases Bsdf.mirrorSample (S.albedo r) (S.wi r) with
    | none => rfl
    | some s => dsimp only; rw [h.onward]
  | glass =>
    dsimp only
    rw [h.onward]

theorem ScaledRoom.lampLight {k : ℝ} (hk : 0 < k) {S S' : Room} (h : ScaledRoom k S S') (lamps : List Lamp)
    {blocked blocked' : Blocked} (hb : ∀ p d L, blocked' (p.smul k) d (k * L - Lights.eps) = blocked p d (L - Lights.eps))
    (r : Ray) (ω : Stream) :
    Integrators.lampLight S' (lamps.map (scaledLamp k)) blocked' (scaledRay k r) ω =
      Integrators.lampLight S lamps blocked r ω := by
  unfold Integrators.lampLight
  rw [List.length_map, h.point, h.frame, h.albedo, h.wi]
  have hq : Lights.World.ScaledTo k (queries blocked (S.point r)) (queries blocked' ((S.point r).smul k)) :=
    ⟨fun _ => rfl, fun d L => by simp only [queries, hb], rfl⟩
  have hl : ((lamps.map (scaledLamp k)).map fun l => Lights.Light.point l.1 l.2) =
      (lamps.map fun l => Lights.Light.point l.1 l.2).map (Lights.Light.scaled k) := by
    rw [List.map_map, List.map_map]
    rfl
  have he := Lights.evalOne_scaled k hk hq ⟨S.point r, (S.frame r).n, S.frame r, 0⟩ false
    (lamps.map fun l => Lights.Light.point l.1 l.2) (next ω).1 ⟨(next2 (next ω).2).1.1, (next2 (next ω).2).1.2⟩
  rw [← hl] at he
  unfold Lights.Spot.scaled at he
  dsimp only at he
  rw [he]

/-- Rooms in the two units, with lamps and obstacles in the two units, answer the same. -/
theorem ScaledRoom.alike {k : ℝ} (hk : 0 < k) {S S' : Room} (h : ScaledRoom k S S') (lamps : List Lamp)
    {blocked blocked' : Blocked} (hb : ∀ p d L, blocked' (p.smul k) d (k * L - Lights.eps) = blocked p d (L - Lights.eps)) :
    Alike (scaledRay k) (S.lit lamps blocked).world (S'.lit (lamps.map (scaledLamp k)) blocked').world where
  escapes r := congrArg (!·) (h.seen r)
  env := h.env
  delta r := congrArg Material.isDelta (h.material r)
  emitted := h.emitted
  lights r ω := h.lampLight hk lamps hb r ω
  scatter r ω := by
    have h2 : ScaledRoom k (S.lit lamps blocked) (S'.lit (lamps.map (scaledLamp k)) blocked') :=
      ⟨h.eps, h.seen, h.env, h.point, h.frame, h.material, h.albedo, h.intIor, h.extIor, h.emitted⟩
    exact h2.scatter r ω

end Integrators
end Feign
