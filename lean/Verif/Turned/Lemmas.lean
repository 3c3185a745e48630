import Verif.Turned.Spec
import Verif.Scaled.Lemmas
import Verif.Integrators.RoomProps

/-!
# Turned scenes: lemmas
-/

set_option linter.unusedSectionVars false
set_option linter.unusedSimpArgs false

namespace Feign
open V3

section vec
variable {Q : Frame}

theorem turn_add (a b : V3 ℝ) : Q.toWorld (a + b) = Q.toWorld a + Q.toWorld b := by
  ext <;> simp only [Frame.toWorld, add_x, add_y, add_z, smul_x, smul_y, smul_z] <;> ring

theorem turn_sub (a b : V3 ℝ) : Q.toWorld (a - b) = Q.toWorld a - Q.toWorld b := by
  ext <;> simp only [Frame.toWorld, add_x, add_y, add_z, sub_x, sub_y, sub_z, smul_x, smul_y, smul_z] <;> ring

theorem turn_neg (a : V3 ℝ) : Q.toWorld (-a) = -Q.toWorld a := by
  ext <;> simp only [Frame.toWorld, add_x, add_y, add_z, neg_x, neg_y, neg_z, smul_x, smul_y, smul_z] <;> ring

theorem turn_smul (a : V3 ℝ) (k : ℝ) : Q.toWorld (a.smul k) = (Q.toWorld a).smul k := by
  ext <;> simp only [Frame.toWorld, add_x, add_y, add_z, smul_x, smul_y, smul_z] <;> ring

theorem turn_zero : Q.toWorld 0 = 0 := by
  ext <;> simp [Frame.toWorld]

theorem turn_dot (h : Q.Orthonormal) (a b : V3 ℝ) : (Q.toWorld a).dot (Q.toWorld b) = a.dot b := by
  obtain ⟨ss, tt, nn, st, sn, tn⟩ := h
  simp only [dot] at ss tt nn st sn tn
  simp only [Frame.toWorld, dot, add_x, add_y, add_z, smul_x, smul_y, smul_z]
  linear_combination a.x * b.x * ss + a.y * b.y * tt + a.z * b.z * nn + (a.x * b.y + a.y * b.x) * st +
    (a.x * b.z + a.z * b.x) * sn + (a.y * b.z + a.z * b.y) * tn

theorem turn_sqrNorm (h : Q.Orthonormal) (a : V3 ℝ) : (Q.toWorld a).sqrNorm = a.sqrNorm := Warp.toWorld_sqrNorm Q h a

theorem turn_norm (h : Q.Orthonormal) (a : V3 ℝ) : (Q.toWorld a).norm = a.norm := by
  have := turn_sqrNorm h a
  unfold sqrNorm at this
  unfold V3.norm
  rw [this]

theorem turn_inj (h : Q.Orthonormal) {a b : V3 ℝ} : Q.toWorld a = Q.toWorld b ↔ a = b := by
  constructor
  · intro e
    rw [← Frame.toLocal_toWorld Q h a, e, Frame.toLocal_toWorld Q h b]
  · rintro rfl; rfl

theorem turn_normalized (h : Q.Orthonormal) (a : V3 ℝ) : (Q.toWorld a).normalized = a.normalized.map Q.toWorld := by
  unfold normalized
  rw [turn_norm h]
  by_cases h0 : a.norm = 0
  · rw [if_pos h0, if_pos h0]; rfl
  · rw [if_neg h0, if_neg h0]
    congr 1
    ext <;> simp only [Frame.toWorld, add_x, add_y, add_z, smul_x, smul_y, smul_z] <;> ring

/-- Cross products of the axes follow from `s × t = c n` for `c = ±1`. -/
theorem cross_axes (h : Q.Orthonormal) (c : ℝ) (hc : c * c = 1) (hx : Q.s.cross Q.t = Q.n.smul c) :
    Q.t.cross Q.n = Q.s.smul c ∧ Q.n.cross Q.s = Q.t.smul c := by
  obtain ⟨ss, tt, nn, st, sn, tn⟩ := h
  have h1 := congrArg V3.x hx
  have h2 := congrArg V3.y hx
  have h3 := congrArg V3.z hx
  simp only [dot] at ss tt nn st sn tn
  simp only [cross, smul_x, smul_y, smul_z] at h1 h2 h3
  have e1 : Q.n.x = c * (Q.s.y * Q.t.z - Q.s.z * Q.t.y) := by linear_combination (-c) * h1 - Q.n.x * hc
  have e2 : Q.n.y = c * (Q.s.z * Q.t.x - Q.s.x * Q.t.z) := by linear_combination (-c) * h2 - Q.n.y * hc
  have e3 : Q.n.z = c * (Q.s.x * Q.t.y - Q.s.y * Q.t.x) := by linear_combination (-c) * h3 - Q.n.z * hc
  constructor
  · ext <;> simp only [cross, smul_x, smul_y, smul_z]
    · rw [e3, e2]; linear_combination c * Q.s.x * tt - c * Q.t.x * st
    · rw [e3, e1]; linear_combination c * Q.s.y * tt - c * Q.t.y * st
    · rw [e1, e2]; linear_combination c * Q.s.z * tt - c * Q.t.z * st
  · ext <;> simp only [cross, smul_x, smul_y, smul_z]
    · rw [e3, e2]; linear_combination c * Q.t.x * ss - c * Q.s.x * st
    · rw [e3, e1]; linear_combination c * Q.t.y * ss - c * Q.s.y * st
    · rw [e1, e2]; linear_combination c * Q.t.z * ss - c * Q.s.z * st

theorem turn_cross' (h : Q.Orthonormal) (c : ℝ) (hc : c * c = 1) (hx : Q.s.cross Q.t = Q.n.smul c) (a b : V3 ℝ) :
    (Q.toWorld a).cross (Q.toWorld b) = (Q.toWorld (a.cross b)).smul c := by
  obtain ⟨h2, h3⟩ := cross_axes h c hc hx
  have a1 := congrArg V3.x hx
  have a2 := congrArg V3.y hx
  have a3 := congrArg V3.z hx
  have b1 := congrArg V3.x h2
  have b2 := congrArg V3.y h2
  have b3 := congrArg V3.z h2
  have c1 := congrArg V3.x h3
  have c2 := congrArg V3.y h3
  have c3 := congrArg V3.z h3
  simp only [cross, smul_x, smul_y, smul_z] at a1 a2 a3 b1 b2 b3 c1 c2 c3
  ext <;> simp only [Frame.toWorld, cross, add_x, add_y, add_z, smul_x, smul_y, smul_z]
  · linear_combination (a.x * b.y - a.y * b.x) * a1 + (a.y * b.z - a.z * b.y) * b1 + (a.z * b.x - a.x * b.z) * c1
  · linear_combination (a.x * b.y - a.y * b.x) * a2 + (a.y * b.z - a.z * b.y) * b2 + (a.z * b.x - a.x * b.z) * c2
  · linear_combination (a.x * b.y - a.y * b.x) * a3 + (a.y * b.z - a.z * b.y) * b3 + (a.z * b.x - a.x * b.z) * c3

theorem turn_cross (h : Q.Rotation) (a b : V3 ℝ) : (Q.toWorld a).cross (Q.toWorld b) = Q.toWorld (a.cross b) := by
  have hx : Q.s.cross Q.t = Q.n.smul 1 := by
    rw [show Q.s.cross Q.t = Q.n from h.right]
    ext <;> simp
  rw [turn_cross' h.rigid 1 (by norm_num) hx]
  ext <;> simp

/-- The three directions are right-handed or left-handed. -/
theorem handed (h : Q.Orthonormal) : ∃ c : ℝ, c * c = 1 ∧ Q.s.cross Q.t = Q.n.smul c := by
  have hw : ∀ v, Q.toWorld (Q.toLocal v) = v := Frame.toWorld_toLocal Q h
  obtain ⟨ss, tt, nn, st, sn, tn⟩ := h
  have e := hw (Q.s.cross Q.t)
  have z1 : (Q.toLocal (Q.s.cross Q.t)).x = 0 := by simp only [Frame.toLocal, dot, cross]; ring
  have z2 : (Q.toLocal (Q.s.cross Q.t)).y = 0 := by simp only [Frame.toLocal, dot, cross]; ring
  have e' : Q.s.cross Q.t = Q.n.smul (Q.toLocal (Q.s.cross Q.t)).z := by
    rw [← e]
    simp only [Frame.toWorld, z1, z2]
    rw [show (Q.toLocal (Q.s.smul 0 + Q.t.smul 0 + Q.n.smul (Q.toLocal (Q.s.cross Q.t)).z)).z =
      (Q.toLocal (Q.s.cross Q.t)).z from ?_]
    · ext <;> simp
    · simp only [dot] at nn
      simp only [Frame.toLocal, dot, add_x, add_y, add_z, smul_x, smul_y, smul_z]
      linear_combination ((Q.s.cross Q.t).z * Q.n.z + (Q.s.cross Q.t).y * Q.n.y + (Q.s.cross Q.t).x * Q.n.x) * nn
  refine ⟨_, ?_, e'⟩
  set c := (Q.toLocal (Q.s.cross Q.t)).z
  have l : (Q.s.cross Q.t).sqrNorm = Q.s.sqrNorm * Q.t.sqrNorm - Q.s.dot Q.t * Q.s.dot Q.t := by
    simp only [sqrNorm, dot, cross]; ring
  rw [e', sqrNorm_smul] at l
  have n1 : Q.n.sqrNorm = 1 := by rw [← nn]; simp only [sqrNorm, dot]
  have s1 : Q.s.sqrNorm = 1 := by rw [← ss]; simp only [sqrNorm, dot]
  have t1 : Q.t.sqrNorm = 1 := by rw [← tt]; simp only [sqrNorm, dot]
  rw [n1, s1, t1, st] at l
  linarith

end vec

/-! ## Meshes -/

namespace Shapes
variable {Q : Frame}

theorem triDet_turned (h : Q.Orthonormal) (p0 p1 p2 d : V3 ℝ) :
    |triDet (Q.toWorld p0) (Q.toWorld p1) (Q.toWorld p2) (Q.toWorld d)| = |triDet p0 p1 p2 d| := by
  obtain ⟨c, hc, hx⟩ := handed h
  unfold triDet
  rw [← turn_sub, ← turn_sub, turn_cross' h c hc hx]
  have e : (Q.toWorld (p1 - p0)).dot ((Q.toWorld (d.cross (p2 - p0))).smul c) = c * (p1 - p0).dot (d.cross (p2 - p0)) := by
    rw [← turn_dot h (p1 - p0)]
    simp only [dot, smul_x, smul_y, smul_z]
    ring
  rw [e, abs_mul]
  have : |c| = 1 := by
    rw [← abs_one, ← sq_eq_sq_iff_abs_eq_abs]; linarith
  rw [this, one_mul]

theorem planePoint_turned (p0 p1 p2 : V3 ℝ) (u v : ℝ) :
    planePoint (Q.toWorld p0) (Q.toWorld p1) (Q.toWorld p2) u v = Q.toWorld (planePoint p0 p1 p2 u v) := by
  simp only [planePoint, turn_add, turn_sub, turn_smul]

theorem hitPoint_turned (p0 p1 p2 : V3 ℝ) (u v : ℝ) :
    hitPoint (Q.toWorld p0) (Q.toWorld p1) (Q.toWorld p2) u v = Q.toWorld (hitPoint p0 p1 p2 u v) := by
  simp only [hitPoint, turn_add, turn_smul]

theorem turned_point (r : Ray ℝ) (t : ℝ) : (r.turned Q).point t = Q.toWorld (r.point t) := by
  simp only [Ray.point, Ray.turned, turn_add, turn_smul]

theorem triTest_turned (h : Q.Orthonormal) (p0 p1 p2 : V3 ℝ) (r : Ray ℝ) :
    triTest (Q.toWorld p0) (Q.toWorld p1) (Q.toWorld p2) (r.turned Q) = triTest p0 p1 p2 r := by
  apply Option.ext
  intro a
  rw [triTest_iff, triTest_iff, turned_point, planePoint_turned, turn_inj h]
  show detEps ≤ |triDet _ _ _ (Q.toWorld r.dir)| ∧ _ ↔ _
  rw [triDet_turned h]
  rfl

theorem readAt_turned (l : List (V3 ℝ)) (i : ℕ) : readAt (l.map Q.toWorld) i = (readAt l i >>= fun a => .ok (Q.toWorld a)) := by
  unfold readAt
  rw [List.getElem?_map]
  cases l[i]? <;> rfl

theorem corners_turned (m : Mesh ℝ) (f : Face) :
    (m.turned Q).corners f = (m.corners f >>= fun c => .ok (Q.toWorld c.1, Q.toWorld c.2.1, Q.toWorld c.2.2)) := by
  unfold Mesh.corners Mesh.turned
  simp only [readAt_turned]
  cases readAt m.vs (f.v 0) with
  | ok a =>
    cases readAt m.vs (f.v 1) with
    | ok b => cases readAt m.vs (f.v 2) <;> rfl
    | throw e => rfl
    | ub e => rfl
  | throw e => rfl
  | ub e => rfl

theorem intersectFrom_turned (h : Q.Orthonormal) (m : Mesh ℝ) (fs : List Face) : ∀ i (r : Ray ℝ) best,
    (m.turned Q).intersectFrom fs i (r.turned Q) best = m.intersectFrom fs i r best := by
  induction fs with
  | nil => intro i r best; rfl
  | cons f fs ih =>
    intro i r best
    unfold Mesh.intersectFrom
    rw [corners_turned]
    cases m.corners f with
    | ok c =>
      obtain ⟨p0, p1, p2⟩ := c
      simp only [Res.bind_ok, triTest_turned h]
      cases triTest p0 p1 p2 r with
      | none => exact ih _ _ _
      | some x => exact ih (i + 1) { r with far := Ext.fin x.t } _
    | throw e => rfl
    | ub e => rfl

theorem triArea_turned (h : Q.Orthonormal) (p0 p1 p2 : V3 ℝ) :
    triArea (Q.toWorld p0) (Q.toWorld p1) (Q.toWorld p2) = triArea p0 p1 p2 := by
  obtain ⟨c, hc, hx⟩ := handed h
  have : |c| = 1 := by
    rw [← abs_one, ← sq_eq_sq_iff_abs_eq_abs]; linarith
  unfold triArea
  rw [← turn_sub, ← turn_sub, turn_cross' h c hc hx, Camera.V3.norm_smul, this, one_mul, turn_norm h]

theorem geomNormal_turned (h : Q.Rotation) (p0 p1 p2 : V3 ℝ) :
    geomNormal (Q.toWorld p0) (Q.toWorld p1) (Q.toWorld p2) = (geomNormal p0 p1 p2).map Q.toWorld := by
  unfold geomNormal
  rw [← turn_sub, ← turn_sub, turn_cross h, turn_normalized h.rigid]

/-- A result that is a vector, turned. -/
def turnedRes (Q : Frame) : Res (Option (V3 ℝ)) → Res (Option (V3 ℝ))
  | .ok x => .ok (x.map Q.toWorld)
  | .throw e => .throw e
  | .ub e => .ub e

theorem shadingNormal_turned (h : Q.Rotation) (m : Mesh ℝ) (f : Face) (a b : ℝ) :
    (m.turned Q).shadingNormal f a b = turnedRes Q (m.shadingNormal f a b) := by
  unfold Mesh.shadingNormal
  show (if (m.ns.map Q.toWorld).length > 0 then _ else _) = _
  rw [List.length_map]
  by_cases hn : m.ns.length > 0
  · rw [if_pos hn, if_pos hn]
    show (readAt (m.ns.map Q.toWorld) (f.n 0) >>= fun x => readAt (m.ns.map Q.toWorld) (f.n 1) >>= fun y =>
      readAt (m.ns.map Q.toWorld) (f.n 2) >>= fun z => Res.ok _) = _
    simp only [readAt_turned]
    cases readAt m.ns (f.n 0) with
    | ok x =>
      cases readAt m.ns (f.n 1) with
      | ok y =>
        cases readAt m.ns (f.n 2) with
        | ok z =>
          show Res.ok ((Q.toWorld x).smul (1 - a - b) + (Q.toWorld y).smul a + (Q.toWorld z).smul b).normalized =
            Res.ok ((x.smul (1 - a - b) + y.smul a + z.smul b).normalized.map Q.toWorld)
          rw [← turn_normalized h.rigid]
          simp only [turn_add, turn_smul]
        | throw e => rfl
        | ub e => rfl
      | throw e => rfl
      | ub e => rfl
    | throw e => rfl
    | ub e => rfl
  · rw [if_neg hn, if_neg hn, corners_turned]
    cases m.corners f with
    | ok c =>
      show Res.ok (geomNormal (Q.toWorld c.1) (Q.toWorld c.2.1) (Q.toWorld c.2.2)) =
        Res.ok ((geomNormal c.1 c.2.1 c.2.2).map Q.toWorld)
      rw [geomNormal_turned h]
    | throw e => rfl
    | ub e => rfl

end Shapes

/-! ## Distance functions -/

namespace Sdf
variable {Q : Frame}

theorem dist_turned (h : Q.Orthonormal) (p q : V3 ℝ) : dist (Q.toWorld p) (Q.toWorld q) = dist p q := by
  unfold dist
  rw [← turn_sub, turn_norm h]

/-- Distances to a turned solid. -/
theorem signed_distance_turned (h : Q.Orthonormal) {S : Set (V3 ℝ)} {f : V3 ℝ → ℝ} (hf : IsSignedDistance S f) :
    IsSignedDistance {q | Q.toLocal q ∈ S} (fun p => f (Q.toLocal p)) := by
  have hd : ∀ p q, dist p q = dist (Q.toLocal p) (Q.toLocal q) := by
    intro p q
    rw [← dist_turned h (Q.toLocal p), Frame.toWorld_toLocal Q h, Frame.toWorld_toLocal Q h]
  have hin : ∀ q : V3 ℝ, Q.toLocal (Q.toWorld q) = q := Frame.toLocal_toWorld Q h
  refine ⟨fun p => hf.inside_iff _, fun p q hq => ?_, fun p hp => ?_, fun p q hq => ?_, fun p hp e he => ?_, fun p q => ?_⟩
  · rw [hd]; exact hf.outside_le _ _ hq
  · obtain ⟨q, hq, he⟩ := hf.outside_attained _ hp
    refine ⟨Q.toWorld q, by simpa only [Set.mem_ofPred_eq, hin] using hq, ?_⟩
    rw [hd, hin, he]
  · rw [hd]; exact hf.inside_le _ _ hq
  · obtain ⟨q, hq, hle⟩ := hf.inside_approached _ hp e he
    refine ⟨Q.toWorld q, by simpa only [Set.mem_ofPred_eq, hin] using hq, ?_⟩
    rw [hd, hin]
    exact hle
  · rw [hd]; exact hf.lipschitz _ _

theorem cylinder_turned (h : Q.Orthonormal) (a b : V3 ℝ) (r : ℝ) (q : V3 ℝ) :
    Q.toWorld q ∈ cylinderSet (Q.toWorld a) (Q.toWorld b) r ↔ q ∈ cylinderSet a b r := by
  constructor
  · rintro ⟨t, w, h0, h1, hw, hn, e⟩
    refine ⟨t, Q.toLocal w, h0, h1, ?_, ?_, ?_⟩
    · rw [← turn_dot h, Frame.toWorld_toLocal Q h, turn_sub, hw]
    · rwa [← turn_norm h, Frame.toWorld_toLocal Q h]
    · rw [← turn_inj h, e, turn_add, turn_add, turn_smul, turn_sub, Frame.toWorld_toLocal Q h]
  · rintro ⟨t, w, h0, h1, hw, hn, rfl⟩
    refine ⟨t, Q.toWorld w, h0, h1, ?_, ?_, ?_⟩
    · rw [← turn_sub, turn_dot h, hw]
    · rwa [turn_norm h]
    · rw [turn_add, turn_add, turn_smul, turn_sub]

theorem frustum_turned (h : Q.Orthonormal) (a b : V3 ℝ) (r s : ℝ) (q : V3 ℝ) :
    Q.toWorld q ∈ frustum (Q.toWorld a) (Q.toWorld b) r s ↔ q ∈ frustum a b r s := by
  constructor
  · rintro ⟨t, w, h0, h1, hw, hn, e⟩
    refine ⟨t, Q.toLocal w, h0, h1, ?_, ?_, ?_⟩
    · rw [← turn_dot h, Frame.toWorld_toLocal Q h, turn_sub, hw]
    · rwa [← turn_norm h, Frame.toWorld_toLocal Q h]
    · rw [← turn_inj h, e, turn_add, turn_add, turn_smul, turn_sub, Frame.toWorld_toLocal Q h]
  · rintro ⟨t, w, h0, h1, hw, hn, rfl⟩
    refine ⟨t, Q.toWorld w, h0, h1, ?_, ?_, ?_⟩
    · rw [← turn_sub, turn_dot h, hw]
    · rwa [turn_norm h]
    · rw [turn_add, turn_add, turn_smul, turn_sub]

theorem solid_turned (h : Q.Orthonormal) (s s' : Shape) (hs : s.turned Q = some s') (q : V3 ℝ) :
    Q.toWorld q ∈ s'.solid ↔ q ∈ s.solid := by
  cases s with
  | sphere c r =>
    obtain rfl := Option.some.inj hs
    show dist _ _ ≤ r ↔ dist _ _ ≤ r
    rw [dist_turned h]
  | plane c n =>
    obtain rfl := Option.some.inj hs
    show (Q.toWorld q - Q.toWorld c).dot (Q.toWorld n) = 0 ↔ (q - c).dot n = 0
    rw [← turn_sub, turn_dot h]
  | box t b => cases hs
  | cylinder a b r => obtain rfl := Option.some.inj hs; exact cylinder_turned h a b r q
  | cone a b r s => obtain rfl := Option.some.inj hs; exact frustum_turned h a b r s q

theorem wellFormed_turned (h : Q.Orthonormal) (s s' : Shape) (hs : s.turned Q = some s') (hw : s.WellFormed) :
    s'.WellFormed := by
  cases s with
  | sphere c r => obtain rfl := Option.some.inj hs; exact hw
  | plane c n =>
    obtain rfl := Option.some.inj hs
    show (Q.toWorld n).sqrNorm = 1
    rw [turn_sqrNorm h]
    exact hw
  | box t b => cases hs
  | cylinder a b r => obtain rfl := Option.some.inj hs; exact ⟨fun e => hw.1 ((turn_inj h).mp e), hw.2⟩
  | cone a b r s => obtain rfl := Option.some.inj hs; exact ⟨fun e => hw.1 ((turn_inj h).mp e), hw.2⟩

theorem eval_turned (h : Q.Orthonormal) (s s' : Shape) (hs : s.turned Q = some s') (hw : s.WellFormed) (p : V3 ℝ) :
    s'.eval (Q.toWorld p) = s.eval p := by
  obtain ⟨f, hf, hd⟩ := primitives_exact s hw
  obtain ⟨f', hf', hd'⟩ := primitives_exact s' (wellFormed_turned h s s' hs hw)
  have hset : s'.solid = {q | Q.toLocal q ∈ s.solid} := by
    ext q
    show _ ↔ Q.toLocal q ∈ s.solid
    rw [← solid_turned h s s' hs, Frame.toWorld_toLocal Q h]
  rw [hset] at hd'
  have he := signed_distance_unique hd' (signed_distance_turned h hd)
  rw [hf, hf', he]
  dsimp only
  rw [Frame.toLocal_toWorld Q h]

end Sdf
end Feign
