import Verif.Shapes.MeshLemmas
import Verif.Sdf.Geom
import Mathlib.Tactic.NormNum
import Mathlib.Algebra.Order.Ring.Rat
import Mathlib.Data.Rat.Defs

/-!
# Triangle meshes: closest hit, the triangle test, completed hits, boxes

Specification: a point lies in the triangle `p0 p1 p2` when it is `p0 + u (p1 - p0) + v (p2 - p0)` with
`u, v ≥ 0` and `u + v ≤ 1`; in the parallelogram when `u` and `v` are between 0 and 1.
-/

set_option linter.unusedSectionVars false

namespace Feign.Shapes

variable {K : Type} [Field K] [LinearOrder K] [IsStrictOrderedRing K]

/-- Specification: the points of a triangle. -/
def InTriangle (p0 p1 p2 q : V3 K) : Prop :=
  ∃ u v : K, 0 ≤ u ∧ 0 ≤ v ∧ u + v ≤ 1 ∧ q = p0 + (p1 - p0).smul u + (p2 - p0).smul v

/-- Specification: the points of the parallelogram spanned by two edges of a triangle. -/
def InParallelogram (p0 p1 p2 q : V3 K) : Prop :=
  ∃ u v : K, 0 ≤ u ∧ u ≤ 1 ∧ 0 ≤ v ∧ v ≤ 1 ∧ q = p0 + (p1 - p0).smul u + (p2 - p0).smul v

/-- The volume spanned by the two edges and the ray direction: how far from parallel to the triangle the
ray is, scaled by the size of the triangle. -/
def Slant (p0 p1 p2 d : V3 K) : K := (p1 - p0).dot (d.cross (p2 - p0))

/-! ### One triangle -/

/-- Full statement: a reported hit is a point of the triangle. It is false: there is no test that
`u + v ≤ 1`, so the whole parallelogram is accepted. -/
theorem triangle_only_refuted :
    ∃ (p0 p1 p2 : V3 ℚ) (r : Ray ℚ) (h : TriHit ℚ),
      triTest p0 p1 p2 r = some h ∧ ¬ InTriangle p0 p1 p2 (r.point h.t) := by
  refine ⟨⟨0, 0, 0⟩, ⟨1, 0, 0⟩, ⟨0, 1, 0⟩, ⟨⟨9/10, 9/10, 1⟩, ⟨0, 0, -1⟩, ⊥, ⊤⟩, ⟨9/10, 9/10, 1⟩, ?_, ?_⟩
  · rw [triTest_iff]
    refine ⟨?_, by norm_num, by norm_num, by norm_num, by norm_num, bot_le, le_top, ?_⟩
    · simp [triDet, V3.dot, V3.cross, detEps]; norm_num
    · ext <;> simp [Ray.point, planePoint]
  · rintro ⟨u, v, hu, hv, huv, h⟩
    have hx := congrArg V3.x h
    have hy := congrArg V3.y h
    simp [Ray.point] at hx hy
    rw [← hx, ← hy] at huv
    norm_num at huv

/-- What is accepted: exactly the points of the parallelogram within range, seen under a slant of at least
`1e-8`. The answer carries the position: `r.point t` has the reported coordinates. -/
theorem triangle_test_partial (p0 p1 p2 : V3 K) (r : Ray K) :
    (∀ h, triTest p0 p1 p2 r = some h →
      InParallelogram p0 p1 p2 (r.point h.t) ∧ r.near ≤ Ext.fin h.t ∧ Ext.fin h.t ≤ r.far ∧
      r.point h.t = p0 + (p1 - p0).smul h.u + (p2 - p0).smul h.v ∧
      (h.u + h.v ≤ 1 → InTriangle p0 p1 p2 (r.point h.t))) ∧
    ((∃ h, triTest p0 p1 p2 r = some h) ↔
      1 / 100000000 ≤ |Slant p0 p1 p2 r.dir| ∧
      ∃ t, InParallelogram p0 p1 p2 (r.point t) ∧ r.near ≤ Ext.fin t ∧ Ext.fin t ≤ r.far) := by
  refine ⟨fun h hh => ?_, ?_⟩
  · obtain ⟨-, u0, u1, v0, v1, hn, hf, hp⟩ := (triTest_iff _ _ _ _ _).mp hh
    exact ⟨⟨h.u, h.v, u0, u1, v0, v1, hp⟩, hn, hf, hp, fun huv => ⟨h.u, h.v, u0, v0, huv, hp⟩⟩
  · constructor
    · rintro ⟨h, hh⟩
      obtain ⟨hd, u0, u1, v0, v1, hn, hf, hp⟩ := (triTest_iff _ _ _ _ _).mp hh
      exact ⟨hd, h.t, ⟨h.u, h.v, u0, u1, v0, v1, hp⟩, hn, hf⟩
    · rintro ⟨hd, t, ⟨u, v, u0, u1, v0, v1, hp⟩, hn, hf⟩
      exact ⟨⟨u, v, t⟩, (triTest_iff _ _ _ _ _).mpr ⟨hd, u0, u1, v0, v1, hn, hf, hp⟩⟩

/-- No point of a triangle is missed, if the slant is at least `1e-8`: a ray that meets the triangle at `t`
within range is answered with that `t`. -/
theorem triangle_found (p0 p1 p2 : V3 K) (r : Ray K) (hd : 1 / 100000000 ≤ |Slant p0 p1 p2 r.dir|) (t : K)
    (hin : InTriangle p0 p1 p2 (r.point t)) (hn : r.near ≤ Ext.fin t) (hf : Ext.fin t ≤ r.far) :
    ∃ h, triTest p0 p1 p2 r = some h ∧ h.t = t := by
  obtain ⟨u, v, u0, v0, huv, hp⟩ := hin
  exact ⟨⟨u, v, t⟩, (triTest_iff _ _ _ _ _).mpr
    ⟨hd, u0, by linarith, v0, by linarith, hn, hf, hp⟩, rfl⟩

/-- A ray through the inside of a small triangle, at a right angle, is missed: the threshold on the
determinant depends on the triangle's size. -/
theorem small_triangle_missed :
    ∃ (p0 p1 p2 : V3 ℚ) (r : Ray ℚ) (t : ℚ), Slant p0 p1 p2 r.dir ≠ 0 ∧
      InTriangle p0 p1 p2 (r.point t) ∧ r.near ≤ Ext.fin t ∧ Ext.fin t ≤ r.far ∧
      triTest p0 p1 p2 r = none := by
  refine ⟨⟨0, 0, 0⟩, ⟨1/100000, 0, 0⟩, ⟨0, 1/100000, 0⟩, ⟨⟨1/1000000, 1/1000000, 1⟩, ⟨0, 0, -1⟩, ⊥, ⊤⟩, 1,
    ?_, ⟨1/10, 1/10, by norm_num, by norm_num, by norm_num, ?_⟩, bot_le, le_top, ?_⟩
  · simp [Slant, V3.dot, V3.cross]
  · ext <;> simp [Ray.point] <;> norm_num
  · rw [Option.eq_none_iff_forall_ne_some]
    intro h hh
    have := ((triTest_iff _ _ _ _ _).mp hh).1
    simp [triDet, V3.dot, V3.cross, detEps] at this
    norm_num at this

/-! ### All triangles -/

/-- Face `i` of the mesh is hit at `h`: its corners exist and the ray's point at `h.t` is the point with
coordinates `h.u`, `h.v` of the face's parallelogram (see `triangle_only_refuted`), within range. -/
def Mesh.HitsAt (m : Mesh K) (r : Ray K) (i : ℕ) (h : TriHit K) : Prop :=
  ∃ f p0 p1 p2, m.tris[i]? = some f ∧
    m.vs[f.v 0]? = some p0 ∧ m.vs[f.v 1]? = some p1 ∧ m.vs[f.v 2]? = some p2 ∧
    1 / 100000000 ≤ |Slant p0 p1 p2 r.dir| ∧ 0 ≤ h.u ∧ h.u ≤ 1 ∧ 0 ≤ h.v ∧ h.v ≤ 1 ∧
    r.near ≤ Ext.fin h.t ∧ Ext.fin h.t ≤ r.far ∧
    r.point h.t = p0 + (p1 - p0).smul h.u + (p2 - p0).smul h.v

/-- Every face refers to existing vertices. -/
def Mesh.WellFormed (m : Mesh K) : Prop := ∀ f ∈ m.tris, ∀ k, f.v k < m.vs.length

/-- `h` is the hit of face `i` on the ray, for a list of faces. -/
private def FHit (m : Mesh K) (r : Ray K) (fs : List Face) (i : ℕ) (h : TriHit K) : Prop :=
  ∃ f p0 p1 p2, fs[i]? = some f ∧
    m.vs[f.v 0]? = some p0 ∧ m.vs[f.v 1]? = some p1 ∧ m.vs[f.v 2]? = some p2 ∧
    triTest p0 p1 p2 r = some h

private theorem triTest_far {p0 p1 p2 : V3 K} {r : Ray K} {far : Ext K} {h : TriHit K} (hle : far ≤ r.far) :
    triTest p0 p1 p2 { r with far := far } = some h ↔
      triTest p0 p1 p2 r = some h ∧ Ext.fin h.t ≤ far := by
  rw [triTest_iff, triTest_iff]
  constructor
  · rintro ⟨a, b, c, d, e, f, g, k⟩
    exact ⟨⟨a, b, c, d, e, f, le_trans g hle, k⟩, g⟩
  · rintro ⟨⟨a, b, c, d, e, f, -, k⟩, g⟩
    exact ⟨a, b, c, d, e, f, g, k⟩

private theorem readAt_ok {α : Type} {l : List α} {i : ℕ} {a : α} : readAt l i = .ok a ↔ l[i]? = some a := by
  unfold readAt
  cases l[i]? <;> simp

private theorem corners_ok (m : Mesh K) (f : Face) (hf : ∀ k, f.v k < m.vs.length) :
    ∃ p0 p1 p2, m.vs[f.v 0]? = some p0 ∧ m.vs[f.v 1]? = some p1 ∧ m.vs[f.v 2]? = some p2 ∧
      m.corners f = .ok (p0, p1, p2) := by
  refine ⟨_, _, _, List.getElem?_eq_getElem (hf 0), List.getElem?_eq_getElem (hf 1),
    List.getElem?_eq_getElem (hf 2), ?_⟩
  unfold Mesh.corners
  rw [readAt_ok.mpr (List.getElem?_eq_getElem (hf 0)), readAt_ok.mpr (List.getElem?_eq_getElem (hf 1)),
    readAt_ok.mpr (List.getElem?_eq_getElem (hf 2))]
  rfl

/-- The loop from face `i` on. -/
private theorem intersectFrom_spec (m : Mesh K) : ∀ (fs : List Face) (i : ℕ) (r : Ray K)
    (best : Option (ℕ × TriHit K)), (∀ f ∈ fs, ∀ k, f.v k < m.vs.length) →
    ∃ res, m.intersectFrom fs i r best = .ok res ∧
      ((∀ j h, ¬ FHit m r fs j h) → res = best) ∧
      (∀ j h, FHit m r fs j h → ∃ j' h', res = some (i + j', h') ∧ FHit m r fs j' h' ∧
        (∀ k g, FHit m r fs k g → h'.t ≤ g.t ∧ (g.t = h'.t → k ≤ j')))
  | [], i, r, best, _ => ⟨best, rfl, fun _ => rfl, by rintro j h ⟨f, _, _, _, hf, -⟩; simp at hf⟩
  | f :: fs, i, r, best, hwf => by
    obtain ⟨p0, p1, p2, h0, h1, h2, hc⟩ := corners_ok m f (hwf f (by simp))
    have hwf' : ∀ f ∈ fs, ∀ k, f.v k < m.vs.length := fun g hg => hwf g (by simp [hg])
    have hzero : ∀ h, FHit m r (f :: fs) 0 h ↔ triTest p0 p1 p2 r = some h := by
      intro h
      constructor
      · rintro ⟨f', q0, q1, q2, hf', e0, e1, e2, ht⟩
        simp at hf'; subst hf'
        rw [h0] at e0; rw [h1] at e1; rw [h2] at e2
        cases e0; cases e1; cases e2; exact ht
      · intro ht; exact ⟨f, p0, p1, p2, rfl, h0, h1, h2, ht⟩
    have hsucc : ∀ j h, FHit m r (f :: fs) (j + 1) h ↔ FHit m r fs j h := by
      intro j h; simp [FHit]
    have hstep : m.intersectFrom (f :: fs) i r best =
        (match triTest p0 p1 p2 r with
        | some h => m.intersectFrom fs (i + 1) { r with far := Ext.fin h.t } (some (i, h))
        | none => m.intersectFrom fs (i + 1) r best) := by
      conv_lhs => unfold Mesh.intersectFrom
      rw [hc]; rfl
    cases ht : triTest p0 p1 p2 r with
    | none =>
      rw [ht] at hstep
      obtain ⟨res, hres, hno, hyes⟩ := intersectFrom_spec m fs (i + 1) r best hwf'
      refine ⟨res, hstep.trans hres, fun hn => hno fun j h hh => hn (j + 1) h ((hsucc j h).mpr hh), ?_⟩
      intro j h hh
      cases j with
      | zero => rw [hzero, ht] at hh; cases hh
      | succ j =>
        obtain ⟨j', h', e1, e2, e3⟩ := hyes j h ((hsucc j h).mp hh)
        refine ⟨j' + 1, h', by rw [e1]; congr 2; omega, (hsucc _ _).mpr e2, ?_⟩
        intro k g hg
        cases k with
        | zero => rw [hzero, ht] at hg; cases hg
        | succ k =>
          obtain ⟨a, b⟩ := e3 k g ((hsucc _ _).mp hg)
          exact ⟨a, fun e => by have := b e; omega⟩
    | some h0' =>
      rw [ht] at hstep
      have hfar : Ext.fin h0'.t ≤ r.far := ((triTest_iff _ _ _ _ _).mp ht).2.2.2.2.2.2.1
      have hshort : ∀ j g, FHit m { r with far := Ext.fin h0'.t } fs j g ↔ FHit m r fs j g ∧ g.t ≤ h0'.t := by
        intro j g
        constructor
        · rintro ⟨f', q0, q1, q2, hf', e0, e1, e2, htt⟩
          have := (triTest_far hfar).mp htt
          exact ⟨⟨f', q0, q1, q2, hf', e0, e1, e2, this.1⟩, (Ext.fin_le_fin _ _).mp this.2⟩
        · rintro ⟨⟨f', q0, q1, q2, hf', e0, e1, e2, htt⟩, hle⟩
          exact ⟨f', q0, q1, q2, hf', e0, e1, e2, (triTest_far hfar).mpr ⟨htt, (Ext.fin_le_fin _ _).mpr hle⟩⟩
      obtain ⟨res, hres, hno, hyes⟩ :=
        intersectFrom_spec m fs (i + 1) { r with far := Ext.fin h0'.t } (some (i, h0')) hwf'
      refine ⟨res, hstep.trans hres, fun hn => absurd ((hzero h0').mpr ht) (hn 0 h0'), ?_⟩
      intro _ _ _
      by_cases hex : ∃ j g, FHit m { r with far := Ext.fin h0'.t } fs j g
      · obtain ⟨j, g, hg⟩ := hex
        obtain ⟨j', h', e1, e2, e3⟩ := hyes j g hg
        have e2' := (hshort _ _).mp e2
        refine ⟨j' + 1, h', by rw [e1]; congr 2; omega, (hsucc _ _).mpr e2'.1, ?_⟩
        intro k g hg
        cases k with
        | zero =>
          rw [hzero, ht] at hg; cases hg
          exact ⟨e2'.2, fun _ => by omega⟩
        | succ k =>
          have hg' := (hsucc _ _).mp hg
          by_cases hle : g.t ≤ h0'.t
          · obtain ⟨a, b⟩ := e3 k g ((hshort _ _).mpr ⟨hg', hle⟩)
            exact ⟨a, fun e => by have := b e; omega⟩
          · have hlt := not_le.mp hle
            exact ⟨le_trans e2'.2 hlt.le, fun e => absurd (e ▸ e2'.2) (not_le.mpr hlt)⟩
      · have hnone : ∀ j g, ¬ FHit m { r with far := Ext.fin h0'.t } fs j g :=
          fun j g hg => hex ⟨j, g, hg⟩
        refine ⟨0, h0', hno hnone, (hzero h0').mpr ht, ?_⟩
        intro k g hg
        cases k with
        | zero => rw [hzero, ht] at hg; cases hg; exact ⟨le_refl _, fun _ => le_refl _⟩
        | succ k =>
          have hg' := (hsucc _ _).mp hg
          have hlt : h0'.t < g.t := by
            by_contra hc
            exact hnone k g ((hshort _ _).mpr ⟨hg', not_lt.mp hc⟩)
          exact ⟨hlt.le, fun e => absurd e (ne_of_gt hlt)⟩

private theorem hitsAt_iff (m : Mesh K) (r : Ray K) (i : ℕ) (h : TriHit K) :
    m.HitsAt r i h ↔ FHit m r m.tris i h := by
  constructor
  · rintro ⟨f, p0, p1, p2, a, b, c, d, e⟩
    exact ⟨f, p0, p1, p2, a, b, c, d, (triTest_iff _ _ _ _ _).mpr e⟩
  · rintro ⟨f, p0, p1, p2, a, b, c, d, e⟩
    exact ⟨f, p0, p1, p2, a, b, c, d, (triTest_iff _ _ _ _ _).mp e⟩

/-- Intersecting a mesh whose faces refer to existing vertices always returns. It reports a hit exactly when
some face is hit, and then the hit of smallest distance; among faces hit at that distance, the last one. -/
theorem mesh_closest_hit (m : Mesh K) (hm : m.WellFormed) (r : Ray K) :
    ∃ res, m.intersect r = .ok res ∧
      (res = none ↔ ∀ i h, ¬ m.HitsAt r i h) ∧
      ∀ i h, res = some (i, h) → m.HitsAt r i h ∧
        ∀ j g, m.HitsAt r j g → h.t ≤ g.t ∧ (g.t = h.t → j ≤ i) := by
  obtain ⟨res, hres, hno, hyes⟩ := intersectFrom_spec m m.tris 0 r none hm
  refine ⟨res, hres, ⟨?_, fun hn => hno fun j h hh => hn j h ((hitsAt_iff _ _ _ _).mpr hh)⟩, ?_⟩
  · rintro rfl i h hh
    obtain ⟨j', h', e, -⟩ := hyes i h ((hitsAt_iff _ _ _ _).mp hh)
    cases e
  · rintro i h rfl
    have hex : ∃ j g, FHit m r m.tris j g := by
      by_contra hc
      have := hno fun j g hg => hc ⟨j, g, hg⟩
      cases this
    obtain ⟨j, g, hg⟩ := hex
    obtain ⟨j', h', e, e2, e3⟩ := hyes j g hg
    rw [zero_add] at e
    cases e
    exact ⟨(hitsAt_iff _ _ _ _).mpr e2, fun k g hg => e3 k g ((hitsAt_iff _ _ _ _).mp hg)⟩

/-- A face that refers to a vertex that does not exist is always read: the call then has undefined
behaviour, whatever the ray. -/
theorem mesh_bad_face (m : Mesh K) (r : Ray K) :
    (∃ res, m.intersect r = .ok res) ↔ m.WellFormed := by
  refine ⟨?_, fun hm => by obtain ⟨res, h, -⟩ := mesh_closest_hit m hm r; exact ⟨res, h⟩⟩
  suffices H : ∀ (fs : List Face) (i : ℕ) (r : Ray K) (best res : Option (ℕ × TriHit K)),
      m.intersectFrom fs i r best = .ok res → ∀ f ∈ fs, ∀ k, f.v k < m.vs.length by
    rintro ⟨res, h⟩; exact H _ _ _ _ _ h
  intro fs
  induction fs with
  | nil => intro _ _ _ _ _ f hf; simp at hf
  | cons f fs ih =>
    intro i r best res h g hg
    unfold Mesh.intersectFrom at h
    rw [Res.bind_eq_ok] at h
    obtain ⟨⟨p0, p1, p2⟩, hc, h⟩ := h
    rcases List.mem_cons.mp hg with rfl | hg
    · unfold Mesh.corners at hc
      simp only [Res.bind_eq_ok, readAt_ok] at hc
      obtain ⟨q0, e0, q1, e1, q2, e2, -⟩ := hc
      intro k
      match k with
      | 0 => exact (List.getElem?_eq_some_iff.mp e0).1
      | 1 => exact (List.getElem?_eq_some_iff.mp e1).1
      | 2 => exact (List.getElem?_eq_some_iff.mp e2).1
    · dsimp only at h
      split at h
      · exact ih _ _ _ _ h g hg
      · exact ih _ _ _ _ h g hg

/-! ### Data completed after a hit -/

/-- The reported position is the point of the ray at the reported distance. -/
theorem hit_position (p0 p1 p2 : V3 K) (r : Ray K) (h : TriHit K) (hh : triTest p0 p1 p2 r = some h) :
    hitPoint p0 p1 p2 h.u h.v = r.point h.t := by
  rw [hitPoint_eq, ((triTest_iff _ _ _ _ _).mp hh).2.2.2.2.2.2.2]

/-- C125 for faces of meshes: a ray that leaves from a reported position, whatever its direction, does not meet the same
face again. -/
theorem face_no_self_shadow (p0 p1 p2 : V3 K) (r : Ray K) (h : TriHit K) (hh : triTest p0 p1 p2 r = some h) (r' : Ray K)
    (ho : r'.origin = r.point h.t) (hn : Ext.fin 0 < r'.near) : triTest p0 p1 p2 r' = none := by
  cases hc : triTest p0 p1 p2 r' with
  | none => rfl
  | some g =>
    exfalso
    have h1 := ((triTest_iff _ _ _ _ _).mp hh).2.2.2.2.2.2.2
    obtain ⟨hdet, -, -, -, -, hnear, -, h2⟩ := (triTest_iff _ _ _ _ _).mp hc
    have hd : triDet p0 p1 p2 r'.dir ≠ 0 := by
      intro e
      rw [e, abs_zero] at hdet
      exact absurd hdet (not_le.mpr detEps_pos)
    have h0 : r'.point 0 = planePoint p0 p1 p2 h.u h.v := by
      rw [← h1, ← ho]
      ext <;> simp [Ray.point]
    have e0 := ((cramer p0 p1 p2 r' hd _ _ _).mp h0).2.2
    have e1 := ((cramer p0 p1 p2 r' hd _ _ _).mp h2).2.2
    rw [e1, ← e0] at hnear
    exact absurd hnear (not_le.mpr hn)

/-- C125 fails for bodies: the second face lies behind the plane of the first, but a ray that leaves the first face to
the front is reported as hitting the second, in the part of its parallelogram that is not in the triangle. -/
theorem face_behind_shadows_refuted :
    ∃ (a b : Fin 3 → V3 ℚ) (r r' : Ray ℚ) (h g : TriHit ℚ), (∀ k, (a k).z = 0) ∧ (∀ k, (b k).z < 0) ∧
      triTest (a 0) (a 1) (a 2) r = some h ∧ r'.origin = r.point h.t ∧ r'.near = Ext.fin (1 / 1000) ∧ 0 < r'.dir.z ∧
      triTest (b 0) (b 1) (b 2) r' = some g ∧ (∀ q, InTriangle (b 0) (b 1) (b 2) q → q.z < 0) := by
  refine ⟨![⟨0, 0, 0⟩, ⟨1, 0, 0⟩, ⟨0, 1, 0⟩], ![⟨2, 0, -10⟩, ⟨1, 0, -1⟩, ⟨3, 0, -1⟩],
    ⟨⟨1 / 2, 1 / 4, 1⟩, ⟨0, 0, -1⟩, Ext.fin (1 / 1000), ⊤⟩, ⟨⟨1 / 2, 1 / 4, 0⟩, ⟨3 / 2, -1 / 4, 5⟩, Ext.fin (1 / 1000), ⊤⟩,
    ⟨1 / 2, 1 / 4, 1⟩, ⟨5 / 6, 5 / 6, 1⟩, ?_, ?_, ?_, ?_, rfl, ?_, ?_, ?_⟩
  · intro k; fin_cases k <;> rfl
  · intro k; fin_cases k <;> norm_num
  · decide +kernel
  · decide +kernel
  · norm_num
  · decide +kernel
  · rintro q ⟨u, v, hu, hv, huv, rfl⟩
    simp
    linarith

/-- For a point of the triangle, interpolated texture coordinates stay between those of the corners. -/
theorem hit_uv_between (m : Mesh K) (f : Face) (u v lo hi : K) (hu : 0 ≤ u) (hv : 0 ≤ v) (huv : u + v ≤ 1)
    (hne : m.uvs ≠ []) (q : V2 K) (hq : m.hitUv f u v = .ok q)
    (hb : ∀ w ∈ m.uvs, lo ≤ w.x ∧ w.x ≤ hi ∧ lo ≤ w.y ∧ w.y ≤ hi) :
    lo ≤ q.x ∧ q.x ≤ hi ∧ lo ≤ q.y ∧ q.y ≤ hi := by
  unfold Mesh.hitUv at hq
  rw [if_pos (List.length_pos_iff.mpr hne)] at hq
  simp only [Res.bind_eq_ok, readAt_ok, Res.pure_eq, Res.ok.injEq] at hq
  obtain ⟨a, ha, b, hb', c, hc, rfl⟩ := hq
  obtain ⟨a1, a2, a3, a4⟩ := hb a (List.mem_of_getElem? ha)
  obtain ⟨b1, b2, b3, b4⟩ := hb b (List.mem_of_getElem? hb')
  obtain ⟨c1, c2, c3, c4⟩ := hb c (List.mem_of_getElem? hc)
  have hw : 0 ≤ 1 - u - v := by linarith
  simp only [V2.add_x, V2.add_y, V2.smul_x, V2.smul_y]
  refine ⟨?_, ?_, ?_, ?_⟩
  · nlinarith [mul_le_mul_of_nonneg_right a1 hw, mul_le_mul_of_nonneg_right b1 hu, mul_le_mul_of_nonneg_right c1 hv]
  · nlinarith [mul_le_mul_of_nonneg_right a2 hw, mul_le_mul_of_nonneg_right b2 hu, mul_le_mul_of_nonneg_right c2 hv]
  · nlinarith [mul_le_mul_of_nonneg_right a3 hw, mul_le_mul_of_nonneg_right b3 hu, mul_le_mul_of_nonneg_right c3 hv]
  · nlinarith [mul_le_mul_of_nonneg_right a4 hw, mul_le_mul_of_nonneg_right b4 hu, mul_le_mul_of_nonneg_right c4 hv]

/-- An affine map of space into the plane. -/
def Affine2 (A : V3 K → V2 K) : Prop := ∃ a b : V3 K, ∃ c d : K, ∀ p, A p = ⟨a.dot p + c, b.dot p + d⟩

/-- An affine map of space into itself. -/
def Affine3 (A : V3 K → V3 K) : Prop :=
  ∃ a b c : V3 K, ∃ d e f : K, ∀ p, A p = ⟨a.dot p + d, b.dot p + e, c.dot p + f⟩

/-- **C64.** Texture coordinates follow the surface: whenever an affine map sends the three corners of the face to
their texture coordinates, it sends the hit position to the hit's texture coordinates. -/
theorem hit_uv_follows (m : Mesh K) (f : Face) (p0 p1 p2 : V3 K) (t0 t1 t2 : V2 K) (h0 : m.uvs[f.uv 0]? = some t0)
    (h1 : m.uvs[f.uv 1]? = some t1) (h2 : m.uvs[f.uv 2]? = some t2) (A : V3 K → V2 K) (hA : Affine2 A)
    (e0 : A p0 = t0) (e1 : A p1 = t1) (e2 : A p2 = t2) (u v : K) :
    m.hitUv f u v = .ok (A (hitPoint p0 p1 p2 u v)) := by
  have hlen : m.uvs.length > 0 := lt_of_le_of_lt (Nat.zero_le _) (List.getElem?_eq_some_iff.mp h0).1
  obtain ⟨a, b, c, d, hA⟩ := hA
  unfold Mesh.hitUv
  rw [if_pos hlen, readAt_ok.2 h0, Res.bind_ok, readAt_ok.2 h1, Res.bind_ok, readAt_ok.2 h2, Res.bind_ok, ← e0, ← e1,
    ← e2, Res.pure_eq]
  simp only [hA, hitPoint, Res.ok.injEq]
  ext
  · simp only [V2.add_x, V2.smul_x, V3.dot, V3.add_x, V3.add_y, V3.add_z, V3.smul_x, V3.smul_y, V3.smul_z]
    ring
  · simp only [V2.add_y, V2.smul_y, V3.dot, V3.add_x, V3.add_y, V3.add_z, V3.smul_x, V3.smul_y, V3.smul_z]
    ring

/-- The unit square in the plane `z = 0`, textured by its own coordinates: the middle of its diagonal. -/
example : (⟨[⟨0, 0, 0⟩, ⟨1, 0, 0⟩, ⟨1, 1, 0⟩], [], [⟨0, 0⟩, ⟨1, 0⟩, ⟨1, 1⟩], []⟩ : Mesh ℚ).hitUv
    ⟨![0, 1, 2], ![0, 1, 2], ![0, 1, 2]⟩ 0 (1 / 2) = .ok ⟨1 / 2, 1 / 2⟩ := by
  rw [hit_uv_follows _ _ ⟨0, 0, 0⟩ ⟨1, 0, 0⟩ ⟨1, 1, 0⟩ ⟨0, 0⟩ ⟨1, 0⟩ ⟨1, 1⟩ rfl rfl rfl (fun p => ⟨p.x, p.y⟩)
    ⟨⟨1, 0, 0⟩, ⟨0, 1, 0⟩, 0, 0, fun p => by simp [V3.dot]⟩ rfl rfl rfl]
  norm_num [hitPoint]

/-- **C64.** A mesh without texture coordinates reports the position within the triangle instead. -/
theorem hit_uv_none (m : Mesh K) (h : m.uvs = []) (f : Face) (u v : K) : m.hitUv f u v = .ok ⟨u, v⟩ := by
  unfold Mesh.hitUv
  rw [h, if_neg (by simp)]

/-- **C64.** The shading normal is the unit vector along the normal field of the face: whenever an affine field takes
the three corners to their normals, the shading normal is its value at the hit position, scaled to length one. -/
theorem shading_normal_follows (m : Mesh ℝ) (f : Face) (p0 p1 p2 n0 n1 n2 : V3 ℝ) (h0 : m.ns[f.n 0]? = some n0)
    (h1 : m.ns[f.n 1]? = some n1) (h2 : m.ns[f.n 2]? = some n2) (A : V3 ℝ → V3 ℝ) (hA : Affine3 A)
    (e0 : A p0 = n0) (e1 : A p1 = n1) (e2 : A p2 = n2) (u v : ℝ) (hne : A (hitPoint p0 p1 p2 u v) ≠ 0) :
    ∃ n, m.shadingNormal f u v = .ok (some n) ∧ n.norm = 1 ∧
      n.smul (A (hitPoint p0 p1 p2 u v)).norm = A (hitPoint p0 p1 p2 u v) := by
  have hlen : m.ns.length > 0 := lt_of_le_of_lt (Nat.zero_le _) (List.getElem?_eq_some_iff.mp h0).1
  obtain ⟨n, hn, hu, hs⟩ := V3.normalized_spec _ hne
  refine ⟨n, ?_, by rw [V3.norm_eq, hu, Real.sqrt_one], hs⟩
  obtain ⟨a, b, c, d, e, g, hA⟩ := hA
  unfold Mesh.shadingNormal
  rw [if_pos hlen, readAt_ok.2 h0, Res.bind_ok, readAt_ok.2 h1, Res.bind_ok, readAt_ok.2 h2, Res.bind_ok, ← e0, ← e1,
    ← e2, Res.pure_eq, ← hn]
  congr 2
  simp only [hA, hitPoint]
  ext <;> simp only [V3.dot, V3.add_x, V3.add_y, V3.add_z, V3.smul_x, V3.smul_y, V3.smul_z] <;> ring

/-- **C64.** Without stored normals the shading normal is the geometric one. -/
theorem shading_normal_none (m : Mesh ℝ) (h : m.ns = []) (f : Face) (p0 p1 p2 : V3 ℝ)
    (hc : m.corners f = .ok (p0, p1, p2)) (u v : ℝ) : m.shadingNormal f u v = .ok (geomNormal p0 p1 p2) := by
  unfold Mesh.shadingNormal
  rw [h, if_neg (by simp), hc]
  rfl

/-- A face whose three corners share a normal of length two. -/
example : ∃ n, (⟨[], [⟨0, 0, 2⟩], [], []⟩ : Mesh ℝ).shadingNormal ⟨![0, 1, 2], ![0, 0, 0], ![0, 0, 0]⟩ 0 (1 / 2) =
    .ok (some n) ∧ n.norm = 1 ∧ n.smul (⟨0, 0, 2⟩ : V3 ℝ).norm = ⟨0, 0, 2⟩ :=
  shading_normal_follows _ _ ⟨0, 0, 0⟩ ⟨1, 0, 0⟩ ⟨1, 1, 0⟩ ⟨0, 0, 2⟩ ⟨0, 0, 2⟩ ⟨0, 0, 2⟩ rfl rfl rfl
    (fun _ => ⟨0, 0, 2⟩) ⟨0, 0, 0, 0, 0, 2, fun p => by simp [V3.dot]⟩ rfl rfl rfl 0 (1 / 2)
    (fun h => by have := congrArg V3.z h; simp at this)

/-- The geometric normal of a hit triangle exists, has length one and is perpendicular to every direction
within the triangle. -/
theorem geom_normal (p0 p1 p2 : V3 ℝ) (r : Ray ℝ) (h : TriHit ℝ) (hh : triTest p0 p1 p2 r = some h) :
    ∃ n, geomNormal p0 p1 p2 = some n ∧ n.norm = 1 ∧
      ∀ q q', InParallelogram p0 p1 p2 q → InParallelogram p0 p1 p2 q' → n.dot (q - q') = 0 := by
  have hd := ((triTest_iff _ _ _ _ _).mp hh).1
  have hne : (p1 - p0).cross (p2 - p0) ≠ 0 := by
    intro hz
    have : triDet p0 p1 p2 r.dir = -(r.dir.dot ((p1 - p0).cross (p2 - p0))) := by
      simp [triDet, V3.dot, V3.cross]; ring
    rw [this, hz] at hd
    simp [V3.dot] at hd
    exact absurd hd (not_le.mpr detEps_pos)
  obtain ⟨n, hn, hu, hs⟩ := V3.normalized_spec _ hne
  have hpos := V3.norm_pos _ hne
  refine ⟨n, hn, by rw [V3.norm_eq, hu, Real.sqrt_one], ?_⟩
  rintro q q' ⟨u, v, -, -, -, -, rfl⟩ ⟨u', v', -, -, -, -, rfl⟩
  have key : ((p1 - p0).cross (p2 - p0)).dot
      ((p0 + (p1 - p0).smul u + (p2 - p0).smul v) - (p0 + (p1 - p0).smul u' + (p2 - p0).smul v')) = 0 := by
    simp [V3.dot, V3.cross]; ring
  have hlin : ∀ (a b : V3 ℝ) (c : ℝ), (a.smul c).dot b = c * a.dot b := by
    intro a b c; simp [V3.dot]; ring
  rw [← hs, hlin] at key
  exact (mul_eq_zero.mp key).resolve_left hpos.ne'

/-! ### Boxes, centroids and areas -/

/-- The box of a face contains the whole triangle. -/
theorem face_box_contains (p0 p1 p2 q : V3 K) (hq : InTriangle p0 p1 p2 q) :
    (triBox p0 p1 p2).containsB q := by
  obtain ⟨u, v, hu, hv, huv, rfl⟩ := hq
  have hw : 0 ≤ 1 - u - v := by linarith
  have comb : ∀ a b c lo : K, lo ≤ a → lo ≤ b → lo ≤ c → lo ≤ a + (b - a) * u + (c - a) * v := by
    intro a b c lo ha hb hc
    nlinarith [mul_le_mul_of_nonneg_right ha hw, mul_le_mul_of_nonneg_right hb hu,
      mul_le_mul_of_nonneg_right hc hv]
  have comb' : ∀ a b c hi : K, a ≤ hi → b ≤ hi → c ≤ hi → a + (b - a) * u + (c - a) * v ≤ hi := by
    intro a b c hi ha hb hc
    nlinarith [mul_le_mul_of_nonneg_right ha hw, mul_le_mul_of_nonneg_right hb hu,
      mul_le_mul_of_nonneg_right hc hv]
  have mn : ∀ a b c : K, (if (if a < b then a else b) < c then (if a < b then a else b) else c) ≤ a ∧
      (if (if a < b then a else b) < c then (if a < b then a else b) else c) ≤ b ∧
      (if (if a < b then a else b) < c then (if a < b then a else b) else c) ≤ c := by
    intro a b c; split_ifs <;> refine ⟨?_, ?_, ?_⟩ <;> linarith
  have mx : ∀ a b c : K, a ≤ (if (if a > b then a else b) > c then (if a > b then a else b) else c) ∧
      b ≤ (if (if a > b then a else b) > c then (if a > b then a else b) else c) ∧
      c ≤ (if (if a > b then a else b) > c then (if a > b then a else b) else c) := by
    intro a b c; split_ifs <;> refine ⟨?_, ?_, ?_⟩ <;> linarith
  refine ⟨⟨?_, ?_, ?_⟩, ⟨?_, ?_, ?_⟩⟩
  · exact comb _ _ _ _ (mn p0.x p1.x p2.x).1 (mn p0.x p1.x p2.x).2.1 (mn p0.x p1.x p2.x).2.2
  · exact comb _ _ _ _ (mn p0.y p1.y p2.y).1 (mn p0.y p1.y p2.y).2.1 (mn p0.y p1.y p2.y).2.2
  · exact comb _ _ _ _ (mn p0.z p1.z p2.z).1 (mn p0.z p1.z p2.z).2.1 (mn p0.z p1.z p2.z).2.2
  · exact comb' _ _ _ _ (mx p0.x p1.x p2.x).1 (mx p0.x p1.x p2.x).2.1 (mx p0.x p1.x p2.x).2.2
  · exact comb' _ _ _ _ (mx p0.y p1.y p2.y).1 (mx p0.y p1.y p2.y).2.1 (mx p0.y p1.y p2.y).2.2
  · exact comb' _ _ _ _ (mx p0.z p1.z p2.z).1 (mx p0.z p1.z p2.z).2.1 (mx p0.z p1.z p2.z).2.2

private theorem foldl_expand_iff (q : B3 K) : ∀ (l : List (V3 K)) (b : B3 K),
    (q.min.le (l.foldl B3.expand b).min ∧ (l.foldl B3.expand b).max.le q.max) ↔
      (q.min.le b.min ∧ b.max.le q.max) ∧ ∀ v ∈ l, q.containsB v
  | [], b => by simp
  | v :: l, b => by
    rw [List.foldl_cons, foldl_expand_iff q l]
    have hmin : ∀ a b c : K, a ≤ (if b < c then b else c) ↔ a ≤ b ∧ a ≤ c := by
      intro a b c
      split_ifs with h
      · exact ⟨fun k => ⟨k, k.trans h.le⟩, fun k => k.1⟩
      · exact ⟨fun k => ⟨k.trans (not_lt.mp h), k⟩, fun k => k.2⟩
    have hmax : ∀ a b c : K, (if b > c then b else c) ≤ a ↔ b ≤ a ∧ c ≤ a := by
      intro a b c
      split_ifs with h
      · exact ⟨fun k => ⟨k, h.le.trans k⟩, fun k => k.1⟩
      · exact ⟨fun k => ⟨(not_lt.mp h).trans k, k⟩, fun k => k.2⟩
    simp only [B3.expand, V3.minV, V3.maxV, V3.le, hmin, hmax, List.forall_mem_cons, B3.containsB]
    tauto

/-- The box of a mesh is the smallest box around its vertices: a box contains it if and only if it contains
every vertex. In particular the box itself contains every vertex, and every face. -/
theorem mesh_box (m : Mesh K) (b : B3 K) (hb : m.box = some b) :
    (∀ q : B3 K, q.containsBoxB b ↔ ∀ v ∈ m.vs, q.containsB v) ∧ (∀ v ∈ m.vs, b.containsB v) := by
  have h : ∀ q : B3 K, q.containsBoxB b ↔ ∀ v ∈ m.vs, q.containsB v := by
    intro q
    unfold Mesh.box at hb
    split at hb
    · cases hb
    · rename_i v vs he
      cases hb
      rw [he, List.forall_mem_cons, ← and_congr_left_iff.mpr fun _ => Iff.rfl]
      exact foldl_expand_iff q vs ⟨v, v⟩
  exact ⟨h, (h b).mp ⟨⟨le_refl _, le_refl _, le_refl _⟩, ⟨le_refl _, le_refl _, le_refl _⟩⟩⟩

/-- The centroid of a face is a point of the face. -/
theorem face_centroid (p0 p1 p2 : V3 K) : InTriangle p0 p1 p2 (triCentroid p0 p1 p2) := by
  refine ⟨1 / 3, 1 / 3, by positivity, by positivity, by norm_num, ?_⟩
  ext <;> simp [triCentroid] <;> ring

/-- The centroid of a mesh with vertices exists and lies in the mesh's box. -/
theorem mesh_centroid (m : Mesh K) (b : B3 K) (hb : m.box = some b) :
    ∃ c, m.centroid = some c ∧ b.containsB c := by
  have hv := (mesh_box m b hb).2
  have hpos : 0 < m.vs.length := by
    unfold Mesh.box at hb
    split at hb
    · cases hb
    · rename_i v vs he; rw [he]; simp
  have hK : (0 : K) < (m.vs.length : K) := by exact_mod_cast hpos
  refine ⟨_, by unfold Mesh.centroid; rw [if_neg hpos.ne'], ?_⟩
  have sum : ∀ (l : List (V3 K)) (s : V3 K) (n : ℕ), (∀ v ∈ l, b.containsB v) →
      (b.min.x * n ≤ s.x ∧ b.min.y * n ≤ s.y ∧ b.min.z * n ≤ s.z) ∧
      (s.x ≤ b.max.x * n ∧ s.y ≤ b.max.y * n ∧ s.z ≤ b.max.z * n) →
      (b.min.x * (n + l.length : ℕ) ≤ (l.foldl (· + ·) s).x ∧
        b.min.y * (n + l.length : ℕ) ≤ (l.foldl (· + ·) s).y ∧
        b.min.z * (n + l.length : ℕ) ≤ (l.foldl (· + ·) s).z) ∧
      ((l.foldl (· + ·) s).x ≤ b.max.x * (n + l.length : ℕ) ∧
        (l.foldl (· + ·) s).y ≤ b.max.y * (n + l.length : ℕ) ∧
        (l.foldl (· + ·) s).z ≤ b.max.z * (n + l.length : ℕ)) := by
    intro l
    induction l with
    | nil => intro s n _ h; simpa using h
    | cons v l ih =>
      intro s n hl h
      obtain ⟨⟨x1, y1, z1⟩, ⟨x2, y2, z2⟩⟩ := hl v (by simp)
      have := ih (s + v) (n + 1) (fun w hw => hl w (by simp [hw])) (by
        push_cast
        simp only [V3.add_x, V3.add_y, V3.add_z]
        obtain ⟨⟨a1, a2, a3⟩, ⟨a4, a5, a6⟩⟩ := h
        refine ⟨⟨?_, ?_, ?_⟩, ⟨?_, ?_, ?_⟩⟩ <;> rw [mul_add, mul_one] <;> linarith)
      rw [List.foldl_cons, List.length_cons, show n + (l.length + 1) = n + 1 + l.length by omega]
      exact this
  have := sum m.vs ⟨0, 0, 0⟩ 0 hv (by simp)
  rw [zero_add] at this
  obtain ⟨⟨a1, a2, a3⟩, ⟨a4, a5, a6⟩⟩ := this
  exact ⟨⟨(le_div_iff₀ hK).mpr a1, (le_div_iff₀ hK).mpr a2, (le_div_iff₀ hK).mpr a3⟩,
    ⟨(div_le_iff₀ hK).mpr a4, (div_le_iff₀ hK).mpr a5, (div_le_iff₀ hK).mpr a6⟩⟩

/-- The area of a face: half of base times height. The height is the distance of the third corner from the
line through the other two, whose closest point is at parameter `s`. -/
theorem face_area (p0 p1 p2 : V3 ℝ) (s : ℝ)
    (hs : (p1 - p0).dot (p2 - (p0 + (p1 - p0).smul s)) = 0) :
    triArea p0 p1 p2 = 1 / 2 * (p1 - p0).norm * (p2 - (p0 + (p1 - p0).smul s)).norm := by
  have hc : (p1 - p0).cross (p2 - p0) = (p1 - p0).cross (p2 - (p0 + (p1 - p0).smul s)) := by
    ext <;> simp [V3.cross] <;> ring
  have lag : ∀ a b : V3 ℝ, (a.cross b).sqrNorm = a.sqrNorm * b.sqrNorm - (a.dot b) * (a.dot b) := by
    intro a b; simp [V3.cross, V3.sqrNorm, V3.dot]; ring
  unfold triArea
  rw [hc, V3.norm_eq, lag, hs, mul_zero, sub_zero, Real.sqrt_mul (V3.sqrNorm_nonneg _)]
  rw [← V3.norm_eq, ← V3.norm_eq]
  ring

/-! ### The statements are not empty -/

/-- A square of two triangles, hit by a ray from above: the first face is reported at distance 1 (the second
one also accepts the point, being tested as a parallelogram). -/
def square : Mesh ℚ :=
  ⟨[⟨0, 0, 0⟩, ⟨1, 0, 0⟩, ⟨1, 1, 0⟩, ⟨0, 1, 0⟩], [], [],
   [⟨![0, 1, 2], ![0, 1, 2], ![0, 1, 2]⟩, ⟨![0, 2, 3], ![0, 2, 3], ![0, 2, 3]⟩]⟩

example : square.WellFormed := by
  intro f hf k
  simp [square] at hf ⊢
  rcases hf with rfl | rfl <;> fin_cases k <;> simp

example : square.HitsAt ⟨⟨3/4, 1/4, 1⟩, ⟨0, 0, -1⟩, ⊥, ⊤⟩ 0 ⟨1/2, 1/4, 1⟩ := by
  refine ⟨_, _, _, _, rfl, rfl, rfl, rfl, ?_, by norm_num, by norm_num, by norm_num, by norm_num, bot_le, le_top, ?_⟩
  · simp [Slant, V3.dot, V3.cross]; norm_num
  · ext <;> simp [Ray.point] <;> norm_num

example : square.box = some ⟨⟨0, 0, 0⟩, ⟨1, 1, 0⟩⟩ := by decide +kernel

example : InTriangle (⟨0, 0, 0⟩ : V3 ℚ) ⟨1, 0, 0⟩ ⟨0, 1, 0⟩ ⟨1/4, 1/4, 0⟩ :=
  ⟨1/4, 1/4, by norm_num, by norm_num, by norm_num, by ext <;> simp⟩

end Feign.Shapes
