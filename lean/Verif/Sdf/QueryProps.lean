import Verif.Sdf.Query
import Verif.Sdf.MarchProps

/-!
# C90: queries in scenes of distance functions look at the asked part of the ray
-/

set_option linter.unusedSectionVars false

namespace Feign.Sdf

open Feign Scene

variable {M : Type}

theorem march_interval (fs : List (V3 ℝ → Option ℝ)) (r : Ray ℝ) (n f lim : Ext ℝ) (steps : ℕ) (d : ℝ) :
    march fs { r with near := n, far := f } lim steps d = march fs r lim steps d := by
  induction steps generalizing d with
  | zero => rfl
  | succ k ih =>
    unfold march
    simp only [ih]
    rfl

/-- What the code does for C90: neither end of the ray has any influence on the answer. -/
theorem interval_ignored (fs : List (V3 ℝ → Option ℝ)) (box : Option (B3 ℝ)) (r : Ray ℝ) (n f : Ext ℝ) :
    intersect fs box { r with near := n, far := f } = intersect fs box r := by
  cases box with
  | none => exact march_interval fs r n f _ _ _
  | some b => exact march_interval fs r n f _ _ _

theorem accel_const (fs : List (V3 ℝ → Option ℝ)) (box : Option (B3 ℝ)) (traits : ℕ → Traits M) (r : Ray ℝ)
    (a b : ℝ) : accel fs box traits r a = accel fs box traits r b := by
  have ha := interval_ignored fs box r (Ext.fin a) r.far
  have hb := interval_ignored fs box r (Ext.fin b) r.far
  unfold accel
  rw [show intersect fs box { r with near := Ext.fin a } = intersect fs box r from ha,
    show intersect fs box { r with near := Ext.fin b } = intersect fs box r from hb]

/-- C90 fails for null shapes: the query for the first visible surface never returns when the first shape on the ray is
a null shape, because moving the near end behind it changes nothing. -/
theorem null_shape_endless_refuted (fs : List (V3 ℝ → Option ℝ)) (box : Option (B3 ℝ)) (traits : ℕ → Traits M)
    (r : Ray ℝ) (a : ℝ) (h : Scene.Hit ℝ M) (hh : accel fs box traits r a = some h) (hn : h.isNull = true) (fuel : ℕ)
    (near : ℝ) : intersectNonNull eps (accel fs box traits r) fuel near = none := by
  induction fuel generalizing near with
  | zero => rfl
  | succ k ih =>
    unfold intersectNonNull
    rw [accel_const fs box traits r near a, hh]
    simp only [hn, if_true]
    exact ih _

/-- The same for shadow rays, whatever media are around: they never return when the first shape on the ray is a null
shape in front of the light. -/
theorem null_shape_shadow_endless_refuted (fs : List (V3 ℝ → Option ℝ)) (box : Option (B3 ℝ)) (traits : ℕ → Traits M)
    (r : Ray ℝ) (a far : ℝ) (h : Scene.Hit ℝ M) (hh : accel fs box traits r a = some h) (hn : h.isNull = true)
    (hb : h.boundary ≠ none) (hf : h.t < far) (initial : Option M) (trans : Segment ℝ M → ℝ) (fuel : ℕ) (near beta : ℝ) :
    intersectTransmittance eps far (accel fs box traits r) initial trans fuel near beta = none := by
  have loop : ∀ fuel near segs, shadowLoop eps far (accel fs box traits r) fuel near segs = none := by
    intro fuel
    induction fuel with
    | zero => intro near segs; rfl
    | succ k ih =>
      intro near segs
      unfold shadowLoop
      rw [accel_const fs box traits r near a, hh]
      simp only [hn, if_true]
      cases hbd : h.boundary with
      | none => exact (hb hbd).elim
      | some o =>
        cases o with
        | none => exact ih _ _
        | some m =>
          simp only
          rw [accel_const fs box traits r (h.t + eps) a, hh]
          simp only [hn, Bool.true_eq_false, if_false]
          rw [if_neg (not_le.2 hf)]
          exact ih _ _
  unfold intersectTransmittance shadowWalk
  cases initial with
  | none => simp only [loop, Option.map_none]
  | some m =>
    simp only
    rw [accel_const fs box traits r near a, hh]
    simp only [hn, if_true, loop, Option.map_none]

theorem startAt_ge (n : Ext ℝ) : eps ≤ startAt n := by
  unfold startAt
  split
  · split
    · exact le_rfl
    · rename_i h; exact not_lt.1 h
  · exact le_rfl

/-- Scene for the witnesses: one sphere of radius 1 around `(0, 0, 2)`, seen from the origin along `z`. -/
noncomputable def ballScene : List (V3 ℝ → Option ℝ) := evals [.sphere ⟨0, 0, 2⟩ 1]

noncomputable def ballBox : Option (B3 ℝ) := sceneBox [⟨⟨-1, -1, 1⟩, ⟨1, 1, 3⟩⟩]

/-- It is the box that the scene computes. -/
theorem ballBox_eq : (Shape.boundingBox (.sphere ⟨0, 0, 2⟩ 1)).map (fun b => sceneBox [b]) = some ballBox := by
  have : (2 * 1 : ℝ) ≥ 0 := by norm_num
  simp only [Shape.boundingBox, if_pos this, Option.map_some, ballBox]
  congr 3
  norm_num [V3.ext_iff, V3.add_x, V3.add_y, V3.add_z]

noncomputable def zRay (far : Ext ℝ) : Ray ℝ := ⟨⟨0, 0, 0⟩, ⟨0, 0, 1⟩, Ext.fin eps, far⟩

theorem ballScene_hit (far : Ext ℝ) : ∃ h, intersect ballScene ballBox (zRay far) = .ok (.hit h) ∧
    1 - eps ≤ h.t ∧ h.t ≤ 1 ∧ h.shape = 0 := by
  have hw : ∀ s ∈ [Shape.sphere ⟨0, 0, 2⟩ 1], s.WellFormed := by
    intro s hs
    rw [List.mem_singleton.1 hs]
    show (0 : ℝ) ≤ 1
    norm_num
  have hd : (zRay far).dir.sqrNorm = 1 := by simp [zRay, V3.sqrNorm]
  have he : eps = 1 / 1000 := rfl
  have hS : (zRay far).point 1 ∈ solids [Shape.sphere ⟨0, 0, 2⟩ 1] 0 := by
    show (zRay far).point 1 ∈ ball ⟨0, 0, 2⟩ 1
    apply ((sphere_signed_distance ⟨0, 0, 2⟩ 1 (by norm_num)).inside_iff _).mp
    have : ((zRay far).point 1 - ⟨0, 0, 2⟩).norm = 1 := by
      simp [zRay, Ray.point, V3.norm]
      norm_num
    unfold sphereEval
    rw [this]
    norm_num
  have hbox : B3.containsB (⟨⟨-1, -1, 1⟩, ⟨1, 1, 3⟩⟩ : B3 ℝ) ((zRay far).point 1) := by
    constructor <;> refine ⟨?_, ?_, ?_⟩ <;> simp [zRay, Ray.point]
  have hfind := intersect_finds ballScene _ (evals_conservative _ hw) ⟨⟨-1, -1, 1⟩, ⟨1, 1, 3⟩⟩
    (by refine ⟨?_, ?_, ?_⟩ <;> norm_num) (zRay far) hd 0 (by simp [ballScene, evals]) 1 (by rw [he]; norm_num) hS hbox
  have hstart : eps ≤ startAt (boxNearFar ⟨⟨-1, -1, 1⟩, ⟨1, 1, 3⟩⟩ (zRay far)).1 := startAt_ge _
  rcases hfind with ⟨h, hh, ht⟩ | ⟨d, -, h1, h2⟩
  · refine ⟨h, hh, ?_, ht, ?_⟩
    all_goals
      obtain ⟨o, ho, hso⟩ := march_sound ballScene _ (evals_conservative _ hw) (zRay far) hd
        (boxNearFar ⟨⟨-1, -1, 1⟩, ⟨1, 1, 3⟩⟩ (zRay far)).2 2000
        (startAt (boxNearFar ⟨⟨-1, -1, 1⟩, ⟨1, 1, 3⟩⟩ (zRay far)).1)
      have hh' : march ballScene (zRay far) (boxNearFar ⟨⟨-1, -1, 1⟩, ⟨1, 1, 3⟩⟩ (zRay far)).2 2000
        (startAt (boxNearFar ⟨⟨-1, -1, 1⟩, ⟨1, 1, 3⟩⟩ (zRay far)).1) = .ok (.hit h) := hh
      rw [hh'] at ho
      injection ho with ho
      subst ho
      obtain ⟨-, -, -, ⟨f, d, hf, hfd, hde⟩, -, -⟩ := hso
    · have hidx : h.shape = 0 := by
        by_contra hne
        have : ballScene[h.shape]? = none := by
          apply List.getElem?_eq_none
          simp only [ballScene, evals, List.map_cons, List.map_nil, List.length_cons, List.length_nil]
          omega
        rw [this] at hf
        cases hf
      rw [hidx] at hf
      have hf' : f = Shape.eval (.sphere ⟨0, 0, 2⟩ 1) := (Option.some.inj hf).symm
      rw [hf'] at hfd
      have hn : ((zRay far).point h.t - ⟨0, 0, 2⟩).norm = |h.t - 2| := by
        simp only [zRay, Ray.point, V3.norm, V3.sub_x, V3.sub_y, V3.sub_z, V3.add_x, V3.add_y, V3.add_z, V3.smul_x,
          V3.smul_y, V3.smul_z]
        rw [← Real.sqrt_mul_self_eq_abs]
        congr 1
        ring
      have hdv : |h.t - 2| - 1 = d := by
        have := Option.some.inj hfd
        rw [← this]
        show _ = sphereEval _ _ _
        unfold sphereEval
        rw [hn]
      have := neg_abs_le (h.t - 2)
      linarith
    · by_contra hne
      have : ballScene[h.shape]? = none := by
        apply List.getElem?_eq_none
        simp only [ballScene, evals, List.map_cons, List.map_nil, List.length_cons, List.length_nil]
        omega
      rw [this] at hf
      cases hf
  · exfalso
    rw [he] at hstart
    linarith

/-- C90 fails for rays that end: a light half a unit away is in the shadow of a sphere that is a whole unit away in
the same direction, and no surface is on the way to the light. -/
theorem shadow_behind_light_refuted (traits : ℕ → Traits M) (hv : (traits 0).isNull = false)
    (trans : Segment ℝ M → ℝ) (near : ℝ) :
    intersectTransmittance eps (1 / 2) (accel ballScene ballBox traits (zRay (Ext.fin (1 / 2)))) none trans 1 near 1 =
      some (.ok (true, 1)) ∧
    ∀ t, 0 ≤ t → t ≤ 1 / 2 → (zRay (Ext.fin (1 / 2))).point t ∉ ball ⟨0, 0, 2⟩ 1 := by
  constructor
  · obtain ⟨h, hh, -, -, hs⟩ := ballScene_hit (Ext.fin (1 / 2))
    have ha : accel ballScene ballBox traits (zRay (Ext.fin (1 / 2))) near =
        some ⟨h.t, (traits h.shape).isNull, (traits h.shape).boundary⟩ := by
      unfold accel
      rw [show ({ zRay (Ext.fin (1 / 2)) with near := Ext.fin near } : Ray ℝ) =
        { zRay (Ext.fin (1 / 2)) with near := Ext.fin near, far := (zRay (Ext.fin (1 / 2))).far } from rfl,
        interval_ignored, hh]
    unfold intersectTransmittance shadowWalk shadowLoop
    rw [ha]
    simp only [hs, hv]
    rfl
  · intro t h0 h1 hm
    have := ((sphere_signed_distance ⟨0, 0, 2⟩ 1 (by norm_num)).inside_iff _).mpr hm
    unfold sphereEval at this
    have hn : ((zRay (Ext.fin (1 / 2))).point t - ⟨0, 0, 2⟩).norm = |t - 2| := by
      simp only [zRay, Ray.point, V3.norm, V3.sub_x, V3.sub_y, V3.sub_z, V3.add_x, V3.add_y, V3.add_z, V3.smul_x,
        V3.smul_y, V3.smul_z]
      rw [← Real.sqrt_mul_self_eq_abs]
      congr 1
      ring
    rw [hn] at this
    have := neg_abs_le (t - 2)
    linarith

/-- C90, for scenes without null shapes and rays without ends: the query for the first visible surface returns after one
look, and it reports a hit no later than any point of a solid that the ray meets in the scene's box at `Epsilon` or
later, unless 2000 steps were used up before. (`_partial`: rays with ends, null shapes.) -/
theorem sdf_query_partial (fs : List (V3 ℝ → Option ℝ)) (S : ℕ → Set (V3 ℝ)) (hc : Conservative fs S) (b : B3 ℝ)
    (hb : b.min.le b.max) (traits : ℕ → Traits M) (hv : ∀ i, (traits i).isNull = false) (r : Ray ℝ)
    (hd : r.dir.sqrNorm = 1) (i : ℕ) (hi : i < fs.length) (t : ℝ) (ht : eps ≤ t) (hS : r.point t ∈ S i)
    (hbox : b.containsB (r.point t)) (fuel : ℕ) (near : ℝ) :
    (∃ h, intersectNonNull eps (accel fs (some b) traits r) (fuel + 1) near = some (some h) ∧ h.t ≤ t) ∨
    (∃ d, intersect fs (some b) r = .ok (.exhausted d) ∧ d ≤ t) := by
  have hsame : intersect fs (some b) { r with near := Ext.fin near } = intersect fs (some b) r :=
    interval_ignored fs (some b) r (Ext.fin near) r.far
  rcases intersect_finds fs S hc b hb r hd i hi t ht hS hbox with ⟨h, hh, hle⟩ | ⟨d, h1, h2, -⟩
  · left
    refine ⟨⟨h.t, (traits h.shape).isNull, (traits h.shape).boundary⟩, ?_, hle⟩
    unfold intersectNonNull accel
    rw [hsame, hh]
    simp only [hv]
    rfl
  · right
    exact ⟨d, h1, h2⟩

/-- C90 for shadow rays outside media, in scenes without null shapes. A ray that meets a solid in the scene's box at
`Epsilon` or later is blocked, unless 2000 steps were used up before. A ray that stays more than `Epsilon` away from
every shape all the way, also beyond its far end, is free and keeps its weight. (`_partial`: shapes beyond the far
end, null shapes.) -/
theorem sdf_shadow_partial (fs : List (V3 ℝ → Option ℝ)) (S : ℕ → Set (V3 ℝ)) (hc : Conservative fs S) (b : B3 ℝ)
    (hb : b.min.le b.max) (traits : ℕ → Traits M) (hv : ∀ i, (traits i).isNull = false) (r : Ray ℝ)
    (hd : r.dir.sqrNorm = 1) (far : ℝ) (trans : Segment ℝ M → ℝ) (fuel : ℕ) (near beta : ℝ) :
    (∀ i < fs.length, ∀ t, eps ≤ t → r.point t ∈ S i → b.containsB (r.point t) →
      intersectTransmittance eps far (accel fs (some b) traits r) none trans (fuel + 1) near beta =
        some (.ok (true, beta)) ∨
      ∃ d, intersect fs (some b) r = .ok (.exhausted d) ∧ d ≤ t) ∧
    ((∀ f ∈ fs, ∀ t, eps ≤ t → ∀ d, f (r.point t) = some d → eps < d) →
      intersectTransmittance eps far (accel fs (some b) traits r) none trans (fuel + 1) near beta =
        some (.ok (false, beta))) := by
  have hsame : intersect fs (some b) { r with near := Ext.fin near } = intersect fs (some b) r :=
    interval_ignored fs (some b) r (Ext.fin near) r.far
  constructor
  · intro i hi t ht hS hbox
    rcases intersect_finds fs S hc b hb r hd i hi t ht hS hbox with ⟨h, hh, -⟩ | ⟨d, h1, h2, -⟩
    · left
      unfold intersectTransmittance shadowWalk shadowLoop accel
      rw [hsame, hh]
      simp only [hv]
      rfl
    · right
      exact ⟨d, h1, h2⟩
  · intro hfree
    have hstart : eps ≤ startAt (boxNearFar b r).1 := startAt_ge _
    obtain ⟨o, ho, hso⟩ := march_sound fs S hc r hd (boxNearFar b r).2 2000 (startAt (boxNearFar b r).1)
    have ho' : intersect fs (some b) r = .ok o := ho
    have ha : accel fs (some b) traits r near = none := by
      unfold accel
      rw [hsame, ho']
      cases o with
      | hit h =>
        obtain ⟨h1, -, -, ⟨f, d, hf, hfd, hde⟩, -, -⟩ := hso
        exact absurd (hfree f (List.mem_of_getElem? hf) h.t (hstart.trans h1) d hfd) (not_lt.2 hde)
      | passed d => rfl
      | nothing => rfl
      | exhausted d => rfl
    unfold intersectTransmittance shadowWalk shadowLoop
    rw [ha]
    rfl

/-- The sphere as a null shape meets the hypotheses of the two theorems about endless queries. -/
example (m : M) : ∃ h, accel ballScene ballBox (fun _ => ⟨true, some (some m)⟩) (zRay ⊤) 0 = some h ∧
    h.isNull = true ∧ h.boundary ≠ none ∧ h.t < 5 := by
  obtain ⟨h, hh, -, ht, -⟩ := ballScene_hit ⊤
  refine ⟨⟨h.t, true, some (some m)⟩, ?_, rfl, by simp, by simp only; linarith⟩
  unfold accel
  rw [show ({ zRay ⊤ with near := Ext.fin 0 } : Ray ℝ) = { zRay ⊤ with near := Ext.fin 0, far := (zRay ⊤).far } from rfl,
    interval_ignored, hh]

/-- The sphere meets the hypotheses of the two partial theorems: the ray along `z` goes through it, in its box. -/
example : (zRay ⊤).dir.sqrNorm = 1 ∧ eps ≤ 1 ∧ (zRay ⊤).point 1 ∈ ball ⟨0, 0, 2⟩ 1 ∧
    B3.containsB (⟨⟨-1, -1, 1⟩, ⟨1, 1, 3⟩⟩ : B3 ℝ) ((zRay ⊤).point 1) := by
  refine ⟨by simp [zRay, V3.sqrNorm], by unfold eps; norm_num, ?_, ?_⟩
  · show dist _ _ ≤ 1
    simp [dist, zRay, Ray.point, V3.norm]
    norm_num
  · constructor <;> refine ⟨?_, ?_, ?_⟩ <;> simp [zRay, Ray.point]

end Feign.Sdf
