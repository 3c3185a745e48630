import Verif.Sdf.SelfShadow

/-!
# C127: objects that a ray does not meet do not change what it meets (distance functions)
-/

namespace Feign.Sdf

open V3

/-- The ray keeps further away from the shape than the tolerance. -/
def Avoids (r : Ray ℝ) (s : Shape) : Prop := ∀ t, eps ≤ t → ∃ d, s.eval (r.point t) = some d ∧ eps < d

/-- **C127, the part that holds for distance functions** (the full claim: the same answer). Shapes `gs` that the ray
avoids are added: when the ray is reported to hit something both with and without them, it is a shape that was there
before, both reported places are within the tolerance of such a shape, and neither lies behind a point of one. -/
theorem unmet_shapes_partial (ss gs : List Shape) (hw : ∀ s ∈ ss ++ gs, s.WellFormed) (r : Ray ℝ)
    (hd : r.dir.sqrNorm = 1) (hg : ∀ g ∈ gs, Avoids r g) (far far' : Ext ℝ) (n n' : ℕ) (start start' : ℝ)
    (hst : eps ≤ start') (h h' : Hit) (hm : march (evals ss) r far n start = .ok (.hit h))
    (hm' : march (evals (ss ++ gs)) r far' n' start' = .ok (.hit h')) :
    (∃ s, ss[h.shape]? = some s ∧ ∃ q ∈ s.solid, dist (r.point h.t) q ≤ eps) ∧
    (∃ s, ss[h'.shape]? = some s ∧ ∃ q ∈ s.solid, dist (r.point h'.t) q ≤ eps) ∧
    ∀ t, start ≤ t → start' ≤ t → ∀ s ∈ ss, r.point t ∈ s.solid → h.t ≤ t ∧ h'.t ≤ t := by
  have hw1 : ∀ s ∈ ss, s.WellFormed := fun s hs => hw s (List.mem_append_left _ hs)
  obtain ⟨s, hs, q, hq, hq1, -⟩ := hit_near_surface ss hw1 r hd far n start h hm
  obtain ⟨s', hs', q', hq', hq1', -⟩ := hit_near_surface (ss ++ gs) hw r hd far' n' start' h' hm'
  obtain ⟨o, ho, hso⟩ := march_sound (evals ss) (solids ss) (evals_conservative ss hw1) r hd far n start
  obtain ⟨o', ho', hso'⟩ := march_sound (evals (ss ++ gs)) (solids (ss ++ gs)) (evals_conservative _ hw) r hd far' n' start'
  rw [hm] at ho
  rw [hm'] at ho'
  cases ho
  cases ho'
  have hlt : h'.shape < ss.length := by
    by_contra hc
    push Not at hc
    rw [List.getElem?_append_right hc] at hs'
    obtain ⟨d, hd1, hd2⟩ := hg s' (List.mem_of_getElem? hs') h'.t (hst.trans hso'.1)
    obtain ⟨sd, hev, hsd, -⟩ := march_hit _ _ _ _ _ _ hm'
    obtain ⟨f, hf, hfm⟩ := ((closest_shape _ _).1 _ _ hev).1
    unfold evals at hf
    rw [List.getElem?_map, List.getElem?_append_right hc, hs', Option.map_some] at hf
    cases hf
    rw [hd1] at hfm
    cases hfm
    linarith
  rw [List.getElem?_append_left hlt] at hs'
  refine ⟨⟨s, hs, q, hq, hq1⟩, ⟨s', hs', q', hq', hq1'⟩, fun t h1 h2 c hc hin => ?_⟩
  obtain ⟨i, hi⟩ := List.mem_iff_getElem?.mp hc
  have hil : i < ss.length := (List.getElem?_eq_some_iff.mp hi).1
  constructor
  · by_contra hlt'
    push Not at hlt'
    refine hso.2.2.1 t h1 hlt' i ?_ ?_
    · unfold evals; rwa [List.length_map]
    · unfold solids; rw [hi]; exact hin
  · by_contra hlt'
    push Not at hlt'
    refine hso'.2.2.1 t h2 hlt' i ?_ ?_
    · unfold evals; rw [List.length_map, List.length_append]; omega
    · unfold solids; rw [List.getElem?_append_left hil, hi]; exact hin

theorem march_constant (fs : List (V3 ℝ → Option ℝ)) (r : Ray ℝ) (far : Ext ℝ) (h : ℝ) (i : ℕ) (hh : eps < h) (n : ℕ) :
    ∀ d, (∀ t, d ≤ t → t ≤ d + n * h → sdEvaluate fs (r.point t) = some (h, i)) → Ext.fin (d + n * h) ≤ far →
      march fs r far n d = .ok (.exhausted (d + n * h)) := by
  have h0 : 0 < h := eps_pos.trans hh
  induction n with
  | zero => intro d _ _; simp [march]
  | succ n ih =>
    intro d hs hf
    have hn : (0 : ℝ) ≤ n * h := by positivity
    have e : d + ((n + 1 : ℕ) : ℝ) * h = d + h + n * h := by push_cast; ring
    rw [e] at hs hf ⊢
    unfold march
    rw [if_pos (le_trans (by rw [Ext.fin_le_fin]; linarith) hf)]
    dsimp only
    rw [hs d le_rfl (by linarith)]
    dsimp only
    rw [if_neg (not_le.mpr hh)]
    exact ih (d + h) (fun t h1 h2 => hs t (by linarith) h2) hf

/-- The ray of the example below: along the x axis, 1.1 thousandths above the floor. -/
noncomputable def lowRay : Ray ℝ := ⟨⟨0, 11 / 10000, 0⟩, ⟨1, 0, 0⟩, Ext.fin eps, ⊤⟩

theorem slab_along (mn mx : ℝ) (h : mn ≤ mx) : slabNF 0 1 mn mx (true, ⊥, ⊤) = (true, Ext.fin mn, Ext.fin mx) := by
  unfold slabNF
  rw [if_neg (by simp), if_neg (by norm_num)]
  have e1 : (mn - 0) * (1 / 1) = mn := by norm_num
  have e2 : (mx - 0) * (1 / 1) = mx := by norm_num
  dsimp only
  simp only [e1, e2]
  have h1 : ¬ mn > mx := not_lt.mpr h
  rw [if_neg h1, if_neg h1, max_eq_left bot_le, min_eq_left le_top]
  rw [decide_eq_true (show Ext.fin mn ≤ Ext.fin mx by rwa [Ext.fin_le_fin])]

theorem slab_across (o mn mx : ℝ) (h1 : mn ≤ o) (h2 : o ≤ mx) (s : Ext ℝ × Ext ℝ) :
    slabNF o 0 mn mx (true, s) = (true, s) := by
  unfold slabNF
  rw [if_neg (by simp), if_pos rfl, if_neg (by push Not; exact ⟨h1, h2⟩)]

theorem low_near_far (b : B3 ℝ) (hx : b.min.x ≤ b.max.x) (hy : b.min.y ≤ 0) (hy' : 11 / 10000 ≤ b.max.y) (hz : b.min.z ≤ 0)
    (hz' : 0 ≤ b.max.z) : boxNearFar b lowRay = (Ext.fin b.min.x, Ext.fin b.max.x) := by
  unfold boxNearFar lowRay
  dsimp only
  rw [slab_along _ _ hx, slab_across _ _ _ (by linarith) hy', slab_across _ _ _ hz hz']

/-- **C127, violated.** A ball ten units ahead is hit. With a floor 1.1 tolerances below the ray, which the ray never
comes nearer to, every step is as short as that distance, the loop ends after 2000 of them, and the ball is not found. -/
theorem floor_hides_ball_refuted :
    ∃ (ball floor : Shape) (b f : B3 ℝ) (r : Ray ℝ), ball.WellFormed ∧ floor.WellFormed ∧ ball.boundingBox = some b ∧
      floor.boundingBox = some f ∧ r.dir.sqrNorm = 1 ∧ Avoids r floor ∧
      (∃ h, intersect (evals [ball]) (sceneBox [b]) r = .ok (.hit h)) ∧
      ∃ d, intersect (evals [ball, floor]) (sceneBox [b, f]) r = .ok (.exhausted d) ∧ d < 3 := by
  have hplane : ∀ t, (Shape.plane 0 ⟨0, 1, 0⟩).eval (lowRay.point t) = some (11 / 10000) := by
    intro t
    simp [Shape.eval, planeEval, lowRay, Ray.point, dot]
    norm_num
  refine ⟨.sphere ⟨10, 0, 0⟩ 1, .plane 0 ⟨0, 1, 0⟩, ⟨⟨9, -1, -1⟩, ⟨11, 1, 1⟩⟩,
    ⟨⟨-5000, -5000, -5000⟩, ⟨5000, 5000, 5000⟩⟩, lowRay, ?_, ?_, ?_, ?_, ?_, ?_, ?_, ?_⟩
  · show (0 : ℝ) ≤ 1
    norm_num
  · simp [Shape.WellFormed, sqrNorm]
  · simp only [Shape.boundingBox]
    rw [if_pos (by norm_num)]
    congr 2 <;> ext <;> norm_num
  · simp only [Shape.boundingBox]
    congr 2 <;> ext <;> norm_num
  · simp [lowRay, sqrNorm]
  · intro t _
    exact ⟨_, hplane t, by unfold eps; norm_num⟩
  · have hin : lowRay.point 10 ∈ (Shape.sphere ⟨10, 0, 0⟩ 1).solid := by
      show (lowRay.point 10 - ⟨10, 0, 0⟩).norm ≤ 1
      rw [norm_eq]
      apply Real.sqrt_le_one.mpr
      simp only [sqrNorm, lowRay, Ray.point]
      simp
      norm_num
    rcases intersect_finds (evals [.sphere ⟨10, 0, 0⟩ 1]) (solids [.sphere ⟨10, 0, 0⟩ 1])
      (evals_conservative _ (by simp [Shape.WellFormed])) ⟨⟨9, -1, -1⟩, ⟨11, 1, 1⟩⟩ (by
        refine ⟨?_, ?_, ?_⟩ <;> norm_num) lowRay (by simp [lowRay, sqrNorm]) 0 (by simp [evals]) 10
        (by unfold eps; norm_num) hin (by
          refine ⟨⟨?_, ?_, ?_⟩, ?_, ?_, ?_⟩ <;> simp [lowRay, Ray.point] <;> norm_num) with ⟨h, hh, -⟩ | ⟨d, -, h1, h2⟩
    · exact ⟨h, hh⟩
    · exfalso
      rw [low_near_far _ (by norm_num) (by norm_num) (by norm_num) (by norm_num) (by norm_num)] at h2
      have hs : startAt (Ext.fin (9 : ℝ)) = 9 := by
        show (if (9 : ℝ) < eps then eps else 9) = 9
        rw [if_neg (by unfold eps; norm_num)]
      rw [hs] at h2
      linarith
  · have hbox : sceneBox [(⟨⟨9, -1, -1⟩, ⟨11, 1, 1⟩⟩ : B3 ℝ), ⟨⟨-5000, -5000, -5000⟩, ⟨5000, 5000, 5000⟩⟩] =
        some ⟨⟨-5000, -5000, -5000⟩, ⟨5000, 5000, 5000⟩⟩ := by
      simp only [sceneBox, List.foldl_cons, List.foldl_nil, B3.expandBox, minV, maxV]
      norm_num
    refine ⟨eps + (2000 : ℕ) * (11 / 10000), ?_, by unfold eps; norm_num⟩
    rw [hbox]
    show march _ _ (boxNearFar _ _).2 2000 (startAt (boxNearFar _ _).1) = _
    rw [low_near_far _ (by norm_num) (by norm_num) (by norm_num) (by norm_num) (by norm_num)]
    have hs : startAt (Ext.fin (-5000 : ℝ)) = eps := by
      show (if (-5000 : ℝ) < eps then eps else -5000) = eps
      rw [if_pos (by unfold eps; norm_num)]
    rw [hs]
    refine march_constant _ _ _ _ 1 (by unfold eps; norm_num) 2000 eps (fun t h1 h2 => ?_) (by
      rw [Ext.fin_le_fin]; unfold eps; norm_num)
    have ht : t ≤ 3 := h2.trans (by unfold eps; norm_num)
    have hb : (11 / 10000 : ℝ) < sphereEval ⟨10, 0, 0⟩ 1 (lowRay.point t) := by
      have : (7 : ℝ) ≤ (lowRay.point t - ⟨10, 0, 0⟩).norm := by
        rw [norm_eq]
        apply Real.le_sqrt_of_sq_le
        simp only [sqrNorm, lowRay, Ray.point]
        simp
        nlinarith
      unfold sphereEval
      linarith
    show sdEvaluate [fun p => some (sphereEval ⟨10, 0, 0⟩ 1 p), fun p => (Shape.plane 0 ⟨0, 1, 0⟩).eval p] _ = _
    simp only [sdEvaluate, sdEvaluateFrom, hplane, better]
    rw [if_pos hb]

/-- A ball two units ahead, and a floor a hundred units below: all hypotheses of `unmet_shapes_partial` hold. -/
example : ∃ h h' far far' start start', eps ≤ start' ∧ Avoids lowRay (.plane ⟨0, -100, 0⟩ ⟨0, 1, 0⟩) ∧
    march (evals [.sphere ⟨2, 0, 0⟩ 1]) lowRay far 2000 start = .ok (.hit h) ∧
    march (evals ([.sphere ⟨2, 0, 0⟩ 1] ++ [.plane ⟨0, -100, 0⟩ ⟨0, 1, 0⟩])) lowRay far' 2000 start' = .ok (.hit h') := by
  have hin : lowRay.point (3 / 2) ∈ (Shape.sphere ⟨2, 0, 0⟩ 1).solid := by
    show (lowRay.point (3 / 2) - ⟨2, 0, 0⟩).norm ≤ 1
    rw [norm_eq]
    apply Real.sqrt_le_one.mpr
    simp only [sqrNorm, lowRay, Ray.point]
    simp
    norm_num
  have key : ∀ ss : List Shape, ss[0]? = some (.sphere ⟨2, 0, 0⟩ 1) → (∀ s ∈ ss, s.WellFormed) →
      ∃ h, march (evals ss) lowRay (Ext.fin 3) 2000 1 = .ok (.hit h) := by
    intro ss h0 hw
    have hl : 0 < ss.length := (List.getElem?_eq_some_iff.mp h0).1
    have hs : startAt (Ext.fin (1 : ℝ)) = 1 := by
      show (if (1 : ℝ) < eps then eps else 1) = 1
      rw [if_neg (by unfold eps; norm_num)]
    have hb := low_near_far ⟨⟨1, -1, -1⟩, ⟨3, 1, 1⟩⟩ (by norm_num) (by norm_num) (by norm_num) (by norm_num) (by norm_num)
    rcases intersect_finds (evals ss) (solids ss) (evals_conservative _ hw) ⟨⟨1, -1, -1⟩, ⟨3, 1, 1⟩⟩ (by
        refine ⟨?_, ?_, ?_⟩ <;> norm_num) lowRay (by simp [lowRay, sqrNorm]) 0 (by simpa [evals] using hl) (3 / 2)
        (by unfold eps; norm_num) (by unfold solids; rw [h0]; exact hin) (by
          refine ⟨⟨?_, ?_, ?_⟩, ?_, ?_, ?_⟩ <;> simp [lowRay, Ray.point] <;> norm_num) with ⟨h, hh, -⟩ | ⟨d, -, h1, h2⟩
    · refine ⟨h, ?_⟩
      change march _ _ (boxNearFar _ _).2 2000 (startAt (boxNearFar _ _).1) = _ at hh
      rw [hb, hs] at hh
      exact hh
    · exfalso
      rw [hb, hs] at h2
      linarith
  have hw : (Shape.sphere ⟨2, 0, 0⟩ 1).WellFormed := by
    show (0 : ℝ) ≤ 1
    norm_num
  have hp : (Shape.plane ⟨0, -100, 0⟩ ⟨0, 1, 0⟩).WellFormed := by simp [Shape.WellFormed, sqrNorm]
  obtain ⟨h, hh⟩ := key [.sphere ⟨2, 0, 0⟩ 1] rfl (by simpa using hw)
  obtain ⟨h', hh'⟩ := key ([.sphere ⟨2, 0, 0⟩ 1] ++ [.plane ⟨0, -100, 0⟩ ⟨0, 1, 0⟩]) rfl (by
    intro s hs
    simp at hs
    rcases hs with rfl | rfl
    · exact hw
    · exact hp)
  refine ⟨h, h', _, _, _, _, by unfold eps; norm_num, fun t _ => ⟨11 / 10000 + 100, ?_, by unfold eps; norm_num⟩, hh, hh'⟩
  simp [Shape.eval, planeEval, lowRay, Ray.point, dot]
  norm_num

end Feign.Sdf
