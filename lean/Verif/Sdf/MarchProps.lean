import Verif.Sdf.MarchLemmas

/-!
# Properties of scene evaluation and sphere tracing (C26, C27)
-/

set_option linter.unusedSectionVars false

namespace Feign.Sdf
open Feign.V3

/-! ## C27: the closest shape -/

/-- C27: the value is the minimum over the shapes and the index is the first shape attaining it. Without
any shape that has a distance at the point, there is no result. -/
theorem closest_shape (fs : List (V3 ℝ → Option ℝ)) (p : V3 ℝ) :
    (∀ m i, sdEvaluate fs p = some (m, i) →
      (∃ f, fs[i]? = some f ∧ f p = some m) ∧
      (∀ f ∈ fs, ∀ d, f p = some d → m ≤ d) ∧
      (∀ j, j < i → ∀ f, fs[j]? = some f → ∀ d, f p = some d → m < d)) ∧
    (sdEvaluate fs p = none ↔ ∀ f ∈ fs, f p = none) := by
  have hm := sdEvaluate_firstMin fs p
  refine ⟨?_, ?_, ?_⟩
  · intro m i h
    rw [h] at hm
    obtain ⟨h1, h2, h3⟩ := hm
    refine ⟨h1, ?_, fun j hj f hf d hd => h3 j f d hj hf hd⟩
    intro f hf d hd
    obtain ⟨j, hj⟩ := List.mem_iff_getElem?.mp hf
    exact h2 j f d hj hd
  · intro h f hf
    rw [h] at hm
    obtain ⟨j, hj⟩ := List.mem_iff_getElem?.mp hf
    exact hm j f hj
  · intro h
    by_contra hc
    cases hs : sdEvaluate fs p with
    | none => exact hc hs
    | some b =>
      obtain ⟨m, i⟩ := b
      rw [hs] at hm
      obtain ⟨⟨f, hf, hfm⟩, -⟩ := hm
      rw [h f (List.mem_of_getElem? hf)] at hfm
      cases hfm

/-- Two shapes at equal distance, one further away: the first of the two is reported. -/
example : sdEvaluate [fun _ => some 3, fun _ => some 2, fun _ => none, fun _ => some 2] 0
    = some (2, 1) := by
  simp only [sdEvaluate, sdEvaluateFrom, better]
  norm_num

/-! ## C26: sphere tracing -/

/-- Every function is defined everywhere and never over-estimates the distance to its solid. -/
def Conservative (fs : List (V3 ℝ → Option ℝ)) (S : ℕ → Set (V3 ℝ)) : Prop :=
  ∀ i f, fs[i]? = some f → ∀ p, ∃ d, f p = some d ∧ ∀ q ∈ S i, d ≤ dist p q

/-- No solid is met for parameters from `lo` up to but excluding `hi`. -/
def Clear (r : Ray ℝ) (S : ℕ → Set (V3 ℝ)) (n : ℕ) (lo hi : ℝ) : Prop :=
  ∀ t, lo ≤ t → t < hi → ∀ i < n, r.point t ∉ S i

/-- What each way of ending says about the ray. -/
def Sound (fs : List (V3 ℝ → Option ℝ)) (S : ℕ → Set (V3 ℝ)) (r : Ray ℝ) (far : Ext ℝ) (start : ℝ)
    (steps : ℕ) : March → Prop
  | .hit h => start ≤ h.t ∧ Ext.fin h.t ≤ far ∧ Clear r S fs.length start h.t ∧
      (∃ f d, fs[h.shape]? = some f ∧ f (r.point h.t) = some d ∧ d ≤ eps) ∧
      h.normal.norm = 1 ∧ dist h.p (r.point h.t) = eps
  | .passed d => start ≤ d ∧ far < Ext.fin d ∧ Clear r S fs.length start d
  | .nothing => fs = []
  | .exhausted d => start + steps * eps ≤ d ∧ Clear r S fs.length start d

theorem eps_pos : 0 < eps := by unfold eps; norm_num

/-- C26: marching with conservative distances along a unit direction never aborts, never passes a point
of a solid before reporting a hit, and a hit is where some shape's distance is within the tolerance.
The loop runs at most `steps` rounds (2000 in `intersect`); when it gives up, it has advanced by more
than the tolerance in every round. -/
theorem march_sound (fs : List (V3 ℝ → Option ℝ)) (S : ℕ → Set (V3 ℝ)) (hc : Conservative fs S)
    (r : Ray ℝ) (hd : r.dir.sqrNorm = 1) (far : Ext ℝ) (steps : ℕ) (start : ℝ) :
    ∃ o, march fs r far steps start = .ok o ∧ Sound fs S r far start steps o := by
  induction steps generalizing start with
  | zero =>
    refine ⟨.exhausted start, rfl, by simp, ?_⟩
    intro t h1 h2
    exact absurd h2 (not_lt.mpr h1)
  | succ n ih =>
    unfold march
    by_cases hf : Ext.fin start ≤ far
    · rw [if_pos hf]
      dsimp only
      cases hs : sdEvaluate fs (r.point start) with
      | none =>
        refine ⟨.nothing, rfl, ?_⟩
        show fs = []
        cases fs with
        | nil => rfl
        | cons f fs =>
          have h1 := ((closest_shape (f :: fs) (r.point start)).2.mp hs) f (by simp)
          obtain ⟨d, h2, -⟩ := hc 0 f rfl (r.point start)
          rw [h1] at h2; cases h2
      | some b =>
        obtain ⟨sd, idx⟩ := b
        dsimp only
        obtain ⟨⟨g, hg, hgm⟩, hmin, -⟩ := (closest_shape fs (r.point start)).1 sd idx hs
        by_cases he : sd ≤ eps
        · rw [if_pos he]
          have hex : ∃ f ∈ fs, ∀ q, f q ≠ none := by
            refine ⟨g, List.mem_of_getElem? hg, fun q => ?_⟩
            obtain ⟨d, h, -⟩ := hc idx g hg q
            rw [h]; exact Option.some_ne_none _
          obtain ⟨n', hn', h1⟩ := sdNormal_unit fs (r.point start) hex
          rw [hn']
          dsimp only
          have hlt : ¬ n'.norm < eps := by rw [h1]; unfold eps; norm_num
          rw [if_neg hlt]
          refine ⟨_, rfl, le_rfl, hf, ?_, ⟨g, sd, hg, hgm, he⟩, h1, ?_⟩
          · intro t ht1 ht2
            exact absurd ht2 (not_lt.mpr ht1)
          · unfold dist
            dsimp only
            have : r.point start + n'.smul eps - r.point start = n'.smul eps := by ext <;> simp
            rw [this, norm_smul', h1, one_mul, abs_of_pos eps_pos]
        · rw [if_neg he]
          rw [not_le] at he
          -- the step is clear
          have hstep : Clear r S fs.length start (start + sd) := by
            intro t ht1 ht2 i hi hmem
            obtain ⟨f, hfi⟩ : ∃ f, fs[i]? = some f := ⟨fs[i], List.getElem?_eq_getElem hi⟩
            obtain ⟨d, hdv, hle⟩ := hc i f hfi (r.point start)
            have h1 := hmin f (List.mem_of_getElem? hfi) d hdv
            have h2 := hle _ hmem
            rw [ray_dist r hd, abs_sub_comm, abs_of_nonneg (by linarith)] at h2
            linarith
          have join : ∀ d, Clear r S fs.length (start + sd) d → Clear r S fs.length start d := by
            intro d hcl t ht1 ht2
            by_cases h : t < start + sd
            · exact hstep t ht1 h
            · exact hcl t (not_lt.mp h) ht2
          have he0 := eps_pos
          obtain ⟨o, ho, hsound⟩ := ih (start + sd)
          refine ⟨o, ho, ?_⟩
          cases o with
          | hit h =>
            obtain ⟨a1, a2, a3, a4⟩ := hsound
            exact ⟨by linarith, a2, join _ a3, a4⟩
          | passed d =>
            obtain ⟨a1, a2, a3⟩ := hsound
            exact ⟨by linarith, a2, join _ a3⟩
          | nothing => exact hsound
          | exhausted d =>
            obtain ⟨a1, a2⟩ := hsound
            refine ⟨?_, join _ a2⟩
            push_cast
            linarith
    · rw [if_neg hf]
      refine ⟨.passed start, rfl, le_rfl, not_le.mp hf, ?_⟩
      intro t h1 h2
      exact absurd h2 (not_lt.mpr h1)

/-- The distance functions of a list of primitives. -/
noncomputable def evals (ss : List Shape) : List (V3 ℝ → Option ℝ) := ss.map Shape.eval
/-- Their solids by index. -/
def solids (ss : List Shape) (i : ℕ) : Set (V3 ℝ) :=
  match ss[i]? with
  | some s => s.solid
  | none => ∅

theorem evals_conservative (ss : List Shape) (h : ∀ s ∈ ss, s.WellFormed) :
    Conservative (evals ss) (solids ss) := by
  intro i f hf p
  unfold evals at hf
  rw [List.getElem?_map, Option.map_eq_some_iff] at hf
  obtain ⟨s, hs, rfl⟩ := hf
  obtain ⟨g, hg, hsd⟩ := primitives_exact s (h s (List.mem_of_getElem? hs))
  refine ⟨g p, hg p, fun q hq => ?_⟩
  unfold solids at hq
  rw [hs] at hq
  exact hsd.outside_le p q hq

/-- C26 for scenes of well-formed primitives: the reported shape's solid is within the tolerance of the
point on the ray, and the reported (offset) point is within twice the tolerance. -/
theorem hit_near_surface (ss : List Shape) (hw : ∀ s ∈ ss, s.WellFormed) (r : Ray ℝ)
    (hd : r.dir.sqrNorm = 1) (far : Ext ℝ) (steps : ℕ) (start : ℝ) (h : Hit)
    (hm : march (evals ss) r far steps start = .ok (.hit h)) :
    ∃ s, ss[h.shape]? = some s ∧ ∃ q ∈ s.solid, dist (r.point h.t) q ≤ eps ∧ dist h.p q ≤ 2 * eps := by
  obtain ⟨o, ho, hs⟩ := march_sound (evals ss) (solids ss) (evals_conservative ss hw) r hd far steps start
  rw [hm] at ho
  cases ho
  obtain ⟨-, -, -, ⟨f, d, hf, hfd, hde⟩, -, hp⟩ := hs
  unfold evals at hf
  rw [List.getElem?_map, Option.map_eq_some_iff] at hf
  obtain ⟨s, hs, rfl⟩ := hf
  obtain ⟨g, hg, hsd⟩ := primitives_exact s (hw s (List.mem_of_getElem? hs))
  rw [hg] at hfd
  obtain rfl := Option.some.inj hfd
  have he0 := eps_pos
  have key : ∃ q ∈ s.solid, dist (r.point h.t) q ≤ eps := by
    by_cases h0 : 0 < g (r.point h.t)
    · obtain ⟨q, hq, e⟩ := hsd.outside_attained _ h0
      exact ⟨q, hq, by rw [e]; exact hde⟩
    · refine ⟨r.point h.t, (hsd.inside_iff _).mp (not_lt.mp h0), ?_⟩
      rw [dist_self]; exact he0.le
  obtain ⟨q, hq, hle⟩ := key
  refine ⟨s, hs, q, hq, hle, ?_⟩
  have := dist_triangle h.p (r.point h.t) q
  linarith

/-- Where marching starts is at or before any box parameter that is at least the tolerance. -/
theorem startAt_le (near : Ext ℝ) (t : ℝ) (h1 : near ≤ Ext.fin t) (h2 : eps ≤ t) : startAt near ≤ t := by
  rcases Ext.cases3 near with rfl | rfl | ⟨s, rfl⟩
  · exact h2
  · exact absurd (top_le_iff.mp h1) (Ext.fin_ne_top t)
  · rw [Ext.fin_le_fin] at h1
    show (if s < eps then eps else s) ≤ t
    split_ifs
    · exact h2
    · exact h1

/-- C26, end to end: if a ray meets a solid at a parameter that is at least the tolerance, at a point of
the scene's box, then the query reports a hit no later than that, unless it used up its 2000 steps
before getting there. -/
theorem intersect_finds (fs : List (V3 ℝ → Option ℝ)) (S : ℕ → Set (V3 ℝ)) (hc : Conservative fs S)
    (b : B3 ℝ) (hb : b.min.le b.max) (r : Ray ℝ) (hd : r.dir.sqrNorm = 1) (i : ℕ) (hi : i < fs.length)
    (t : ℝ) (ht : eps ≤ t) (hS : r.point t ∈ S i) (hbox : b.containsB (r.point t)) :
    (∃ h, intersect fs (some b) r = .ok (.hit h) ∧ h.t ≤ t) ∨
    (∃ d, intersect fs (some b) r = .ok (.exhausted d) ∧ d ≤ t ∧ startAt (boxNearFar b r).1 + 2 ≤ d) := by
  obtain ⟨hnone, hsome⟩ := B3.slabs_spec b r hb
  cases hs : b.slabs r with
  | none => exact absurd hbox (hnone hs t)
  | some nf =>
    obtain ⟨n, f⟩ := nf
    obtain ⟨-, -, -, hiff⟩ := hsome n f hs
    obtain ⟨hn, hf⟩ := (hiff t).mpr hbox
    have hnf := boxNearFar_of_slabs b r _ hs
    have hst : startAt (boxNearFar b r).1 ≤ t := by rw [hnf]; exact startAt_le n t hn ht
    obtain ⟨o, ho, hso⟩ := march_sound fs S hc r hd (boxNearFar b r).2 2000 (startAt (boxNearFar b r).1)
    have hint : intersect fs (some b) r = .ok o := ho
    cases o with
    | hit h =>
      left
      obtain ⟨-, -, hcl, -⟩ := hso
      refine ⟨h, hint, ?_⟩
      by_contra hlt
      exact hcl t hst (not_le.mp hlt) i hi hS
    | passed d =>
      exfalso
      obtain ⟨-, hfar, hcl⟩ := hso
      rw [hnf] at hfar
      have h1 : Ext.fin t < Ext.fin d := lt_of_le_of_lt hf hfar
      rw [Ext.fin_lt_fin] at h1
      exact hcl t hst h1 i hi hS
    | nothing =>
      have : fs = [] := hso
      rw [this] at hi
      exact absurd hi (by simp)
    | exhausted d =>
      right
      obtain ⟨h1, hcl⟩ := hso
      refine ⟨d, hint, ?_, ?_⟩
      · by_contra hlt
        exact hcl t hst (not_le.mp hlt) i hi hS
      · have : ((2000 : ℕ) : ℝ) * eps = 2 := by unfold eps; norm_num
        linarith

/-- A scene with a ball of radius 1 at the origin and a ray from `(0, 0, -5)` meet the hypotheses. -/
example : ∃ (ss : List Shape) (b : B3 ℝ) (r : Ray ℝ) (t : ℝ), Conservative (evals ss) (solids ss) ∧
    b.min.le b.max ∧ r.dir.sqrNorm = 1 ∧ 0 < (evals ss).length ∧ eps ≤ t ∧
    r.point t ∈ solids ss 0 ∧ b.containsB (r.point t) := by
  refine ⟨[.sphere ⟨0, 0, 0⟩ 1], ⟨⟨-1, -1, -1⟩, ⟨1, 1, 1⟩⟩, ⟨⟨0, 0, -5⟩, ⟨0, 0, 1⟩, ⊥, ⊤⟩, 5, ?_, ?_, ?_, ?_,
    ?_, ?_, ?_⟩
  · apply evals_conservative
    intro s hs
    rw [List.mem_singleton.mp hs]
    exact zero_le_one
  · exact ⟨by norm_num, by norm_num, by norm_num⟩
  · simp [sqrNorm]
  · simp [evals]
  · unfold eps; norm_num
  · simp [solids, Shape.solid, ball, dist, Ray.point, V3.norm]
  · simp [B3.containsB, V3.le, Ray.point]

/-- Growing by boxes keeps every earlier point and adds the new ones. -/
theorem foldl_contains (bs : List (B3 ℝ)) : ∀ b p, (b.containsB p ∨ ∃ c ∈ bs, c.containsB p) →
    (bs.foldl B3.expandBox b).containsB p := by
  induction bs with
  | nil =>
    rintro b p (h | ⟨c, hc, -⟩)
    · exact h
    · cases hc
  | cons c cs ih =>
    intro b p h
    rw [List.foldl_cons]
    apply ih
    rcases h with h | ⟨d, hd, hp⟩
    · left
      exact ⟨B3.V3.le_trans (B3.minV_le b.min c.min).1 h.1, B3.V3.le_trans h.2 (B3.le_maxV b.max c.max).1⟩
    · rcases List.mem_cons.mp hd with rfl | hd
      · left
        exact ⟨B3.V3.le_trans (B3.minV_le b.min d.min).2 hp.1,
          B3.V3.le_trans hp.2 (B3.le_maxV b.max d.max).2⟩
      · right; exact ⟨d, hd, hp⟩

/-- C26 for the whole pipeline, with the box computed by `build`: in a scene of spheres every ray that
meets one of them at a parameter of at least the tolerance is reported as a hit no later than that,
unless 2000 steps did not get there. -/
theorem spheres_found_partial (cs : List (V3 ℝ × ℝ)) (hr : ∀ c ∈ cs, 0 ≤ c.2) (r : Ray ℝ)
    (hd : r.dir.sqrNorm = 1) (boxes : List (B3 ℝ))
    (hboxes : cs.map (fun c => Shape.boundingBox (.sphere c.1 c.2)) = boxes.map some)
    (c : V3 ℝ × ℝ) (hc : c ∈ cs) (t : ℝ) (ht : eps ≤ t) (hmem : r.point t ∈ ball c.1 c.2) :
    (∃ h, intersect (evals (cs.map fun c => .sphere c.1 c.2)) (sceneBox boxes) r = .ok (.hit h) ∧
      h.t ≤ t) ∨
    (∃ d, intersect (evals (cs.map fun c => .sphere c.1 c.2)) (sceneBox boxes) r =
      .ok (.exhausted d) ∧ d ≤ t) := by
  -- the sphere's own box
  obtain ⟨i, hi⟩ := List.mem_iff_getElem?.mp hc
  have hbi : ∃ b, boxes[i]? = some b ∧ Shape.boundingBox (.sphere c.1 c.2) = some b := by
    have := congrArg (fun l => l[i]?) hboxes
    simp only [List.getElem?_map, hi, Option.map_some] at this
    cases hb : boxes[i]? with
    | none => rw [hb] at this; cases this
    | some b =>
      rw [hb] at this
      simp only [Option.map_some, Option.some.injEq] at this
      exact ⟨b, rfl, this⟩
  obtain ⟨b, hb, hbb⟩ := hbi
  have hbmem := List.mem_of_getElem? hb
  have hcont : b.containsB (r.point t) := by
    obtain ⟨b', hb', hall⟩ := (sphere_box_contains_partial c.1 c.2).mpr (hr c hc)
    rw [hbb] at hb'
    obtain rfl := Option.some.inj hb'
    exact hall _ _ rfl (((sphere_signed_distance c.1 c.2 (hr c hc)).inside_iff _).mpr hmem)
  cases hboxes' : boxes with
  | nil => rw [hboxes'] at hbmem; cases hbmem
  | cons b0 bs =>
    have hbox : (bs.foldl B3.expandBox b0).containsB (r.point t) := by
      apply foldl_contains
      rw [hboxes'] at hbmem
      rcases List.mem_cons.mp hbmem with rfl | h
      · left; exact hcont
      · right; exact ⟨b, h, hcont⟩
    have hw : ∀ s ∈ (cs.map fun c => Shape.sphere c.1 c.2), s.WellFormed := by
      intro s hs
      obtain ⟨c', hc', rfl⟩ := List.mem_map.mp hs
      exact hr c' hc'
    have hlen : i < (evals (cs.map fun c => Shape.sphere c.1 c.2)).length := by
      unfold evals
      rw [List.length_map, List.length_map]
      exact (List.getElem?_eq_some_iff.mp hi).1
    have hS : r.point t ∈ solids (cs.map fun c => Shape.sphere c.1 c.2) i := by
      unfold solids
      rw [List.getElem?_map, hi]
      exact hmem
    rcases intersect_finds _ _ (evals_conservative _ hw) _
      (B3.V3.le_trans hbox.1 hbox.2) r hd i hlen t ht hS hbox with h | ⟨d, h1, h2, -⟩
    · left; exact h
    · right; exact ⟨d, h1, h2⟩

/-! ## The real boxes cut shapes off -/

/-- The scene's box is the one `build` computes, and for cylinders it is wrong (C29), so C26 fails end
to end: this ray passes through the axis of a cylinder and nothing is reported. -/
theorem cylinder_clipped_refuted :
    ∃ (s : Shape) (b : B3 ℝ) (r : Ray ℝ) (t : ℝ), s.WellFormed ∧ s.boundingBox = some b ∧
      r.dir.sqrNorm = 1 ∧ eps ≤ t ∧ r.point t ∈ s.solid ∧
      ∃ d, intersect (evals [s]) (sceneBox [b]) r = .ok (.passed d) ∧ t < d := by
  refine ⟨.cylinder ⟨0, 0, 0⟩ ⟨0, 1, 0⟩ (1 / 4), ⟨⟨1 / 4, 1 / 4, 1 / 4⟩, ⟨-1 / 4, 3 / 4, -1 / 4⟩⟩,
    ⟨⟨-24 / 5, -27 / 20, 0⟩, ⟨24 / 25, 7 / 25, 0⟩, Ext.fin 0, ⊤⟩, 5, ⟨?_, by norm_num⟩, ?_, ?_, ?_, ?_, ?_⟩
  · intro h; have := congrArg V3.y h; norm_num at this
  · show some _ = some _
    congr 1
    ext <;> simp <;> norm_num
  · simp only [sqrNorm]; norm_num
  · unfold eps; norm_num
  · refine ⟨1 / 20, 0, by norm_num, by norm_num, by simp [dot], by simp [V3.norm], ?_⟩
    ext <;> simp [Ray.point] <;> norm_num
  · have hnf : boxNearFar ⟨⟨1 / 4, 1 / 4, 1 / 4⟩, ⟨-1 / 4, 3 / 4, -1 / 4⟩⟩
        ⟨⟨-24 / 5, -27 / 20, 0⟩, ⟨24 / 25, 7 / 25, 0⟩, Ext.fin 0, ⊤⟩
        = (Ext.fin (40 / 7 : ℝ), Ext.fin (505 / 96)) := by
      unfold boxNearFar
      have hx : slabNF (-24 / 5) (24 / 25) (1 / 4) (-1 / 4) (true, ⊥, ⊤) =
          (true, Ext.fin (455 / 96), Ext.fin (505 / 96)) := by
        unfold slabNF
        rw [if_neg (by simp), if_neg (by norm_num)]
        dsimp only
        rw [if_pos (by norm_num), if_pos (by norm_num)]
        have e1 : ((-1 / 4 : ℝ) - -24 / 5) * (1 / (24 / 25)) = 455 / 96 := by norm_num
        have e2 : ((1 / 4 : ℝ) - -24 / 5) * (1 / (24 / 25)) = 505 / 96 := by norm_num
        rw [e1, e2, max_eq_left bot_le, min_eq_left le_top]
        have : Ext.fin (455 / 96 : ℝ) ≤ Ext.fin (505 / 96) := by rw [Ext.fin_le_fin]; norm_num
        rw [decide_eq_true this]
      have hy : slabNF (-27 / 20) (7 / 25) (1 / 4) (3 / 4)
          (true, Ext.fin (455 / 96), Ext.fin (505 / 96)) =
          (false, Ext.fin (40 / 7), Ext.fin (505 / 96)) := by
        unfold slabNF
        rw [if_neg (by simp), if_neg (by norm_num)]
        dsimp only
        rw [if_neg (by norm_num), if_neg (by norm_num)]
        have e1 : ((1 / 4 : ℝ) - -27 / 20) * (1 / (7 / 25)) = 40 / 7 := by norm_num
        have e2 : ((3 / 4 : ℝ) - -27 / 20) * (1 / (7 / 25)) = 15 / 2 := by norm_num
        rw [e1, e2]
        have h1 : max (Ext.fin (40 / 7 : ℝ)) (Ext.fin (455 / 96)) = Ext.fin (40 / 7) :=
          max_eq_left (by rw [Ext.fin_le_fin]; norm_num)
        have h2 : min (Ext.fin (15 / 2 : ℝ)) (Ext.fin (505 / 96)) = Ext.fin (505 / 96) :=
          min_eq_right (by rw [Ext.fin_le_fin]; norm_num)
        rw [h1, h2]
        have : ¬ Ext.fin (40 / 7 : ℝ) ≤ Ext.fin (505 / 96) := by rw [Ext.fin_le_fin]; norm_num
        rw [decide_eq_false this]
      dsimp only
      rw [hx, hy]
      unfold slabNF
      rw [if_pos rfl]
    refine ⟨40 / 7, ?_, by norm_num⟩
    show march _ _ (boxNearFar _ _).2 2000 (startAt (boxNearFar _ _).1) = _
    rw [List.foldl_nil, hnf]
    have hst : startAt (Ext.fin (40 / 7 : ℝ)) = 40 / 7 := by
      show (if (40 / 7 : ℝ) < eps then eps else 40 / 7) = 40 / 7
      rw [if_neg (by unfold eps; norm_num)]
    dsimp only
    rw [hst]
    unfold march
    rw [if_neg (by rw [Ext.fin_le_fin]; norm_num)]

end Feign.Sdf
