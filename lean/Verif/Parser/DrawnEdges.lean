import Verif.Parser.DrawnViews
import Verif.Sdf.EdgeViews

/-!
# C141: scene files drawn with the views `cosine_term` and `barycentric`
-/

set_option linter.unusedSectionVars false
set_option linter.unusedSimpArgs false
set_option linter.unusedVariables false

namespace Feign.Parser

open Integrators Sampling MeasureTheory Camera Image
open _root_.Filter Topology
open scoped ENNReal
open Api (St)

/-- The placement of a camera outside all transforms changes no lengths. -/
theorem camera_rigid {origin target up : V3 ℝ} (hv : GoodView origin target up) {t : Feign.Xf ℝ}
    (ht : cameraToWorld Feign.Xf.one origin target up = some t) : Sdf.Rigid t := by
  obtain ⟨x, y, z, hax, t', ht', -, -, -, hvec⟩ := cameraToWorld_spec Feign.Xf.one Xf.valid_one ⟨M4.Affine.one, M4.Affine.one⟩
    origin target up hv
  obtain ⟨x', y', z', hax', hxx, hyy, hzz, hxy, hxz, hyz, -⟩ := lookAt_frame origin target up hv
  rw [hax] at hax'
  simp only [Option.some.injEq, Prod.mk.injEq] at hax'
  obtain ⟨rfl, rfl, rfl⟩ := hax'
  rw [ht] at ht'
  obtain rfl := Option.some.inj ht'
  intro v
  rw [hvec, vec_one]
  simp only [V3.dot] at hxx hyy hzz hxy hxz hyz
  simp only [place, V3.sqrNorm, V3.add_x, V3.add_y, V3.add_z, V3.smul_x, V3.smul_y, V3.smul_z, V3.zero_x, V3.zero_y, V3.zero_z]
  linear_combination v.x ^ 2 * hxx + v.y ^ 2 * hyy + v.z ^ 2 * hzz + 2 * v.x * v.y * hxy + 2 * v.x * v.z * hxz + 2 * v.y * v.z * hyz

section
variable (fl : Rat → ℝ) {ms : List (String × Js)} {s : St (Call ℝ) (Option (Feign.Xf ℝ))}
  (h : runFile fl matrices (.obj ms) = some (.rendered s)) (hw : Whole ((entries fl matrices ms).map (·.2)))
  {d : Drawn (Option (Feign.Xf ℝ))} (hd : Shows (entries fl matrices ms) d) (hg : d.Viewable)
  (mul : Option (Feign.Xf ℝ) → Option (Feign.Xf ℝ) → Option (Feign.Xf ℝ)) (one : Option (Feign.Xf ℝ))
  {os es mds : List Nat} (hos : Api.IsOrder s .object os) (hes : Api.IsOrder s .emitter es)
  (hms : Api.IsOrder s .media mds)
include h hw hd hg hos hes hms

/-- **C141, the view `cosine_term`** (missing: the sign and the background, refuted by `cosine_ball_refuted`). As `file_ambient`. Each
pixel plus two tends to two minus the cosine between the normal of the hit and the direction towards the viewer, with zero where
nothing is hit, averaged over the lens and the filter. -/
theorem file_cosine_partial (hview : d.view = "cosine_term") :
    ∃ a d' bs x t, Api.flush true mul one s os es mds = (.ok, a) ∧ drawn s a = some d' ∧ d'.Same d ∧ d'.view = "cosine_term" ∧
      (d'.things.map (·.1)).mapM Sdf.Shape.boundingBox = some bs ∧ d'.placed = some x ∧
      cameraToWorld x d.camera.origin d.camera.target d.camera.up = some t ∧
      let hit := Sdf.hitOf (Sdf.evals (d'.things.map (·.1))) (Sdf.sceneBox bs)
      let S := Sdf.seenIn (Sdf.evals (d'.things.map (·.1))) (Sdf.sceneBox bs)
      (∀ r a, hit r = some a → ∃ th ∈ d.things, ∃ q ∈ th.1.solid, Sdf.dist a.p q ≤ 2 * Sdf.eps) ∧
      ∀ {ray : ℝ × ℝ → ℝ × ℝ → Integrators.Ray}, d.camera.persp.Shows t (fun s => (s.1, s.2.1)) ray →
      ∀ {L : Integrators.Ray → Stream → V3 ℝ × Stream}, IsView (fun q r => cosineLi q r.2 (S.answer S.normal r)) L →
        Sdf.TendsAbove d.camera.persp t ray L (Sdf.facing hit) := by
  obtain ⟨a, d', bs, x, t, h1, h2, h3, h4, h5, h6, haff, h7, h8⟩ := file_found fl h hw hd hg mul one hos hes hms
  obtain ⟨ho, -⟩ := (rendered_iff fl matrices ms).1 ⟨s, h⟩
  obtain ⟨_, _, _, cam, _, _, _, _, _, _, _, -, -, hcam, -, -, -⟩ := hd.settings
  have hpl : d'.placed = some Feign.Xf.one := (congrArg Drawn.placed h3.2).trans (camera_entry fl matrices ho hcam)
  obtain rfl : x = Feign.Xf.one := Option.some.inj (h5.symm.trans hpl)
  exact ⟨a, d', bs, _, t, h1, h2, h3, h7.trans hview, h4, h5, h6, h8,
    fun hray _ hL => Sdf.sdf_cosine_partial hg.camera hg.focus haff hray (camera_rigid hg.view h6) hL⟩

/-- **C141, the view `barycentric`.** As `file_ambient`. Each pixel plus two tends to three where something is hit and zero elsewhere,
averaged over the lens and the filter. -/
theorem file_barycentric (hview : d.view = "barycentric") :
    ∃ a d' bs x t, Api.flush true mul one s os es mds = (.ok, a) ∧ drawn s a = some d' ∧ d'.Same d ∧ d'.view = "barycentric" ∧
      (d'.things.map (·.1)).mapM Sdf.Shape.boundingBox = some bs ∧ d'.placed = some x ∧
      cameraToWorld x d.camera.origin d.camera.target d.camera.up = some t ∧
      let hit := Sdf.hitOf (Sdf.evals (d'.things.map (·.1))) (Sdf.sceneBox bs)
      let S := Sdf.seenIn (Sdf.evals (d'.things.map (·.1))) (Sdf.sceneBox bs)
      (∀ r a, hit r = some a → ∃ th ∈ d.things, ∃ q ∈ th.1.solid, Sdf.dist a.p q ≤ 2 * Sdf.eps) ∧
      ∀ {ray : ℝ × ℝ → ℝ × ℝ → Integrators.Ray}, d.camera.persp.Shows t (fun s => (s.1, s.2.1)) ray →
      ∀ {L : Integrators.Ray → Stream → V3 ℝ × Stream}, IsView (fun q r => barycentricLi q (S.answer S.bary r)) L →
        Sdf.TendsAbove d.camera.persp t ray L (Sdf.marked hit) := by
  obtain ⟨a, d', bs, x, t, h1, h2, h3, h4, h5, h6, haff, h7, h8⟩ := file_found fl h hw hd hg mul one hos hes hms
  exact ⟨a, d', bs, x, t, h1, h2, h3, h7.trans hview, h4, h5, h6, h8,
    fun hray _ hL => Sdf.sdf_barycentric hg.camera hg.focus haff hray hL⟩

end

/-- The file with the ball and the floor, drawn with each of the two views, meets the hypotheses. -/
example {v : String} (hv : v ∈ ["cosine_term", "barycentric"]) :
    ∃ s d, runFile real matrices (.obj (roomFile v moved)) = some (.rendered s) ∧
    Whole ((entries real matrices (roomFile v moved)).map (·.2)) ∧ Shows (entries real matrices (roomFile v moved)) d ∧
    d.view = v ∧ d.Viewable ∧ ∃ os es mds, Api.IsOrder s .object os ∧ Api.IsOrder s .emitter es ∧ Api.IsOrder s .media mds := by
  have hv' : v ∈ roomViews := by
    simp only [List.mem_cons, List.not_mem_nil, or_false] at hv
    rcases hv with rfl | rfl <;> simp [roomViews]
  obtain ⟨s, hs⟩ := room_runs real matrices hv'
  have ho := order_exists (s := s) (by
    obtain ⟨-, hx⟩ := (rendered_cases real matrices _ s).1 hs
    obtain ⟨o, hr⟩ := exec_run matrices _ hx
    exact (Api.run_keeps true _ (Api.init_inv _) hr).1)
  obtain ⟨os, h1⟩ := ho .object
  obtain ⟨es, h2⟩ := ho .emitter
  obtain ⟨mds, h3⟩ := ho .media
  exact ⟨s, roomDrawn v matrices.one, hs, by rw [room_entries _ _ hv']; exact room_whole _ _ _ _,
    by rw [room_entries _ _ hv']; exact room_shows _ _ _, rfl, (room_good _ _).viewable, os, es, mds, h1, h2, h3⟩

/-- Programs of the two kinds exist for every scene. -/
example (fs : List (V3 ℝ → Option ℝ)) (box : Option (B3 ℝ)) :
    (∃ L, IsView (fun q (r : Integrators.Ray) => cosineLi q r.2 ((Sdf.seenIn fs box).answer (Sdf.seenIn fs box).normal r)) L) ∧
    ∃ L, IsView (fun q r => barycentricLi q ((Sdf.seenIn fs box).answer (Sdf.seenIn fs box).bary r)) L := by
  refine ⟨⟨fun r ω => (_, ω), fun r ω => ⟨fun q => shows_cosine q _ _, rfl⟩⟩,
    ⟨fun r ω => (_, ω), fun r ω => ⟨fun q => shows_barycentric q _, rfl⟩⟩⟩

end Feign.Parser
