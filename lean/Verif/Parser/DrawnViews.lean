import Verif.Parser.DrawnScenes
import Verif.Sdf.ViewsProps

/-!
# C136: scene files drawn with ambient occlusion and with the views of normals
-/

set_option linter.unusedSectionVars false
set_option linter.unusedSimpArgs false
set_option linter.unusedVariables false

namespace Feign.Parser

open Integrators Sampling MeasureTheory Camera Image
open _root_.Filter Topology
open scoped ENNReal
open Api (St)

/-- Well-formed shapes and a usable camera. -/
structure Drawn.Viewable {T : Type} (d : Drawn T) : Prop where
  shapes : ∀ t ∈ d.things, t.1.WellFormed
  camera : d.camera.persp.Ok
  focus : 0 < d.camera.focalDist
  view : GoodView d.camera.origin d.camera.target d.camera.up

theorem Drawn.Good.viewable {T : Type} {d : Drawn T} {ρ E I δ : ℝ} (h : d.Good ρ E I δ) : d.Viewable :=
  ⟨h.shapes, h.camera, h.focus, h.view⟩

section
variable (fl : Rat → ℝ) {ms : List (String × Js)} {s : St (Call ℝ) (Option (Feign.Xf ℝ))}
  (h : runFile fl matrices (.obj ms) = some (.rendered s)) (hw : Whole ((entries fl matrices ms).map (·.2)))
  {d : Drawn (Option (Feign.Xf ℝ))} (hd : Shows (entries fl matrices ms) d) (hg : d.Viewable)
  (mul : Option (Feign.Xf ℝ) → Option (Feign.Xf ℝ) → Option (Feign.Xf ℝ)) (one : Option (Feign.Xf ℝ))
  {os es mds : List Nat} (hos : Api.IsOrder s .object os) (hes : Api.IsOrder s .emitter es)
  (hms : Api.IsOrder s .media mds)
include h hw hd hg hos hes hms

/-- What the renderer finds behind its pointers. -/
theorem file_found : ∃ a d' bs x t, Api.flush true mul one s os es mds = (.ok, a) ∧ drawn s a = some d' ∧ d'.Same d ∧
    (d'.things.map (·.1)).mapM Sdf.Shape.boundingBox = some bs ∧ d'.placed = some x ∧
    cameraToWorld x d.camera.origin d.camera.target d.camera.up = some t ∧ t.Aff ∧ d'.view = d.view ∧
    ∀ r a, Sdf.hitOf (Sdf.evals (d'.things.map (·.1))) (Sdf.sceneBox bs) r = some a →
      ∃ th ∈ d.things, ∃ q ∈ th.1.solid, Sdf.dist a.p q ≤ 2 * Sdf.eps := by
  obtain ⟨a, d', hfl, hdr, hs⟩ := file_drawn fl matrices h hw hd mul one hos hes hms
  obtain ⟨ho, -⟩ := (rendered_iff fl matrices ms).1 ⟨s, h⟩
  obtain ⟨_, _, _, cam, _, _, _, _, _, _, _, -, -, hcam, -, -, -⟩ := hd.settings
  have hpl : d'.placed = some Feign.Xf.one :=
    (congrArg Drawn.placed hs.2).trans (camera_entry fl matrices ho hcam)
  have hvw : d'.view = d.view := by have := congrArg Drawn.view hs.2; exact this
  have hsh : ∀ x ∈ d'.things.map (·.1), x.WellFormed := by
    intro x hx
    obtain ⟨t, ht, rfl⟩ := List.mem_map.1 hx
    exact hg.shapes t (hs.1.mem_iff.1 ht)
  obtain ⟨bs, hbs⟩ := boxes_exist hsh
  obtain ⟨_, _, _, -, t, ht, -, haff, -⟩ := cameraToWorld_spec Feign.Xf.one Xf.valid_one ⟨M4.Affine.one, M4.Affine.one⟩
    d.camera.origin d.camera.target d.camera.up hg.view
  refine ⟨a, d', bs, _, t, hfl, hdr, hs, hbs, hpl, ht, haff, hvw, fun r a ha => ?_⟩
  obtain ⟨s, hsi, hq⟩ := Sdf.hit_near hsh ha
  rw [List.getElem?_map] at hsi
  obtain ⟨th, ht, rfl⟩ := Option.map_eq_some_iff.1 hsi
  exact ⟨th, hs.1.mem_iff.1 (List.mem_of_getElem? ht), hq⟩

/-- **C136, ambient occlusion.** The file was carried out, nothing in it is missing, its declarations show the scene `d` and name
the integrator `ao`. Then the renderer finds that scene behind its pointers, in some order `d'` of its things. Each pixel tends, with
probability one, to how open the points behind it are, averaged over the lens and the filter. What is hit lies near one of the
declared things; light, materials and the limit of bounces do not matter. -/
theorem file_ambient (hview : d.view = "ao") :
    ∃ a d' bs x t, Api.flush true mul one s os es mds = (.ok, a) ∧ drawn s a = some d' ∧ d'.Same d ∧ d'.view = "ao" ∧
      (d'.things.map (·.1)).mapM Sdf.Shape.boundingBox = some bs ∧ d'.placed = some x ∧
      cameraToWorld x d.camera.origin d.camera.target d.camera.up = some t ∧
      let hit := Sdf.hitOf (Sdf.evals (d'.things.map (·.1))) (Sdf.sceneBox bs)
      (∀ r a, hit r = some a → ∃ th ∈ d.things, ∃ q ∈ th.1.solid, Sdf.dist a.p q ≤ 2 * Sdf.eps) ∧
      ∀ {ray : ℝ × ℝ → ℝ × ℝ → Integrators.Ray}, d.camera.persp.Shows t (fun s => (s.1, s.2.1)) ray →
      ∀ {L : Integrators.Ray → Stream → V3 ℝ × Stream},
      (Sdf.skyOf (Sdf.evals (d'.things.map (·.1))) (Sdf.sceneBox bs)).Renders L →
        Sdf.TendsTo d.camera.persp t ray L fun _ => Sdf.openAt hit := by
  obtain ⟨a, d', bs, x, t, h1, h2, h3, h4, h5, h6, haff, h7, h8⟩ := file_found fl h hw hd hg mul one hos hes hms
  exact ⟨a, d', bs, x, t, h1, h2, h3, h7.trans hview, h4, h5, h6, h8, fun hray _ hL => Sdf.sdf_ambient hg.camera hg.focus haff hray hL⟩

/-- **C136, the view `normal`.** As `file_ambient`, with the absolute values of the components of the normal of the hit as red, green
and blue. -/
theorem file_normals (hview : d.view = "normal") :
    ∃ a d' bs x t, Api.flush true mul one s os es mds = (.ok, a) ∧ drawn s a = some d' ∧ d'.Same d ∧ d'.view = "normal" ∧
      (d'.things.map (·.1)).mapM Sdf.Shape.boundingBox = some bs ∧ d'.placed = some x ∧
      cameraToWorld x d.camera.origin d.camera.target d.camera.up = some t ∧
      let hit := Sdf.hitOf (Sdf.evals (d'.things.map (·.1))) (Sdf.sceneBox bs)
      let S := Sdf.seenIn (Sdf.evals (d'.things.map (·.1))) (Sdf.sceneBox bs)
      (∀ r a, hit r = some a → ∃ th ∈ d.things, ∃ q ∈ th.1.solid, Sdf.dist a.p q ≤ 2 * Sdf.eps) ∧
      ∀ {ray : ℝ × ℝ → ℝ × ℝ → Integrators.Ray}, d.camera.persp.Shows t (fun s => (s.1, s.2.1)) ray →
      ∀ {L : Integrators.Ray → Stream → V3 ℝ × Stream}, IsView (fun q r => normalLi q (S.answer S.normal r)) L →
        Sdf.TendsTo d.camera.persp t ray L fun k => Sdf.readNormal (fun n => |n.get k|) hit := by
  obtain ⟨a, d', bs, x, t, h1, h2, h3, h4, h5, h6, haff, h7, h8⟩ := file_found fl h hw hd hg mul one hos hes hms
  exact ⟨a, d', bs, x, t, h1, h2, h3, h7.trans hview, h4, h5, h6, h8, fun hray _ hL => Sdf.sdf_normals hg.camera hg.focus haff hray hL⟩

/-- **C136, the view `nice_normal`.** As `file_ambient`, with the components of the normal of the hit, moved into the range from zero
to one, as red, green and blue. -/
theorem file_nice_normals (hview : d.view = "nice_normal") :
    ∃ a d' bs x t, Api.flush true mul one s os es mds = (.ok, a) ∧ drawn s a = some d' ∧ d'.Same d ∧ d'.view = "nice_normal" ∧
      (d'.things.map (·.1)).mapM Sdf.Shape.boundingBox = some bs ∧ d'.placed = some x ∧
      cameraToWorld x d.camera.origin d.camera.target d.camera.up = some t ∧
      let hit := Sdf.hitOf (Sdf.evals (d'.things.map (·.1))) (Sdf.sceneBox bs)
      let S := Sdf.seenIn (Sdf.evals (d'.things.map (·.1))) (Sdf.sceneBox bs)
      (∀ r a, hit r = some a → ∃ th ∈ d.things, ∃ q ∈ th.1.solid, Sdf.dist a.p q ≤ 2 * Sdf.eps) ∧
      ∀ {ray : ℝ × ℝ → ℝ × ℝ → Integrators.Ray}, d.camera.persp.Shows t (fun s => (s.1, s.2.1)) ray →
      ∀ {L : Integrators.Ray → Stream → V3 ℝ × Stream}, IsView (fun q r => niceNormalLi q (S.answer S.normal r)) L →
        Sdf.TendsTo d.camera.persp t ray L fun k => Sdf.readNormal (fun n => (1 + n.get k) / 2) hit := by
  obtain ⟨a, d', bs, x, t, h1, h2, h3, h4, h5, h6, haff, h7, h8⟩ := file_found fl h hw hd hg mul one hos hes hms
  exact ⟨a, d', bs, x, t, h1, h2, h3, h7.trans hview, h4, h5, h6, h8,
    fun hray _ hL => Sdf.sdf_nice_normals hg.camera hg.focus haff hray hL⟩

end

/-- The file with the ball and the floor, drawn with each of the three views, meets the hypotheses. -/
example {v : String} (hv : v ∈ ["ao", "normal", "nice_normal"]) :
    ∃ s d, runFile real matrices (.obj (roomFile v moved)) = some (.rendered s) ∧
    Whole ((entries real matrices (roomFile v moved)).map (·.2)) ∧ Shows (entries real matrices (roomFile v moved)) d ∧
    d.view = v ∧ d.Viewable ∧ ∃ os es mds, Api.IsOrder s .object os ∧ Api.IsOrder s .emitter es ∧ Api.IsOrder s .media mds := by
  have hv' : v ∈ roomViews := by
    simp only [List.mem_cons, List.not_mem_nil, or_false] at hv
    rcases hv with rfl | rfl | rfl <;> simp [roomViews]
  obtain ⟨s, hs⟩ := room_runs real matrices hv'
  have ho := order_exists (s := s) (by
    obtain ⟨-, hx⟩ := (rendered_cases real matrices _ s).1 hs
    obtain ⟨o, hr⟩ := exec_run matrices _ hx
    exact (Api.run_keeps true _ (Api.init_inv _) hr).1)
  obtain ⟨os, h1⟩ := ho .object
  obtain ⟨es, h2⟩ := ho .emitter
  obtain ⟨mds, h3⟩ := ho .media
  exact ⟨s, roomDrawn v matrices.one, hs, by rw [room_entries _ _ hv']; exact room_whole _ _ _ _,
    by rw [room_entries _ _ hv']; exact room_shows _ _ _, rfl, (room_good _ _).viewable, os, es, mds, h1, h2, h3⟩

/-- Programs of the three kinds exist for every scene. -/
example (fs : List (V3 ℝ → Option ℝ)) (box : Option (B3 ℝ)) : (∃ L, (Sdf.skyOf fs box).Renders L) ∧
    (∃ L, IsView (fun q r => normalLi q ((Sdf.seenIn fs box).answer (Sdf.seenIn fs box).normal r)) L) ∧
    ∃ L, IsView (fun q r => niceNormalLi q ((Sdf.seenIn fs box).answer (Sdf.seenIn fs box).normal r)) L := by
  refine ⟨⟨_, Sky.renders_value _⟩, ⟨fun r ω => (_, ω), fun r ω => ⟨fun q => shows_normal q _, rfl⟩⟩,
    ⟨fun r ω => (_, ω), fun r ω => ⟨fun q => shows_niceNormal q _, rfl⟩⟩⟩

end Feign.Parser
