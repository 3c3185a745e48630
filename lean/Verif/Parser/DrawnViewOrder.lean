import Verif.Parser.DrawnOrder
import Verif.Sdf.ViewOrder

/-!
# C142: files drawn with the views of shapes alone
-/

set_option linter.unusedSectionVars false
set_option linter.unusedSimpArgs false
set_option linter.unusedVariables false

namespace Feign.Parser

open Api (St)

/-- **C142, views.** As `file_order_free_partial`, for ambient occlusion and the views of normals, cosines and edges: these are told the same
about every ray in both runs, whether or not the things are told apart. -/
theorem file_view_order_free (fl : Rat → ℝ) {ms ms' : List (String × Js)} {s s' : St (Call ℝ) (Option (Feign.Xf ℝ))}
    (h : runFile fl matrices (.obj ms) = some (.rendered s)) (h' : runFile fl matrices (.obj ms') = some (.rendered s'))
    (hw : Whole ((entries fl matrices ms).map (·.2))) (hw' : Whole ((entries fl matrices ms').map (·.2)))
    {d d' : Drawn (Option (Feign.Xf ℝ))} (hd : Shows (entries fl matrices ms) d) (hd' : Shows (entries fl matrices ms') d')
    (hsame : d'.Same d) (hwf : ∀ t ∈ d.things, t.1.WellFormed)
    (mul : Option (Feign.Xf ℝ) → Option (Feign.Xf ℝ) → Option (Feign.Xf ℝ)) (one : Option (Feign.Xf ℝ))
    {os es mds os' es' mds' : List Nat} (hos : Api.IsOrder s .object os) (hes : Api.IsOrder s .emitter es)
    (hms : Api.IsOrder s .media mds) (hos' : Api.IsOrder s' .object os') (hes' : Api.IsOrder s' .emitter es')
    (hms' : Api.IsOrder s' .media mds') :
    ∃ a a' e e' bs bs', Api.flush true mul one s os es mds = (.ok, a) ∧ Api.flush true mul one s' os' es' mds' = (.ok, a') ∧
      drawn s a = some e ∧ drawn s' a' = some e' ∧
      (e.things.map (·.1)).mapM Sdf.Shape.boundingBox = some bs ∧ (e'.things.map (·.1)).mapM Sdf.Shape.boundingBox = some bs' ∧
      Sdf.skyOf (Sdf.evals (e'.things.map (·.1))) (Sdf.sceneBox bs') = Sdf.skyOf (Sdf.evals (e.things.map (·.1))) (Sdf.sceneBox bs) ∧
      Sdf.seenIn (Sdf.evals (e'.things.map (·.1))) (Sdf.sceneBox bs') = Sdf.seenIn (Sdf.evals (e.things.map (·.1))) (Sdf.sceneBox bs) ∧
      e'.camera = e.camera ∧ e'.placed = e.placed ∧ e'.view = e.view ∧ e'.bounces = e.bounces ∧ e'.samples = e.samples := by
  obtain ⟨a, e, h1, h2, h3⟩ := file_drawn fl matrices h hw hd mul one hos hes hms
  obtain ⟨a', e', h1', h2', h3'⟩ := file_drawn fl matrices h' hw' hd' mul one hos' hes' hms'
  have hee : e'.Same e := (h3'.trans hsame).trans h3.symm
  have good : ∀ x ∈ e.things.map (·.1), x.WellFormed := by
    intro x hx
    obtain ⟨t, ht, rfl⟩ := List.mem_map.1 hx
    exact hwf t (h3.1.mem_iff.1 ht)
  obtain ⟨bs, hbs⟩ := boxes_exist good
  obtain ⟨bs', hbs'⟩ := boxes_exist (ss := e'.things.map (·.1)) fun x hx => good x ((hee.1.map _).mem_iff.1 hx)
  obtain ⟨k1, k2⟩ := Sdf.view_order_free (hee.1.map _) hbs' hbs
  exact ⟨a, a', e, e', bs, bs', h1, h1', h2, h2', hbs, hbs', k1, k2, hee.fields.2.2⟩

/-- The file with the ball that touches the floor, drawn twice, meets the hypotheses. -/
example : ∃ s d, runFile real matrices (.obj (roomFile "ao" moved)) = some (.rendered s) ∧
    Whole ((entries real matrices (roomFile "ao" moved)).map (·.2)) ∧ Shows (entries real matrices (roomFile "ao" moved)) d ∧
    d.Same d ∧ d.view = "ao" ∧ (∀ t ∈ d.things, t.1.WellFormed) ∧
    ∃ os es mds, Api.IsOrder s .object os ∧ Api.IsOrder s .emitter es ∧ Api.IsOrder s .media mds := by
  have hv : "ao" ∈ roomViews := by simp [roomViews]
  obtain ⟨s, hs⟩ := room_runs real matrices hv
  have ho := order_exists (s := s) (by
    obtain ⟨-, hx⟩ := (rendered_cases real matrices _ s).1 hs
    obtain ⟨o, hr⟩ := exec_run matrices _ hx
    exact (Api.run_keeps true _ (Api.init_inv _) hr).1)
  obtain ⟨os, h1⟩ := ho .object
  obtain ⟨es, h2⟩ := ho .emitter
  obtain ⟨mds, h3⟩ := ho .media
  exact ⟨s, roomDrawn "ao" matrices.one, hs, by rw [room_entries _ _ hv]; exact room_whole _ _ _ _,
    by rw [room_entries _ _ hv]; exact room_shows _ _ _, ⟨List.Perm.refl _, rfl⟩, rfl, (room_good _ _).shapes, os, es, mds, h1, h2, h3⟩

end Feign.Parser
