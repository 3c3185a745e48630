import Verif.Sdf.Order
import Verif.Sdf.Views

/-!
# C142: the views of shapes alone do not depend on the order of the shapes
-/

set_option linter.unusedSectionVars false
set_option linter.unusedVariables false

namespace Feign.Sdf

open Integrators

/-- **C142, views.** What ambient occlusion and the views of normals, cosines and edges ask of a scene of distance functions does not depend
on the order of the shapes, whether or not they are told apart. -/
theorem view_order_free {ss ss' : List Shape} (h : ss.Perm ss') {bs bs' : List (B3 ℝ)} (hb : ss.mapM Shape.boundingBox = some bs)
    (hb' : ss'.mapM Shape.boundingBox = some bs') :
    skyOf (evals ss) (sceneBox bs) = skyOf (evals ss') (sceneBox bs') ∧ seenIn (evals ss) (sceneBox bs) = seenIn (evals ss') (sceneBox bs') := by
  rw [← boxes_perm h hb hb']
  have key := hit_perm (fs := evals ss) (fs' := evals ss') (h.map _) (sceneBox bs)
  have g : ∀ {α : Type} (F : ℝ × V3 ℝ × V3 ℝ → α) (r : Integrators.Ray),
      (hitOf (evals ss) (sceneBox bs) r).map (fun a => F (a.t, a.normal, a.p)) =
        (hitOf (evals ss') (sceneBox bs) r).map (fun a => F (a.t, a.normal, a.p)) := by
    intro α F r
    have := congrArg (Option.map F) (key r)
    simpa only [Option.map_map, Function.comp_def] using this
  have gs : ∀ r, (hitOf (evals ss) (sceneBox bs) r).isSome = (hitOf (evals ss') (sceneBox bs) r).isSome := by
    intro r
    have := congrArg Option.isSome (key r)
    simpa only [Option.isSome_map] using this
  have gp : ∀ r d, ((hitOf (evals ss) (sceneBox bs) r).map fun a => a.p).getD d = ((hitOf (evals ss') (sceneBox bs) r).map fun a => a.p).getD d :=
    fun r d => congrArg (fun o => Option.getD o d) (g (fun x => x.2.2) r)
  have gf : ∀ r d, ((hitOf (evals ss) (sceneBox bs) r).map fun a => frameOf a.normal).getD d =
      ((hitOf (evals ss') (sceneBox bs) r).map fun a => frameOf a.normal).getD d :=
    fun r d => congrArg (fun o => Option.getD o d) (g (fun x => frameOf x.2.1) r)
  have gn : ∀ r d, ((hitOf (evals ss) (sceneBox bs) r).map fun a => (frameOf a.normal).n).getD d =
      ((hitOf (evals ss') (sceneBox bs) r).map fun a => (frameOf a.normal).n).getD d :=
    fun r d => congrArg (fun o => Option.getD o d) (g (fun x => (frameOf x.2.1).n) r)
  constructor
  · simp only [skyOf, gs, gp, gf]
  · simp only [seenIn, gs, gn]

/-- A small and a large ball around the same point, in both orders. -/
example : ∃ ss ss' : List Shape, ss.Perm ss' ∧ ss ≠ ss' ∧ (∃ bs, ss.mapM Shape.boundingBox = some bs) ∧
    ∃ bs', ss'.mapM Shape.boundingBox = some bs' := by
  obtain ⟨b1, h1⟩ : ∃ b, Shape.boundingBox (.sphere 0 1) = some b := by simp [Shape.boundingBox]
  obtain ⟨b2, h2⟩ : ∃ b, Shape.boundingBox (.sphere 0 2) = some b := by simp [Shape.boundingBox]
  exact ⟨[.sphere 0 1, .sphere 0 2], [.sphere 0 2, .sphere 0 1], List.Perm.swap _ _ _, by simp,
    ⟨[b1, b2], (mapM_some _ _ _).2 (by simp [h1, h2])⟩, ⟨[b2, b1], (mapM_some _ _ _).2 (by simp [h1, h2])⟩⟩

end Feign.Sdf
