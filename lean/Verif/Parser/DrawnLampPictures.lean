import Verif.Parser.DrawnLampSum
import Verif.Integrators.LinearProps

/-!
# C145: pictures of files with the same total intensity of lamps in every place
-/

set_option linter.unusedSectionVars false
set_option linter.unusedSimpArgs false
set_option linter.unusedVariables false

namespace Feign.Parser

open Api (St)
open Integrators Sampling MeasureTheory Camera Image Filter
open scoped Topology

/-- **C145, pictures** (missing: things that are not told apart, as in C142)**.** Under the conditions of `file_lamp_sum_partial`, for the path
integrator and colours of at most white: for almost all random numbers of the two runs, each pixel of either picture tends to a limit, and the
two limits differ by no more than what the cut of faint paths may leave out. -/
theorem file_lamp_pictures_partial (fl : Rat → ℝ) {ms ms' : List (String × Js)} {s s' : St (Call ℝ) (Option (Feign.Xf ℝ))}
    (h : runFile fl matrices (.obj ms) = some (.rendered s)) (h' : runFile fl matrices (.obj ms') = some (.rendered s'))
    (hw : Whole ((entries fl matrices ms).map (·.2))) (hw' : Whole ((entries fl matrices ms').map (·.2)))
    {d d' : Drawn (Option (Feign.Xf ℝ))} (hd : Shows (entries fl matrices ms) d) (hd' : Shows (entries fl matrices ms') d')
    (hal : d'.Equal d) {ρ E I δ I' δ' : ℝ} (hg : d.Good ρ E I δ) (hρ : 0 ≤ ρ) (hρ1 : ρ ≤ 1) (hE : 0 ≤ E) (hI : 0 ≤ I) (hδ : 0 < δ)
    (hg' : d'.Good ρ E I' δ') (hI' : 0 ≤ I') (hδ' : 0 < δ') (ht : Sdf.Told d.things) (hpath : d.view = "path")
    (mul : Option (Feign.Xf ℝ) → Option (Feign.Xf ℝ) → Option (Feign.Xf ℝ)) (one : Option (Feign.Xf ℝ))
    {os es mds os' es' mds' : List Nat} (hos : Api.IsOrder s .object os) (hes : Api.IsOrder s .emitter es)
    (hms : Api.IsOrder s .media mds) (hos' : Api.IsOrder s' .object os') (hes' : Api.IsOrder s' .emitter es')
    (hms' : Api.IsOrder s' .media mds') :
    ∃ a a' e e' bs bs' x t, Api.flush true mul one s os es mds = (.ok, a) ∧ Api.flush true mul one s' os' es' mds' = (.ok, a') ∧
      drawn s a = some e ∧ drawn s' a' = some e' ∧
      (e.things.map (·.1)).mapM Sdf.Shape.boundingBox = some bs ∧ (e'.things.map (·.1)).mapM Sdf.Shape.boundingBox = some bs' ∧
      e.placed = some x ∧ cameraToWorld x d.camera.origin d.camera.target d.camera.up = some t ∧
      ∀ {ray : ℝ × ℝ → ℝ × ℝ → Integrators.Ray}, d.camera.persp.Shows t (fun s => (s.1, s.2.1)) ray →
      ∀ {quot : ℝ → ℝ → ℝ}, IsQuot quot → ∀ {L L' : Integrators.Ray → Stream → V3 ℝ × Stream},
      (e.room (Sdf.sceneBox bs)).world.Traces quot d.bounces.toNat L →
      (e'.room (Sdf.sceneBox bs')).world.Traces quot d.bounces.toNat L' →
      ∀ᵐ ω ∂uniform, ∀ᵐ ω' ∂uniform, ∃ img img' : ℕ → Int → Int → Fin 3 → ℝ,
        (∀ spp, renderWith apiDefaultFilter d.camera.persp.width d.camera.persp.height spp ray L ω = .ok (img spp)) ∧
        (∀ spp, renderWith apiDefaultFilter d.camera.persp.width d.camera.persp.height spp ray L' ω' = .ok (img' spp)) ∧
        ∀ (x y : ℕ) (k : Fin 3), x < d.camera.persp.width → y < d.camera.persp.height → ∃ p p' : ℝ,
          Tendsto (fun spp => img spp x y k) atTop (𝓝 p) ∧ Tendsto (fun spp => img' spp x y k) atTop (𝓝 p') ∧
          p - p' ≤ d.bounces.toNat * Sdf.found d'.lamps.length ρ E I' δ' / 10000 ∧
          p' - p ≤ d.bounces.toNat * Sdf.found d.lamps.length ρ E I δ / 10000 := by
  obtain ⟨a, a', e, e', bs, bs', h1, h1', h2, h2', h3, h3', hc, -, -, hpl, -⟩ :=
    file_lamp_sum_partial fl h h' hw hw' hd hd' hal hg hρ hE hδ hg' hρ hE hδ' ht mul one hos hes hms hos' hes' hms'
  have hfin : d'.camera = d.camera ∧ d'.view = d.view ∧ d'.bounces = d.bounces := by
    rw [← hal.rest]; exact ⟨rfl, rfl, rfl⟩
  obtain ⟨fc, fv, fb⟩ := hfin
  obtain ⟨b, f, cs, x, t, g1, g2, -, g3, g4, g5, G⟩ := file_picture fl h hw hd hg hρ hE hI hδ mul one hos hes hms hpath hρ1
  obtain ⟨b', f', cs', x', t', g1', g2', -, g3', g4', g5', G'⟩ :=
    file_picture fl h' hw' hd' hg' hρ hE hI' hδ' mul one hos' hes' hms' (fv.trans hpath) hρ1
  rw [h1] at g1; obtain rfl := (Prod.mk.inj g1).2
  rw [h1'] at g1'; obtain rfl := (Prod.mk.inj g1').2
  rw [h2] at g2; obtain rfl := Option.some.inj g2
  rw [h2'] at g2'; obtain rfl := Option.some.inj g2'
  rw [h3] at g3; obtain rfl := Option.some.inj g3
  rw [h3'] at g3'; obtain rfl := Option.some.inj g3'
  rw [hpl, g4] at g4'; obtain rfl := Option.some.inj g4'
  rw [fc, g5] at g5'; obtain rfl := Option.some.inj g5'
  rw [fc, fb] at G'
  simp only [hc] at G'
  refine ⟨a, a', e, e', bs, bs', x, t, h1, h1', h2, h2', h3, h3', g4, g5, fun hray _ hq _ _ hL hL' => ?_⟩
  filter_upwards [G hray hq hL] with ω hω
  filter_upwards [G' hray hq hL'] with ω' hω'
  obtain ⟨img, i1, i2⟩ := hω
  obtain ⟨img', j1, j2⟩ := hω'
  refine ⟨img, img', i1, j1, fun x y k hx hy => ?_⟩
  obtain ⟨p, p1, p2, p3⟩ := i2 x y k hx hy
  obtain ⟨q, q1, q2, q3⟩ := j2 x y k hx hy
  exact ⟨p, q, p1, q1, by linarith, by linarith⟩

/-- The files with two lamps in one place and with a single one meet the hypotheses. Integrators that trace the room exist for every
division. -/
example : ∃ s s' d d', runFile real matrices (.obj hoverFile6) = some (.rendered s) ∧
    runFile real matrices (.obj hoverFile7) = some (.rendered s') ∧
    Whole ((entries real matrices hoverFile6).map (·.2)) ∧ Whole ((entries real matrices hoverFile7).map (·.2)) ∧
    Shows (entries real matrices hoverFile6) d ∧ Shows (entries real matrices hoverFile7) d' ∧ d'.Equal d ∧
    d.Good 1 1 9 1 ∧ d'.Good 1 1 13 1 ∧ Sdf.Told d.things ∧ d.view = "path" ∧
    (∀ box quot, (∃ L, (d.room box).world.Traces quot d.bounces.toNat L) ∧ ∃ L, (d'.room box).world.Traces quot d.bounces.toNat L) ∧
    (∃ os es mds, Api.IsOrder s .object os ∧ Api.IsOrder s .emitter es ∧ Api.IsOrder s .media mds) ∧
    ∃ os es mds, Api.IsOrder s' .object os ∧ Api.IsOrder s' .emitter es ∧ Api.IsOrder s' .media mds := by
  obtain ⟨s, hs⟩ := hover_runs6 real matrices
  obtain ⟨s', hs'⟩ := hover_runs7 real matrices
  have orders : ∀ {f : List (String × Js)} {s : St (Call ℝ) (Option (Feign.Xf ℝ))}, runFile real matrices (.obj f) = some (.rendered s) →
      ∃ os es mds, Api.IsOrder s .object os ∧ Api.IsOrder s .emitter es ∧ Api.IsOrder s .media mds := by
    intro f s hs
    have ho := order_exists (s := s) (by
      obtain ⟨-, hx⟩ := (rendered_cases real matrices _ s).1 hs
      obtain ⟨o, hr⟩ := exec_run matrices _ hx
      exact (Api.run_keeps true _ (Api.init_inv _) hr).1)
    obtain ⟨os, h1⟩ := ho .object
    obtain ⟨es, h2⟩ := ho .emitter
    obtain ⟨mds, h3⟩ := ho .media
    exact ⟨os, es, mds, h1, h2, h3⟩
  refine ⟨s, s', hoverDrawn6 matrices.one, hoverDrawn7 matrices.one, hs, hs', hover_whole6 _ _, hover_whole7 _ _, hover_shows6 _,
    hover_shows7 _, ⟨fun _ => Iff.rfl, fun p k => ?_, rfl, rfl⟩, hover_good6 _, hover_good7 _, Sdf.hovering_told, rfl,
    fun box quot => ⟨traces_exist _ quot _, traces_exist _ quot _⟩, orders hs, orders hs'⟩
  have := Integrators.shine_merge ⟨9, 9, 9⟩ ⟨4, 2, 1⟩ ⟨0, 5, 0⟩ [] p k
  have e : (⟨9, 9, 9⟩ + ⟨4, 2, 1⟩ : V3 ℝ) = ⟨13, 11, 10⟩ := by ext <;> norm_num
  rw [e] at this
  exact this.symm

end Feign.Parser
