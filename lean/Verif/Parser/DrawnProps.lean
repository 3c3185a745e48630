import Verif.Parser.DrawnLemmas
import Verif.Parser.ExecRenderProps

/-!
# C135: what is drawn of a scene file
-/

set_option linter.unusedSectionVars false
set_option linter.unusedSimpArgs false
set_option linter.unusedVariables false

namespace Feign.Parser

open Api (Key Kind St Asm Ptr)

variable {T : Type} (fl : Rat → ℝ) (m : Xf ℝ T)

/-- **C135 (from the declarations to what is drawn).** The file was carried out, nothing in it is missing, and its declarations
show the scene `d`: distance functions, each with its own object and a simple material, lamps and skies. Then, in whatever
order the renderer goes through its tables, what it finds behind its pointers when it draws is the scene `d`, except that the
things may be in another order. -/
theorem file_drawn {ms : List (String × Js)} {s : St (Call ℝ) T} (h : runFile fl m (.obj ms) = some (.rendered s))
    (hw : Whole ((entries fl m ms).map (·.2))) {d : Drawn T} (hd : Shows (entries fl m ms) d) (mul : T → T → T) (one : T)
    {os es mds : List Nat} (ho : Api.IsOrder s .object os) (he : Api.IsOrder s .emitter es)
    (hm : Api.IsOrder s .media mds) :
    ∃ a d', Api.flush true mul one s os es mds = (.ok, a) ∧ drawn s a = some d' ∧ d'.Same d := by
  have hok := (assembles_iff fl m h mul one ho he hm).2 hw
  obtain ⟨a, hfl⟩ : ∃ a, Api.flush true mul one s os es mds = (.ok, a) := ⟨_, Prod.ext hok rfl⟩
  have hv := file_builds fl m h
  obtain ⟨-, hf⟩ := (rendered_iff fl m ms).1 ⟨s, h⟩
  obtain ⟨hal, hap, -⟩ := (allFit_iff _).1 hf
  have hI : Api.Inv s := by
    obtain ⟨-, hx⟩ := (rendered_cases fl m ms s).1 h
    obtain ⟨o, hr⟩ := exec_run m _ hx
    exact (Api.run_keeps true _ (Api.init_inv _) hr).1
  obtain ⟨ts', hts, hperm⟩ := things_drawn hI hv hap hal mul one ho (flush_assembled hfl) hd.things hd.own
  obtain ⟨ls, hls, hlamps, hskies⟩ := lights_of hd.lights
  have hlights := lights_drawn hI hv hap hal hls
  obtain ⟨name, i, sa, cam, med, kw, ds, filter, p, ph, seed, hsc, hmed, hcam, hint, hbo, hsa⟩ := hd.settings
  obtain ⟨hsdf, sc, hs, hmedia, kc, ki, ks⟩ := scene_drawn hI hv hap hal hsc hmed
  obtain ⟨x, dc, hx, hdc, vc, -⟩ := follow hI hv hap hal (List.mem_map_of_mem hcam) rfl kc (by simp)
  obtain ⟨x2, di, -, hdi, vi, -⟩ := follow hI hv hap hal hint rfl ki (by simp)
  obtain ⟨x3, dsa, -, hds, vs, -⟩ := follow hI hv hap hal hsa rfl ks (by simp)
  have hxe : x = d.placed := congrArg Prod.fst (same_key hap hx hcam (k := (.camera, cam)) rfl rfl)
  have c1 : dc.data = some (.camera cam "perspective" d.camera) := congrArg Api.ADef.data vc
  have c2 : dc.xf = some x := congrArg Api.ADef.xf vc
  have c3 : di.data = some (.integrator i d.view filter p ph) := congrArg Api.ADef.data vi
  have c4 : dsa.data = some (.sampler sa "independent" d.samples seed) := congrArg Api.ADef.data vs
  refine ⟨a, { d with things := ts' }, hfl, ?_, hperm, ?_⟩
  · unfold drawn
    simp only [hs, hts, hlights, hdc, hdi, hds, c1, c2, c3, c4, hsdf, hmedia, Option.bind_eq_bind, Option.bind_some, and_self,
      if_true, hxe, ← hlamps, ← hskies, ← hbo]
  · rfl

end Feign.Parser
