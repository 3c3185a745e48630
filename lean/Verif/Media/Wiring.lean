import Verif.Media.Model
import Verif.Math.Matrix

/-!
# Media and the components they are made of (model)

A medium refers to named component nodes: a density function, a transmittance estimator, a sampler of distances and a
transmittance function (`src/api/api.cpp:1015-1051`). Before rendering, `Media::preProcess` stores the medium's
settings in those components (`src/media/standard.cpp:34-42`); rendering reads them back from the components. Nodes are
numbers; the fields that `preProcess` writes are functions from nodes. Every node a medium names is taken to be
defined (otherwise the flush dereferences a null pointer, see C61).
-/

namespace Feign.Media

/-- The parts of `class Media` (`include/feign/media/media.h:74-86`) that matter here; `sigma_t = abs + scat`
(`standard.cpp:30`). -/
structure Medium where
  transEst : ℕ
  sampling : ℕ
  density : ℕ
  transFunc : ℕ
  transform : Xf ℝ
  abs : V3 ℝ
  sca : V3 ℝ

/-- `sigma_t`, `standard.cpp:30`. -/
noncomputable def Medium.sigmaT (m : Medium) : V3 ℝ := m.abs + m.sca

/-- The declared components: fixed once declared (`api.cpp:1053-1105`, `:1120-1205`). -/
structure Library where
  density : ℕ → Density
  sampling : ℕ → Sampling
  transEst : ℕ → Estimator

/-- The fields of the components that `Media::preProcess` writes; `none` is the null pointer or uninitialised pointer
before that. -/
structure Wires where
  sampDensity : ℕ → Option ℕ
  sampTransFunc : ℕ → Option ℕ
  estDensity : ℕ → Option ℕ
  estTransFunc : ℕ → Option ℕ
  sigma : ℕ → V3 ℝ

/-- An assignment to a field of one node. -/
def set {α : Type} (f : ℕ → α) (i : ℕ) (a : α) : ℕ → α := fun j => if j = i then a else f j

/-- `Media::preProcess`, `standard.cpp:34-42`. `density->preProcess()` does nothing for the modelled densities
(`density_func.h:34`). -/
noncomputable def preProcess (w : Wires) (m : Medium) : Wires :=
  { sampDensity := set w.sampDensity m.sampling (some m.density)
    sampTransFunc := set w.sampTransFunc m.sampling (some m.transFunc)
    estDensity := set w.estDensity m.transEst (some m.density)
    estTransFunc := set w.estTransFunc m.transEst (some m.transFunc)
    sigma := set w.sigma m.density m.sigmaT }

/-- The loop over the media, `src/scene.cpp:121-124`, in the order in which `flush_renders` put them into the scene
(`api.cpp:1550-1557`: the iteration order of an unordered map). -/
noncomputable def preProcessAll (ms : List Medium) (w : Wires) : Wires := ms.foldl preProcess w

/-- The density that a component reaches through its pointer, along a ray: `density->D(ray(t))`. -/
noncomputable def along (lib : Library) (w : Wires) (d : ℕ) (r : Ray ℝ) (t : ℝ) : V3 ℝ :=
  (lib.density d).D (w.sigma d) (r.point t)

open Classical in
/-- `Media::transmittance`, `standard.cpp:72-81`. The estimator reads the density through its own pointer and the
coefficient from that density. -/
noncomputable def mediumTransmittance (lib : Library) (w : Wires) (m : Medium) (world : Ray ℝ) (tMin tMax : ℝ)
    (us : List ℝ) (fuel : ℕ) : Res (Option (V3 ℝ)) :=
  match m.transform.inverse.ray world with
  | none => .ub "division by zero"
  | some r =>
    match w.estDensity m.transEst with
    | none => .ub "null density"
    | some d => transmittance (lib.transEst m.transEst) (along lib w d r) (w.sigma d) tMin tMax us fuel

open Classical in
/-- `Media::sample`, `standard.cpp:44-70`. As `sampleMedium`, but the distance and the transmittance come from the
components, whereas the weight uses the medium's own coefficients. -/
noncomputable def mediumSample (lib : Library) (w : Wires) (m : Medium) (world : Ray ℝ) (tMin tMax : ℝ)
    (us : List ℝ) (fuel : ℕ) : Res (Option Event) :=
  match m.transform.inverse.ray world with
  | none => .ub "division by zero"
  | some r =>
    if m.sca.eqOp 0 then
      match w.estDensity m.transEst with
      | none => .ub "null density"
      | some d =>
        match transmittance (lib.transEst m.transEst) (along lib w d r) (w.sigma d) tMin tMax us fuel with
        | .ok r => .ok (r.map fun tr => ⟨tr, (tMax : WithTop ℝ)⟩)
        | .throw m => .throw m
        | .ub w => .ub w
    else
      match w.sampDensity m.sampling with
      | none => .ub "null density"
      | some d =>
        match sampleT (lib.sampling m.sampling) (along lib w d r) (w.sigma d) tMin tMax us fuel with
        | none => .ok none
        | some t =>
          if t < (tMax : WithTop ℝ) then
            if m.sigmaT.x = 0 ∨ m.sigmaT.y = 0 ∨ m.sigmaT.z = 0 then .ub "0 / 0"
            else .ok (some ⟨⟨m.sca.x / m.sigmaT.x, m.sca.y / m.sigmaT.y, m.sca.z / m.sigmaT.z⟩, t⟩)
          else .ok (some ⟨grey 1, t⟩)

end Feign.Media
