import Verif.Integrators.VolPath
import Verif.Integrators.Walk

/-!
# Volumetric path tracing in a scene, with the sampler's numbers (model)

`Integrators/VolPath` takes the answers of every pass from outside. Here they come from a scene with media: the ray
decides what is hit, the medium the path is in decides how far it gets, and the sampler's stream is drawn from in the
order of `src/integrators/volpath.cpp:49-207`.
-/

namespace Feign.Integrators

open Sampling

/-- What `Media::sample` (`src/media/standard.cpp:44-70`) leaves: the colour it returns, whether `handleScatter()` then
holds (`include/feign/core/closure.h:145-148`), and `sampled_t`. -/
abbrev Flight := V3 ℝ × Bool × ℝ

namespace Flight
def weight (f : Flight) : V3 ℝ := f.1
def scatters (f : Flight) : Bool := f.2.1
def t (f : Flight) : ℝ := f.2.2
end Flight

/-- A scene as the volumetric path integrator sees it; `R` is the type of rays, `M` that of media. All materials are
under the simple shader (`src/shaders/simple_material.cpp`) and none is the null material.
* `escapes`: `Scene::intersect_full` (`src/scene.cpp:174-177`) finds nothing; `env`: `Scene::env_emission`, `:692-707`;
* `free`: `Media::sample` up to the hit;
* `inside`: `closure.shadow_rays` after `Scene::eval_one_emitter` (`scene.cpp:445-535`) at `ray(sampled_t)`;
* `turn`, `phase`: the direction drawn by `Media::sample_phase` (`include/feign/media/media.h:78-83`), two numbers of the
  sampler, and the value returned for it;
* `onward`: the ray from `ray(sampled_t)` in a direction, `volpath.cpp:106-110`;
* `null`: `is_null` of the mesh that is hit; `boundary`: its medium boundary; `past`: the ray on its other side,
  `volpath.cpp:149-153`;
* `delta`, `emitted`, `lights`, `mat`, `scatter`: `isDelta()`, the emission, the light samples (which may depend on the
  medium), the material's values for them, and `MaterialShader::sample`, as in `Integrators/Walk`. -/
structure Mist (R M : Type) where
  escapes : R → Bool
  env : R → V3 ℝ
  free : M → R → Stream → Flight × Stream
  inside : M → R → ℝ → Stream → List (VRay ℝ) × Stream
  turn : M → R → Stream → V3 ℝ × Stream
  phase : M → R → V3 ℝ → ℝ
  onward : R → ℝ → V3 ℝ → R
  null : R → Bool
  boundary : R → Option (Boundary ℝ M)
  past : R → R
  delta : R → Bool
  emitted : R → V3 ℝ
  lights : Option M → R → Stream → List (VRay ℝ) × Stream
  mat : R → V3 ℝ → V3 ℝ
  scatter : R → Stream → Bounce R × Stream

variable {R M : Type}

/-- The medium, the ray and the stream at the start of a pass. -/
abbrev MistState (R M : Type) := Option M × R × Stream

/-- What is drawn at a scattering point, `volpath.cpp:79-119`: the lights, the direction, the number for termination. -/
def Mist.vertex (W : Mist R M) (m : M) (r : R) (t : ℝ) (ω : Stream) : MediumVertex ℝ :=
  let l := W.inside m r t ω
  let d := W.turn m r l.2
  ⟨l.1, W.phase m r, d.1, d.2 0⟩

/-- `Media::sample` and, if light scatters, what follows. -/
def Mist.through (W : Mist R M) (r : R) (ω : Stream) (m : M) : MediumSample ℝ :=
  let f := W.free m r ω
  ⟨f.1.weight, if f.1.scatters then some (W.vertex m r f.1.t f.2) else none⟩

/-- The light samples at a surface. -/
def Mist.samples (W : Mist R M) (m : Option M) (r : R) (ω : Stream) : List (VRay ℝ) × Stream :=
  if W.delta r then ([], ω) else W.lights m r ω

/-- What is hit, for the stream at that point. -/
def Mist.target (W : Mist R M) (m : Option M) (r : R) (ω : Stream) : Target ℝ :=
  if W.null r then .null
  else
    let l := W.samples m r ω
    let b := (W.scatter r (drop 1 l.2)).1
    .surface ⟨.simple, W.delta r, W.emitted r, l.1, W.mat r, .bsdf b.albedo b.pdf, b.cos, l.2 0⟩

/-- The stream after the flight through the medium, if the path is in one. -/
def Mist.landed (W : Mist R M) (p : MistState R M) : Stream :=
  match p.1 with
  | none => p.2.2
  | some m => (W.free m p.2.1 p.2.2).2

/-- The answers of a pass. -/
def Mist.answer (W : Mist R M) (p : MistState R M) : VolAnswer ℝ M :=
  if W.escapes p.2.1 then .escape (W.env p.2.1)
  else .hit (W.through p.2.1 p.2.2) (W.boundary p.2.1) (W.target p.1 p.2.1 (W.landed p))

/-- The medium behind a null surface, `volpath.cpp:135-147`. -/
noncomputable def Mist.beyond (W : Mist R M) (m : Option M) (r : R) : Option M :=
  match W.boundary r with
  | none => m
  | some b => if b.cos ≤ 0 then b.outside else b.inside

/-- Medium, ray and stream behind whatever is hit. -/
noncomputable def Mist.arrive (W : Mist R M) (m : Option M) (r : R) (ω : Stream) : MistState R M :=
  if W.null r then (W.beyond m r, W.past r, ω)
  else
    let b := W.scatter r (drop 1 (W.samples m r ω).2)
    (m, b.1.ray, b.2)

/-- Medium, ray and stream at the start of the next pass. -/
noncomputable def Mist.advance (W : Mist R M) (p : MistState R M) : MistState R M :=
  if W.escapes p.2.1 then p
  else match p.1 with
    | none => W.arrive none p.2.1 p.2.2
    | some m =>
      let f := W.free m p.2.1 p.2.2
      if f.1.scatters then
        let d := W.turn m p.2.1 (W.inside m p.2.1 f.1.t f.2).2
        (some m, W.onward p.2.1 f.1.t d.1, drop 1 d.2)
      else W.arrive (some m) p.2.1 f.2

/-- Medium, ray and stream at the start of pass `k`. -/
noncomputable def Mist.walk (W : Mist R M) (p : MistState R M) : ℕ → MistState R M
  | 0 => p
  | k + 1 => W.advance (W.walk p k)

/-- `VolPath_Integrator::Li` for a camera ray, the medium of `scene->env_medium_node` and a stream of random numbers;
`none`: still running after `fuel` passes. -/
noncomputable def Mist.Li (W : Mist R M) (quot : ℝ → ℝ → ℝ) (maxBounces : ℕ) (env : Option M) (ray : R) (ω : Stream)
    (fuel : ℕ) : Option (V3 ℝ) :=
  volLi quot maxBounces env (fun k => W.answer (W.walk (env, ray, ω) k)) fuel

end Feign.Integrators
