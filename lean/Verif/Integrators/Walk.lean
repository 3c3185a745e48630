import Verif.Integrators.Model
import Verif.Sampling.Stream

/-!
# Path tracing in a scene, with the sampler's numbers (model)

`Integrators/Model` takes the answer at every vertex from outside. Here the answers come from a scene: the ray decides
what is hit, and the sampler's stream decides the light samples, the termination and the next ray, drawn in the order
of `src/integrators/path_unidir.cpp:43-142`.
-/

namespace Feign.Integrators

open Sampling

/-- What `MaterialShader::sample` and the lines after it produce (`path_unidir.cpp:107-136`): albedo, density, the cosine
`its.s_frame.n % ray.dir` and the next ray. -/
abbrev Bounce (R : Type) := V3 ℝ × ℝ × ℝ × R

namespace Bounce
variable {R : Type}
def albedo (b : Bounce R) : V3 ℝ := b.1
def pdf (b : Bounce R) : ℝ := b.2.1
def cos (b : Bounce R) : ℝ := b.2.2.1
def ray (b : Bounce R) : R := b.2.2.2
end Bounce

/-- A scene, as the path integrator sees it; `R` is the type of rays. All materials are under the simple shader
(`src/shaders/simple_material.cpp`) and none is the null material.
* `escapes`: `Scene::intersect_non_null` (`src/scene.cpp:181-202`) finds nothing;
* `env`: `Scene::env_emission`, `scene.cpp:692-707`;
* `delta`: `isDelta()` of the material at the hit point;
* `emitted`: what `Scene::accumulate_emission` adds, `scene.cpp:674-690`;
* `lights`: `Scene::eval_one_emitter`, `scene.cpp:445-535`, with the material's values for the shadow rays, as a program
  that draws from the sampler;
* `scatter`: `MaterialShader::sample`, also a program that draws. -/
structure World (R : Type) where
  escapes : R → Bool
  env : R → V3 ℝ
  delta : R → Bool
  emitted : R → V3 ℝ
  lights : R → Stream → List (ShadowRay ℝ) × Stream
  scatter : R → Stream → Bounce R × Stream

variable {R : Type}

/-- The light samples at a hit: `simple_material.cpp:36-58` asks for them unless the material is specular. -/
def World.samples (W : World R) (r : R) (ω : Stream) : List (ShadowRay ℝ) × Stream :=
  if W.delta r then ([], ω) else W.lights r ω

/-- The answer at a vertex, for the ray that leads to it and the stream at that point. -/
def World.answer (W : World R) (p : R × Stream) : Answer ℝ :=
  if W.escapes p.1 then .escape 0 (W.env p.1)
  else
    let l := W.samples p.1 p.2
    let b := (W.scatter p.1 (drop 1 l.2)).1
    .surface 0 ⟨.simple, W.delta p.1, W.emitted p.1, l.1, 0, .bsdf b.albedo b.pdf, b.cos, l.2 0⟩

/-- Ray and stream at the next vertex. -/
def World.advance (W : World R) (p : R × Stream) : R × Stream :=
  if W.escapes p.1 then p
  else
    let b := W.scatter p.1 (drop 1 (W.samples p.1 p.2).2)
    (b.1.ray, b.2)

/-- Ray and stream at vertex `k`. -/
def World.walk (W : World R) (p : R × Stream) : ℕ → R × Stream
  | 0 => p
  | k + 1 => W.advance (W.walk p k)

/-- `Path_Unidirectional_Integrator::Li` for a camera ray and a stream of random numbers. -/
noncomputable def World.Li (W : World R) (quot : ℝ → ℝ → ℝ) (maxBounces : ℕ) (ray : R) (ω : Stream) : Clk (V3 ℝ) :=
  pathLi quot maxBounces fun k => W.answer (W.walk (ray, ω) k)

end Feign.Integrators
