import Verif.Parser.Drawn
import Verif.Parser.ExecSpec
import Verif.Sdf.RoomSpec
import Verif.Camera.PerspectiveLemmas
import Verif.Camera.PerspectiveProps

/-!
# The picture a file describes (specification)

What a reader of the declarations of a scene file takes it to show, by names.
-/

namespace Feign.Parser

variable {T : Type}

/-- Opaque to media: nothing declared on either side, and not a null surface. -/
def BoundaryP.Bare (b : BoundaryP) : Prop := b.inside = "null" ∧ b.outside = "null" ∧ b.isNull = false

/-- The shape a mesh declaration describes; the interpolation settings have no say in it. -/
inductive Shaped : MeshP ℝ → Sdf.Shape → Prop
  | sphere {c r i b} : b.Bare → Shaped (.sphere c r i b) (.sphere c r)
  | plane {c n i b} : b.Bare → Shaped (.plane c n i b) (.plane c n)
  | box {t r b} : b.Bare → Shaped (.box t r b) (.box t r)
  | cylinder {p q r b} : b.Bare → Shaped (.cylinder p q r b) (.cylinder p q r)
  | cone {p q r₁ r₂ b} : b.Bare → Shaped (.cone p q r₁ r₂ b) (.cone p q r₁ r₂)

/-- The look a BSDF declaration describes: its kind, its colour (white for glass), for glass its indices of refraction inside and
outside, and no light of its own. -/
inductive Coloured : BsdfP ℝ → Sdf.Look → Prop
  | diffuse {a} : Coloured (.diffuse a) { material := .diffuse, albedo := a, intIor := 1, extIor := 1, emitted := fun _ => 0 }
  | mirror {a} : Coloured (.mirror a) { material := .mirror, albedo := a, intIor := 1, extIor := 1, emitted := fun _ => 0 }
  | glass {i e} : Coloured (.dielectric i e)
      { material := .glass, albedo := ⟨1, 1, 1⟩, intIor := i, extIor := e, emitted := fun _ => 0 }

/-- The lamps (intensity and position) and the skies that light declarations describe, in their order. -/
inductive LitBy : List (Call ℝ) → List Integrators.Lamp → List (V3 ℝ) → Prop
  | nil : LitBy [] [] []
  | lamp {cs ls ss n ty i p} : LitBy cs ls ss → LitBy (.emitter n ty (.point i p) :: cs) ((i, p) :: ls) ss
  | sky {cs ls ss n ty i t} : t = "" ∨ t = "default" → LitBy cs ls ss →
      LitBy (.emitter n ty (.environment i t) :: cs) ls (i :: ss)

/-- Object `c` is declared with this shape and these colours: its mesh is declared as the shape, and its shader as the
simple one with a BSDF declared with the colours. -/
def Made (cs : List (Call ℝ)) (c : Call ℝ) (t : Sdf.Shape × Sdf.Look) : Prop :=
  ∃ n me sh e p b bp, c = .object n me sh e ∧ (e = "null" ∨ e = "") ∧
    .mesh me p.type p ∈ cs ∧ Shaped p t.1 ∧
    .shader sh "simple_material" (.simple b) ∈ cs ∧ .bsdf b bp.type bp ∈ cs ∧ Coloured bp t.2

/-- The declarations show the scene `d`: its things are the objects in the order of the file, its lights are the lights in the
order of the file, and camera, integrator and sampler are those the scene names. No two objects share a mesh. Of the transforms
only the camera's matters. -/
structure Shows (l : List (Entry ℝ T)) (d : Drawn T) : Prop where
  things : List.Forall₂ (Made (l.map (·.2))) ((l.map (·.2)).filter fun c => c.api = "object") d.things
  own : ∀ n me sh e n' sh' e', .object n me sh e ∈ l.map (·.2) → .object n' me sh' e' ∈ l.map (·.2) →
    n = n'
  lights : LitBy ((l.map (·.2)).filter fun c => c.api = "emitter") d.lamps d.skies
  settings : ∃ name i sa cam med kw ds filter p ph seed,
    .scene name i sa cam med kw ds true ∈ l.map (·.2) ∧ (med = "" ∨ med = "null" ∨ med = "default") ∧
    (d.placed, .camera cam "perspective" d.camera) ∈ l ∧
    .integrator i d.view filter p ph ∈ l.map (·.2) ∧ d.bounces = p.maxBounces ∧
    .sampler sa "independent" d.samples seed ∈ l.map (·.2)

/-- The same scene with its things in another order. -/
def Drawn.Same (d d' : Drawn T) : Prop := d.things.Perm d'.things ∧ { d with things := d'.things } = d'

/-- A scene that keeps to the rules: well-formed shapes with colours between 0 and `ρ`, skies that are not negative and add up
to at most `E`, lamps of intensity between 0 and `I` at a distance of at least `δ` (and twice the tolerance of the tracing)
from all solids, and a usable camera. -/
structure Drawn.Good (d : Drawn T) (ρ E I δ : ℝ) : Prop where
  shapes : ∀ t ∈ d.things, t.1.WellFormed
  colours : ∀ t ∈ d.things, Integrators.NonNeg t.2.albedo ∧ ∀ k, t.2.albedo.get k ≤ ρ
  skies : ∀ c ∈ d.skies, Integrators.NonNeg c
  skies_le : ∀ k, (d.skies.map fun c => c.get k).sum ≤ E
  lamps : ∀ l ∈ d.lamps, Integrators.NonNeg l.1 ∧ ∀ k, l.1.get k ≤ I
  apart : ∀ l ∈ d.lamps, ∀ t ∈ d.things, ∀ q ∈ t.1.solid, δ + 2 * Sdf.eps ≤ Sdf.dist l.2 q
  camera : d.camera.persp.Ok
  focus : 0 < d.camera.focalDist
  view : Camera.GoodView d.camera.origin d.camera.target d.camera.up

/-- What lamp `l` adds to the light sent back along direction `d` by a diffuse surface of colour `c` with normal `n` at `p`: nothing
if the lamp is hidden or behind the surface or the surface is seen from behind, otherwise the colour over π times the cosine times
the intensity spread over the sphere of its distance. -/
noncomputable def lampShare (hidden : V3 ℝ → V3 ℝ → Prop) (p n d : V3 ℝ) (c : ℝ) (k : Fin 3) (l : Integrators.Lamp) : ℝ :=
  let away := Real.sqrt (l.2 - p).sqrNorm
  let toLamp := (l.2 - p).smul (1 / away)
  open Classical in
  if hidden p toLamp ∨ (-d).dot n ≤ 0 ∨ n.dot toLamp ≤ 0 then 0
  else c / Real.pi * n.dot toLamp * (l.1.get k / (4 * Real.pi * (l.2 - p).sqrNorm))

end Feign.Parser
