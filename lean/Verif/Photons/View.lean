import Verif.Photons.Array
import Verif.Bsdf.Model

/-!
# The photon-mapped view (model)

`PhotonMapping::Li`, `src/integrators/photon.cpp:177-222`, and the parts of the material closure it reads
(`src/closure/material.cpp:19-46`). What the camera ray meets is an argument: nothing, or a surface with its answer to
`evaluate_mat_only`.
-/

namespace Feign.Photons

variable {K : Type} [Field K] [LinearOrder K]

/-- What the camera ray meets first (`scene->intersect_non_null`): the point, what the material answers for a photon
that arrives from a direction (`evaluate_mat_only`, with `closure.wi` towards the camera), and the light that the
object's emitter, if any, sends to the camera (`Scene::accumulate_emission`, `src/scene.cpp:674-690`). -/
structure Surface (K : Type) where
  pos : V3 K
  resp : V3 K → V3 K
  emission : V3 K

/-- The fields of `MaterialClosure` that carry light. -/
structure Gathered (K : Type) where
  nee : V3 K
  emission : V3 K

/-- The closure as its constructor leaves it, `src/closure/material.cpp:30-32`. -/
def Gathered.new : Gathered K := ⟨0, 0⟩

/-- `PhotonMapping::Li`. Line 192 answers black for a ray that meets nothing. Line 213 gathers photons with the
argument 0.01; line 221 adds the closure's emission, which nothing has written: `shader->evaluate`, the only caller of
`accumulate_emission` (`src/shaders/simple_material.cpp:22-30`), is not called. -/
def view (recip : K → K) (pi : K) (ps : List (Photon K)) : Option (Surface K) → V3 K
  | none => 0
  | some s =>
    let c : Gathered K := Gathered.new
    let c := { c with nee := evalRadius recip pi s.resp ps s.pos (1 / 100) c.nee }
    c.nee + c.emission

end Feign.Photons
