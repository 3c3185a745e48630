import Verif.Integrators.FacetsSpec
import Verif.Sampling.Stream

/-! # Specification: bulging objects and the numbers of a sampler -/

namespace Feign.Integrators

/-- What a sampler returns: numbers from 0 up to but not including 1. -/
def Drawn (ω : Sampling.Stream) : Prop := ∀ k, 0 ≤ ω k ∧ ω k < 1

/-- The triangles bulge: no point of any lies in front of the plane of another. (So does every convex mesh whose faces are
wound outwards, and every part of one.) -/
def Bulges (fs : List Facet) : Prop :=
  ∀ T ∈ fs, ∀ T' ∈ fs, ∀ q, T'.Holds q → (q - T.p0).dot T.cross ≤ 0

end Feign.Integrators
