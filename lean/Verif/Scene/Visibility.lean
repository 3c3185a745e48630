import Mathlib.Algebra.Order.Field.Basic
import Verif.Basic

/-!
# Nearest-surface and shadow-ray queries (model)

`Scene::intersect_non_null` and `Scene::intersect_transmittance`, `src/scene.cpp:181-335`. Along one ray the scene
is seen through the accelerator only: `accel near` is what `ray_accel->intersect` reports for the ray's origin,
direction and far end with the given near end. Loops carry a fuel; `none` means still running.
-/

namespace Feign.Scene

variable {K M : Type} [Field K] [LinearOrder K]

/-- What the loops look at in an `Intersection`: the distance, `is_null`, and for null surfaces the medium
behind `boundry->inside->media`. `boundary = none` models a null `boundry` (a null surface declared without media,
`src/api/api.cpp:822-830`), `boundary = some none` an inside node without a medium. -/
structure Hit (K M : Type) where
  t : K
  isNull : Bool
  boundary : Option (Option M)

/-- `intersect_non_null`, `scene.cpp:181-202`, from near end `near`; `eps` is `Epsilon`. -/
def intersectNonNull (eps : K) (accel : K → Option (Hit K M)) : ℕ → K → Option (Option (Hit K M))
  | 0, _ => none
  | fuel + 1, near =>
    match accel near with
    | none => some none
    | some h => if h.isNull then intersectNonNull eps accel fuel (h.t + eps) else some (some h)

/-- A stretch of the ray with its medium: an entry of `rays` and `mediums`. -/
structure Segment (K M : Type) where
  near : K
  far : K
  medium : M
  deriving DecidableEq

/-- Outcome of the traversal: blocked (`return true`) or the list of stretches. -/
inductive Shadow (K M : Type) where
  | blocked
  | clear (segs : List (Segment K M))
  deriving DecidableEq

/-- The main loop, `scene.cpp:263-314`, with the stretches found so far. -/
def shadowLoop (eps far : K) (accel : K → Option (Hit K M)) : ℕ → K → List (Segment K M) →
    Option (Res (Shadow K M))
  | 0, _, _ => none
  | fuel + 1, near, segs =>
    match accel near with
    | none => some (.ok (.clear segs))
    | some h =>
      if h.isNull then
        match h.boundary with
        | none => some (.ub "null pointer")
        | some (some m) =>
          let near' := h.t + eps
          match accel near' with
          | some h' =>
            if h'.isNull = false then some (.ok .blocked)
            else if h'.t ≥ far then some (.ok (.clear (segs ++ [⟨near', h'.t, m⟩])))
            else shadowLoop eps far accel fuel near' (segs ++ [⟨near', h'.t, m⟩])
          | none => shadowLoop eps far accel fuel near' segs
        | some none => shadowLoop eps far accel fuel (h.t + eps) segs
      else some (.ok .blocked)

/-- The whole traversal, `scene.cpp:220-314`: the step for a ray that starts inside a medium, then the loop. -/
def shadowWalk (eps far : K) (accel : K → Option (Hit K M)) (initial : Option M) (fuel : ℕ) (near : K) :
    Option (Res (Shadow K M)) :=
  match initial with
  | none => shadowLoop eps far accel fuel near []
  | some m =>
    match accel near with
    | some h =>
      if h.isNull then shadowLoop eps far accel fuel (h.t + eps) [⟨near, h.t, m⟩]
      else some (.ok .blocked)
    | none => shadowLoop eps far accel fuel near [⟨near, far, m⟩]

/-- The final loop for one colour channel, `scene.cpp:317-332`; `trans` is the estimate of the medium's
transmittance over a stretch. -/
def applyTransmittance (trans : Segment K M → K) (segs : List (Segment K M)) (beta : K) : K :=
  segs.foldl (fun b s => b * trans s) beta

/-- `intersect_transmittance`: whether the ray is blocked, and the new `beta` (unchanged if blocked). -/
def intersectTransmittance (eps far : K) (accel : K → Option (Hit K M)) (initial : Option M)
    (trans : Segment K M → K) (fuel : ℕ) (near beta : K) : Option (Res (Bool × K)) :=
  (shadowWalk eps far accel initial fuel near).map fun r => r >>= fun s =>
    match s with
    | .blocked => pure (true, beta)
    | .clear segs => pure (false, applyTransmittance trans segs beta)

end Feign.Scene
