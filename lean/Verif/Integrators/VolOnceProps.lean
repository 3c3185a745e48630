import Verif.Integrators.VolProps
import Verif.Lights.Nee

/-!
# C87: in a scene with media, light is counted once

Light that reaches a vertex directly is counted there by sampling the lights; so the emission of the next surface must be
counted only if lights were not sampled: if the path comes from the camera or from a specular vertex.
-/

set_option linter.unusedSectionVars false
set_option linter.unusedSimpArgs false

namespace Feign.Integrators.Vol

variable {K M : Type} [Field K] [LinearOrder K] [IsStrictOrderedRing K]

/-- What C87 asks for: at a scattering point the light samples weighted with the phase function of their own direction;
at a surface its emission if the vertex before it was specular or the camera, and its own light samples if it is not
specular. -/
def onceLight (ev : ℕ → Event K M) (k : ℕ) : V3 K :=
  match ev k with
  | .escape env => env
  | .scatter _ v => total (fun d => ⟨v.phase d, v.phase d, v.phase d⟩) v.rays
  | .null .. => 0
  | .surface _ s =>
    (if fromSpecular ev k then s.emitted else 0) + (if s.delta = false then total s.mat s.rays else 0)

/-- The circumstances under which the code does that, at pass `k`.
* A scattering point has a phase function that is the same in all directions, and does not come directly after the
  camera or a specular surface.
* A surface uses the simple shader and is not the null material; if it is specular, no unblocked light sample is left
  over from a scattering point before it. -/
def Tidy (ev : ℕ → Event K M) (k : ℕ) : Prop :=
  match ev k with
  | .escape _ => True
  | .scatter _ v => (∀ d, v.phase d = v.phase v.wi) ∧ fromSpecular ev k = false
  | .null .. => True
  | .surface _ s =>
    s.shader = .simple ∧ s.scatter ≠ .null ∧ (s.delta = true → ∀ r ∈ leftover ev k, r.valid = false)

theorem samples_of_tidy {ev : ℕ → Event K M} (h : ∀ j, Tidy ev j) (k : ℕ) : samples ev k = true := by
  induction k with
  | zero => rfl
  | succ k ih =>
    have hk := h k
    rw [samples]
    cases he : ev k with
    | surface w s =>
      simp only [Tidy, he] at hk
      cases hsc : s.scatter with
      | null => exact absurd hsc hk.2.1
      | bsdf a p =>
        simp only [hsc, hk.1, ih]
        split_ifs <;> rfl
    | _ => exact ih

theorem looks_of_tidy {ev : ℕ → Event K M} (h : ∀ j, Tidy ev j) (k : ℕ) : looks ev k = fromSpecular ev k := by
  induction k with
  | zero => rfl
  | succ k ih =>
    have hk := h k
    rw [looks, fromSpecular]
    cases he : ev k with
    | scatter w v =>
      simp only [Tidy, he] at hk
      exact hk.2
    | surface w s =>
      simp only [Tidy, he] at hk
      simp only [hk.1]
      cases s.delta <;> rfl
    | _ => exact ih

theorem total_invalid {f : V3 K → V3 K} {rays : List (VRay K)} (h : ∀ r ∈ rays, r.valid = false) : total f rays = 0 := by
  induction rays with
  | nil => rfl
  | cons r rs ih =>
    rw [total_cons, if_neg (by simp [h r (by simp)]), ih fun r' hr' => h r' (by simp [hr'])]

theorem total_congr {f g : V3 K → V3 K} {rays : List (VRay K)} (h : ∀ d, f d = g d) : total f rays = total g rays := by
  have : f = g := funext h
  rw [this]

/-- C87, for tidy paths: each event is worth what it should be. -/
theorem light_once_partial (ev : ℕ → Event K M) (h : ∀ j, Tidy ev j) (k : ℕ) : light ev k = onceLight ev k := by
  have hk := h k
  unfold light onceLight
  cases he : ev k with
  | escape env => rfl
  | scatter w v =>
    simp only [Tidy, he] at hk
    exact total_congr fun d => by rw [hk.1 d]
  | null w b => rfl
  | surface w s =>
    simp only [Tidy, he] at hk
    simp only [looks_of_tidy h k]
    congr 1
    cases hd : s.delta with
    | true =>
      simp only [raysAt, hd, reduceCtorEq, false_and, if_false]
      exact total_invalid (hk.2.2 hd)
    | false => simp only [raysAt, hd, samples_of_tidy h k, and_self, if_true]

open Classical in
/-- C87, for tidy paths: the radiance is the sum over the passes of the throughput times what C87 asks for. -/
theorem vol_radiance_once_partial (quot : K → K → K) (maxBounces : ℕ) (env : Option M) (ans : ℕ → VolAnswer K M)
    (h : ∀ j, Tidy (eventAt env ans) j) (fuel : ℕ) (he : ∃ k < fuel, Ends quot maxBounces (eventAt env ans) k) :
    volLi quot maxBounces env ans fuel =
      some (∑ k ∈ Finset.range fuel,
        if Reached quot maxBounces (eventAt env ans) k then
          thrAt quot (eventAt env ans) k * onceLight (eventAt env ans) k else 0) := by
  rw [vol_radiance quot maxBounces env ans fuel he]
  congr 1
  refine Finset.sum_congr rfl fun k _ => ?_
  unfold contribution
  rw [light_once_partial _ h]

/-- A diffuse floor under isotropic fog: the floor is seen first, then the fog scatters twice, then a lamp is met. The
lamp's emission is not added to the light sampled in the fog. -/
def foggyFloor (k : ℕ) : VolAnswer ℚ Unit :=
  let clear : Unit → MediumSample ℚ := fun _ => ⟨white, none⟩
  let fog : Unit → MediumSample ℚ := fun _ => ⟨white, some ⟨[⟨true, ⟨2, 2, 2⟩, ⟨0, 0, 1⟩⟩], fun _ => 1 / 2, ⟨0, 1, 0⟩, 1 / 2⟩⟩
  let floor : VSurface ℚ := ⟨.simple, false, 0, [⟨true, ⟨1, 1, 1⟩, ⟨0, 0, 1⟩⟩], fun _ => white, .bsdf white 1, 1, 1 / 2⟩
  let lamp : VSurface ℚ := ⟨.simple, false, ⟨8, 8, 8⟩, [], fun _ => white, .bsdf white 1, 1, 1 / 2⟩
  if k = 0 then .hit clear none (.surface floor)
  else if k = 1 then .hit fog none (.surface floor)
  else if k = 2 then .hit fog none (.surface floor)
  else if k = 3 then .hit clear none (.surface lamp)
  else .escape 0

example : volLi (· / ·) 10 (some ()) foggyFloor 10 = some ⟨3, 3, 3⟩ := by decide +kernel

example : (∀ j, Tidy (eventAt (some ()) foggyFloor) j) ∧
    ∃ k < 10, Ends (fun a b : ℚ => a / b) 10 (eventAt (some ()) foggyFloor) k := by
  have hesc : ∀ k, 4 ≤ k → eventAt (some ()) foggyFloor k = .escape 0 := by
    intro k hk
    have : foggyFloor k = .escape 0 := by
      unfold foggyFloor
      simp [show k ≠ 0 by omega, show k ≠ 1 by omega, show k ≠ 2 by omega, show k ≠ 3 by omega]
    unfold eventAt
    rw [this]
    rfl
  constructor
  · intro j
    rcases Nat.lt_or_ge j 4 with h | h
    · have : j = 0 ∨ j = 1 ∨ j = 2 ∨ j = 3 := by omega
      rcases this with rfl | rfl | rfl | rfl
      · exact ⟨rfl, (by intro h; cases h), fun h => (by cases h)⟩
      · exact ⟨fun _ => rfl, rfl⟩
      · exact ⟨fun _ => rfl, rfl⟩
      · exact ⟨rfl, (by intro h; cases h), fun h => (by cases h)⟩
    · simp only [Tidy, hesc j h]
  · refine ⟨4, by omega, ?_⟩
    rintro ⟨_, hs⟩
    simp only [Survives, hesc 4 le_rfl] at hs

/-! ## Where it fails -/

/-- Fog between the camera and a lamp: the path scatters once and runs into the lamp. -/
def foggyLamp (k : ℕ) : VolAnswer ℚ Unit :=
  let lamp : VSurface ℚ := ⟨.simple, false, ⟨8, 8, 8⟩, [], fun _ => white, .bsdf white 1, 1, 1 / 2⟩
  if k = 0 then
    .hit (fun _ => ⟨white, some ⟨[⟨true, ⟨2, 2, 2⟩, ⟨0, 0, 1⟩⟩], fun _ => 1, ⟨0, 0, 1⟩, 1 / 2⟩⟩) none (.surface lamp)
  else if k = 1 then .hit (fun _ => ⟨white, none⟩) none (.surface lamp)
  else .escape 0

/-- C87 fails for the first scattering point after the camera (or after a specular surface): the flag is set from the
vertex before the scattering point, so the lamp is counted through the light sample (2) and again when the path runs
into it (8). -/
theorem first_scatter_emission_twice_refuted :
    volLi (· / ·) 4 (some ()) foggyLamp 4 = some ⟨10, 10, 10⟩ ∧ fromSpecular (eventAt (some ()) foggyLamp) 1 = false ∧
      looks (eventAt (some ()) foggyLamp) 1 = true := by decide +kernel

/-- Fog in front of a specular surface, nothing emitting: the path scatters once, is reflected and leaves. -/
def foggyMirror (k : ℕ) : VolAnswer ℚ Unit :=
  let mirror : VSurface ℚ := ⟨.simple, true, 0, [], fun _ => white, .bsdf white 1, 1, 1 / 2⟩
  if k = 0 then
    .hit (fun _ => ⟨white, some ⟨[⟨true, ⟨2, 2, 2⟩, ⟨0, 0, 1⟩⟩], fun _ => 1, ⟨0, 0, 1⟩, 1 / 2⟩⟩) none (.surface mirror)
  else if k = 1 then .hit (fun _ => ⟨white, none⟩) none (.surface mirror)
  else .escape 0

/-- C87 fails at a specular surface met after a scattering point: the list of light samples is not emptied at the
scattering point and not refilled at the specular surface, so the samples of the fog (2) are evaluated with the mirror's
albedo and counted again. -/
theorem leftover_samples_refuted :
    volLi (· / ·) 4 (some ()) foggyMirror 4 = some ⟨4, 4, 4⟩ ∧
      (leftover (eventAt (some ()) foggyMirror) 1).length = 1 := by decide +kernel

/-- Fog that only scatters downwards, with a light above. -/
def forwardFog (k : ℕ) : VolAnswer ℚ Unit :=
  if k = 0 then
    .hit (fun _ => ⟨white, some ⟨[⟨true, ⟨2, 2, 2⟩, ⟨0, 0, 1⟩⟩], fun d => if d.z < 0 then 1 else 0, ⟨0, 0, -1⟩, 1 / 2⟩⟩)
      none .null
  else .escape 0

/-- C87 fails for phase functions that are not isotropic: light samples are weighted with the value at the direction the
path goes on in, not at the direction of the light. Here the fog scatters no light from above at all, and 2 is
returned. -/
theorem phase_of_wrong_direction_refuted :
    volLi (· / ·) 4 (some ()) forwardFog 4 = some ⟨2, 2, 2⟩ ∧ onceLight (eventAt (some ()) forwardFog) 0 = 0 := by
  decide +kernel

open Lights Feign.Sampling in
/-- C87 fails for the light that is behind the scattering point in the direction of the path: `closure.its` is the
intersection with the surface behind (only its point is replaced, `volpath.cpp:70-72`), and the light of that surface is
never chosen. Here it is the only light, and no light is found in the fog whatever is drawn. -/
theorem light_behind_fog_refuted (w : World) (sp : Spot) (l : Light) (h : l.meshNode = some sp.inst) (c : ℝ)
    (h0 : 0 ≤ c) (h1 : c < 1) (u : V2 ℝ) : evalOne w sp true [l] c u = .ok [.hidden] := by
  have hfl : ⌊c⌋ = 0 := Int.floor_eq_zero_iff.2 ⟨h0, h1⟩
  simp only [evalOne, chooseEmitter, naiveSelect, truncInt, getAt, List.map_cons, List.map_nil, List.length_cons,
    List.length_nil]
  simp [h0, hfl, h]

end Feign.Integrators.Vol
