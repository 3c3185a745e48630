import Verif.Photons.View
import Verif.Photons.ArrayProps
import Mathlib.Tactic.NormNum

/-!
# The photon-mapped view shows what the camera sees (C94)

The light towards the camera is what the visible surface emits plus what it reflects of the light stored in the photon
map; a ray that meets nothing shows the environment.
-/

set_option linter.unusedSectionVars false
set_option linter.unusedSimpArgs false
set_option linter.unusedVariables false

namespace Feign.Photons

variable {K : Type} [Field K] [LinearOrder K] [IsStrictOrderedRing K]

/-- Specification: the light in channel `c` towards the camera, with photons nearer than `R` to the visible point;
`env` is the environment's light in the direction of the ray. -/
def Seen (pi R : K) (env : V3 K) (ps : List (Photon K)) (hit : Option (Surface K)) (c : Fin 3) : K :=
  match hit with
  | none => env.get c
  | some s => s.emission.get c + DiscEstimate pi R s.resp ps s.pos c

theorem view_get (recip : K → K) (hrec : IsRecip recip) (pi : K) (hpi : pi ≠ 0) (ps : List (Photon K))
    (s : Surface K) (c : Fin 3) :
    (view recip pi ps (some s)).get c = DiscEstimate pi (1 / 10) s.resp ps s.pos c := by
  have h := radius_estimate_partial recip hrec pi hpi s.resp ps s.pos (1 / 10) (by norm_num) 0 c
  have e : (1 / 10 : K) * (1 / 10) = 1 / 100 := by norm_num
  rw [e] at h
  have h0 : ∀ v : V3 K, (v + 0 : V3 K) = v := by
    intro v
    ext <;> simp
  show (evalRadius recip pi s.resp ps s.pos (1 / 100) 0 + 0 : V3 K).get c = _
  rw [h0, h]
  have : (0 : V3 K).get c = 0 := by
    fin_cases c <;> rfl
  rw [this, zero_add]

/-- **C94, exact condition.** The view shows what the camera sees, with the photons nearer than 0.1, exactly if the
visible surface emits nothing towards the camera, or, for a ray that meets nothing, if the environment is black. -/
theorem view_iff (recip : K → K) (hrec : IsRecip recip) (pi : K) (hpi : pi ≠ 0) (env : V3 K) (ps : List (Photon K))
    (hit : Option (Surface K)) (c : Fin 3) :
    (view recip pi ps hit).get c = Seen pi (1 / 10) env ps hit c ↔
      match hit with
      | none => env.get c = 0
      | some s => s.emission.get c = 0 := by
  cases hit with
  | none =>
    have : (view recip pi ps none).get c = 0 := by
      show (0 : V3 K).get c = 0
      fin_cases c <;> rfl
    rw [this]
    exact eq_comm
  | some s =>
    rw [view_get recip hrec pi hpi]
    show _ = s.emission.get c + _ ↔ s.emission.get c = 0
    rw [eq_comm, add_eq_right]

/-- **C94, the part that holds.** At a surface that does not emit, the view is the disc estimate with radius 0.1. -/
theorem view_partial (recip : K → K) (hrec : IsRecip recip) (pi : K) (hpi : pi ≠ 0) (env : V3 K)
    (ps : List (Photon K)) (s : Surface K) (hs : s.emission = 0) (c : Fin 3) :
    (view recip pi ps (some s)).get c = Seen pi (1 / 10) env ps (some s) c := by
  rw [view_iff recip hrec pi hpi]
  show s.emission.get c = 0
  rw [hs]
  fin_cases c <;> rfl

/-- **C94 refuted.** A light source in view is black when no photon lies near it, however bright it is; and a ray that
meets nothing shows black whatever the environment is. -/
theorem view_refuted (recip : K → K) (pi : K) (e env : V3 K) (ps : List (Photon K)) (s : Surface K)
    (hs : s.emission = e) (hfar : ∀ p ∈ ps, ¬ Dist2 s.pos p < 1 / 100) :
    view recip pi ps (some s) = 0 ∧ view recip pi ps none = 0 := by
  have hg : ∀ (l : List (Photon K)) (nee : V3 K) (a : K), (∀ p ∈ l, ¬ Dist2 s.pos p < 1 / 100) →
      gather s.resp a (1 / 100) s.pos l nee = nee := by
    intro l
    induction l with
    | nil => intros; rfl
    | cons p l ih =>
      intro nee a hl
      unfold gather
      rw [if_neg (by rw [sqDist_eq]; exact hl p (List.mem_cons_self))]
      exact ih nee a fun q hq => hl q (List.mem_cons_of_mem _ hq)
  refine ⟨?_, rfl⟩
  show evalRadius recip pi s.resp ps s.pos (1 / 100) 0 + 0 = 0
  unfold evalRadius
  dsimp only
  rw [hg ps 0 _ hfar]
  ext <;> simp

open Feign.Bsdf in
/-- **C94 refuted for mirrors.** A mirror does not show what lies in the mirror direction: it adds up the photons near
the visible point like a diffuse surface, from whatever direction they arrive. Turning all photon directions around
changes nothing. -/
theorem view_mirror_refuted (recip : ℝ → ℝ) (pi : ℝ) (albedo wi pos : V3 ℝ) (ps : List (Photon ℝ))
    (turn : V3 ℝ → V3 ℝ) :
    view recip pi ps (some ⟨pos, fun _ => mirrorEval albedo wi, 0⟩) =
      view recip pi (ps.map fun p => { p with dir := turn p.dir }) (some ⟨pos, fun _ => mirrorEval albedo wi, 0⟩) := by
  have hg : ∀ (l : List (Photon ℝ)) (nee : V3 ℝ) (a : ℝ),
      gather (fun _ => mirrorEval albedo wi) a (1 / 100) pos (l.map fun p => { p with dir := turn p.dir }) nee =
        gather (fun _ => mirrorEval albedo wi) a (1 / 100) pos l nee := by
    intro l
    induction l with
    | nil => intros; rfl
    | cons p l ih =>
      intro nee a
      rw [List.map_cons]
      unfold gather
      exact ih _ _
  unfold view
  dsimp only
  unfold evalRadius
  dsimp only
  rw [hg]

/-- A wall with one photon at distance 0.05: the view is not black. -/
example : (view (fun x => 1 / x) 3 [⟨⟨5 / 100, 0, 0⟩, ⟨0, 1, 0⟩, ⟨3, 3, 3⟩⟩]
    (some ⟨⟨0, 0, 0⟩, fun _ => ⟨1, 1, 1⟩, 0⟩) : V3 ℚ) = ⟨100, 100, 100⟩ := by
  decide +kernel

/-- A bright lamp with no photon near it: the view is black. -/
example : (view (fun x => 1 / x) 3 [⟨⟨5, 0, 0⟩, ⟨0, 1, 0⟩, ⟨3, 3, 3⟩⟩]
    (some ⟨⟨0, 0, 0⟩, fun _ => ⟨1, 1, 1⟩, ⟨50, 50, 50⟩⟩) : V3 ℚ) = 0 := by
  decide +kernel

end Feign.Photons
