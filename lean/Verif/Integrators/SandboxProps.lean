import Verif.Integrators.Sandbox
import Verif.Integrators.VolAgreeProps
import Verif.Integrators.PathProps

/-!
# C114: the sandbox integrator shows the light of the first surface
-/

set_option linter.unusedSectionVars false
set_option linter.unusedSimpArgs false

namespace Feign.Integrators

open Vol

variable {K M : Type} [Field K] [LinearOrder K] [IsStrictOrderedRing K]

/-! ## Specification -/

/-- Light that leaves a surface towards the camera without having been scattered elsewhere: what it emits, and, unless
it is specular, the light samples that are not blocked, each times the material. -/
def firstLight (s : VSurface K) : V3 K := s.emitted + if s.delta then 0 else total s.mat s.rays

/-- What a camera ray should show: the environment, the light of the first surface, or what is seen through a null
surface. The medium behind a null surface, if there is one, scatters light towards the camera or weakens what lies
behind. `none`: a second null surface is met, and what lies behind that is not known here. -/
def expected (env : V3 K) : FirstHit K M → Option (V3 K)
  | .nothing => some env
  | .surface s => some (firstLight s)
  | .null boundary medium beyond =>
    let behind := match beyond with
      | none => some env
      | some (.surface s) => some (firstLight s)
      | some .null => none
    match boundary.join.join with
    | none => behind
    | some m =>
      match (medium m).scatter with
      | some v => some (total (fun _ => (medium m).weight.smul (v.phase v.wi)) v.rays)
      | none => behind.map fun c => (medium m).weight * c

/-! ## Theorems -/

private theorem zadd (a : V3 K) : 0 + a = a := by ext <;> simp

private theorem wmul (a : V3 K) : white * a = a := by ext <;> simp [white]

private theorem vcomm (a b : V3 K) : a + b = b + a := by ext <;> simp [add_comm]

theorem sandboxSurface_eq (beta : V3 K) (s : VSurface K) : sandboxSurface beta s = beta * firstLight s := by
  have h : ∀ c : Closure K, (vSample s c).nee = c.nee ∧ (vSample s c).emission = c.emission := by
    intro c
    unfold vSample
    cases s.scatter <;> exact ⟨rfl, rfl⟩
  simp only [sandboxSurface, (h _).1, (h _).2]
  have e : ∀ c : Closure K, c = vAccumulate s
      (vEvaluate s { Closure.fresh with emission := 0, nee := 0, albedo := 0 } []).2
      (vEvaluate s { Closure.fresh with emission := 0, nee := 0, albedo := 0 } []).1 →
      c.emission + c.nee = firstLight s := by
    rintro c rfl
    rw [vAccumulate_eq]
    unfold vEvaluate firstLight Closure.fresh
    cases hd : s.delta <;> cases hs : s.shader <;> simp [hd, hs, total]
  have e1 := e _ rfl
  split_ifs
  · rw [e1]
  · rw [e1]
  · rw [vcomm, e1]

/-- C114 for surfaces: the sandbox shows the light of the first surface whatever the random numbers, like the path
integrator with one bounce. -/
theorem sandbox_surface_partial (quot : K → K → K) (s : VSurface K) (q q' : ℕ) (env : V3 K) (t : Running) (ht : Idle t) :
    ∃ c, expected (M := M) env (.surface s) = some c ∧ sandboxLi (M := M) (.surface s) = .ok c ∧
      pathLi quot 1 (fun _ => .surface q (VSurface.plain s q')) t = .ok (c, t) := by
  refine ⟨firstLight s, rfl, ?_, ?_⟩
  · simp only [sandboxLi, sandboxSurface_eq, zadd, wmul]
  · rw [path_radiance quot 1 _ t ht]
    have hz : ¬ Negligible (throughput quot (fun _ => Answer.surface q (VSurface.plain s q')) 0) := by
      simp only [throughput, Negligible, white, abs_one]
      norm_num
    have hl : lightAt (fun _ => Answer.surface q (VSurface.plain s q')) 0 = firstLight s := by
      simp only [lightAt, emissionAt, directAt, looksAt, samplesLights, if_true, and_true, VSurface.plain, firstLight]
      cases hd : s.delta
      · simp only [if_true, Bool.false_eq_true, if_false, directLight, total]
        congr 1
        generalize s.rays = rays
        induction rays with
        | nil => rfl
        | cons r rs ih =>
          cases hv : r.valid <;> simp [hv, ih, List.filter_cons]
      · simp
    have hr : Reached quot (fun _ => Answer.surface q (VSurface.plain s q')) 0 := by
      refine ⟨fun j hj => absurd hj (Nat.not_lt_zero j), fun j hj => ?_⟩
      obtain rfl := Nat.le_zero.1 hj
      exact hz
    simp only [Finset.sum_range_one, contribution, if_pos hr, hl, throughput, wmul]

/-- C114 through a null surface with a medium inside: light scattered in the medium, or the light of the surface behind
it weakened by the medium. -/
theorem sandbox_medium_partial (env : V3 K) (m : M) (medium : M → MediumSample K) (beyond : Option (Target K))
    (h : (medium m).scatter = none → ∃ s, beyond = some (.surface s)) :
    ∃ c, expected env (.null (some (some (some m))) medium beyond) = some c ∧
      sandboxLi (.null (some (some (some m))) medium beyond) = .ok c := by
  have hj : (some (some (some m))).join.join = some m := rfl
  simp only [expected, sandboxLi, hj]
  cases hs : (medium m).scatter with
  | some v =>
    refine ⟨_, rfl, ?_⟩
    simp only [zadd, mediumNee_eq, wmul]
    congr 1
    generalize v.rays = rays
    induction rays with
    | nil => simp [total, mul_zero3]
    | cons r rs ih =>
      cases hv : r.valid
      · simpa only [total_cons, hv, Bool.false_eq_true, if_false] using ih
      · simp only [total_cons, hv, if_true, mul_add3, ih]
        congr 1
        ext <;> simp <;> ring
  | none =>
    obtain ⟨s, rfl⟩ := h hs
    refine ⟨(medium m).weight * firstLight s, rfl, ?_⟩
    simp only [zadd, wmul, sandboxSurface_eq]

/-- C114 fails for rays that meet nothing, behind a medium or not: they are black whatever the environment. The path
integrator shows the environment. -/
theorem sandbox_environment_refuted (quot : K → K → K) (env : V3 K) (q : ℕ) (t : Running) (ht : Idle t) (m : M)
    (medium : M → MediumSample K) (hm : (medium m).scatter = none) :
    sandboxLi (K := K) (M := M) .nothing = .ok 0 ∧ expected (M := M) env .nothing = some env ∧
    pathLi quot 1 (fun _ => .escape q env) t = .ok (env, t) ∧
    sandboxLi (.null (some (some (some m))) medium none) = .ok 0 ∧
    expected env (.null (some (some (some m))) medium none) = some ((medium m).weight * env) := by
  refine ⟨rfl, rfl, ?_, by simp only [sandboxLi, hm], ?_⟩
  swap
  · have hj : (some (some (some m))).join.join = some m := rfl
    simp only [expected, hj, hm, Option.map]
  rw [path_radiance quot 1 _ t ht]
  have hr : Reached quot (fun _ => Answer.escape q env) 0 := by
    refine ⟨fun j hj => absurd hj (Nat.not_lt_zero j), fun j hj => ?_⟩
    obtain rfl := Nat.le_zero.1 hj
    simp only [throughput, Negligible, white, abs_one]
    norm_num
  simp only [Finset.sum_range_one, contribution, if_pos hr, lightAt, throughput, wmul]

/-- C114 fails behind a null surface whose boundary has an empty medium inside: it is black whatever lies behind. -/
theorem sandbox_empty_refuted (env : V3 K) (medium : M → MediumSample K) (s : VSurface K) :
    sandboxLi (.null (some (some none)) medium (some (.surface s))) = .ok 0 ∧
    expected env (.null (some (some none)) medium (some (.surface s))) = some (firstLight s) := ⟨rfl, rfl⟩

/-- C114 is not met behind a second null surface: it is black, whatever lies behind it. -/
theorem sandbox_second_null (m : M) (medium : M → MediumSample K) (hm : (medium m).scatter = none) :
    sandboxLi (.null (some (some (some m))) medium (some .null)) = .ok 0 := by
  simp only [sandboxLi, hm]

/-- C114 fails for a null surface without a boundary, or with no medium inside: a null pointer is followed. The surface
behind it should be shown. -/
theorem sandbox_undefined_refuted (env : V3 K) (medium : M → MediumSample K) (s : VSurface K) :
    (sandboxLi (.null none medium (some (.surface s)))).isUb ∧
    (sandboxLi (.null (some none) medium (some (.surface s)))).isUb ∧
    expected env (.null none medium (some (.surface s))) = some (firstLight s) ∧
    expected env (.null (some none) medium (some (.surface s))) = some (firstLight s) := ⟨rfl, rfl, rfl, rfl⟩

/-! ## Examples -/

/-- A lamp that is lit by another lamp. -/
def litLamp : VSurface ℚ where
  shader := .simple
  delta := false
  emitted := ⟨1, 1, 1⟩
  rays := [⟨true, ⟨1, 2, 3⟩, ⟨0, 0, 1⟩⟩, ⟨false, ⟨5, 5, 5⟩, ⟨0, 0, 1⟩⟩]
  mat := fun _ => ⟨1 / 2, 1 / 2, 1 / 2⟩
  scatter := .bsdf ⟨1, 1, 1⟩ 1
  cos := 1
  u := 1 / 2

example : sandboxLi (M := Unit) (.surface litLamp) = .ok ⟨3 / 2, 2, 5 / 2⟩ := by decide +kernel

example : sandboxLi (M := Unit) (.null (some (some (some ()))) (fun _ => ⟨⟨1 / 2, 1 / 2, 1 / 2⟩, none⟩)
    (some (.surface litLamp))) = .ok ⟨3 / 4, 1, 5 / 4⟩ := by decide +kernel

end Feign.Integrators
