import Verif.Integrators.PathProps
import Mathlib.Tactic.Push

/-!
# C38 (Whitted), C39, C40

Whitted's integrator, ambient occlusion, and the balance of timers in every integrator.
-/

set_option linter.unusedSectionVars false
set_option linter.unusedSimpArgs false

namespace Feign.Integrators

variable {K : Type} [Field K] [LinearOrder K] [IsStrictOrderedRing K]

/-! ## Timers -/

/-- A computation that neither throws nor changes which timers run, provided the timers it uses are stopped. -/
def Balanced {α : Type} (c : Clk α) : Prop := ∀ r, Idle r → ∃ v, c r = .ok (v, r)

/-- C40, path integrator: every control path, any bounce limit. -/
theorem path_timers (quot : K → K → K) (maxBounces : ℕ) (ans : ℕ → Answer K) :
    Balanced (pathLi quot maxBounces ans) :=
  fun r hr => ⟨_, path_radiance quot maxBounces ans r hr⟩

/-- C40, Whitted integrator: every control path, any recursion depth. -/
theorem whitted_timers (ans : ℕ → Answer K) (fuel : ℕ) : Balanced (whittedLi ans fuel 0) :=
  fun _ hr => ⟨_, whittedLi_eq hr ans fuel 0⟩

section others
variable {r : Running} (hr : Idle r)
include hr

theorem ambOcc_eq {Its : Type} (q q' : ℕ) (camera : Option Its) (occluded : Its → Bool) :
    ambOccLi (K := K) q q' camera occluded r =
      .ok (match camera with | none => 0 | some its => if occluded its then 0 else white, r) := by
  have h1 := idle_intersect hr
  have h4 := idle_eval hr
  have h9 := idle_embree hr
  rw [← on_nil r]
  cases camera with
  | none => simp [ambOccLi, Clk.bind_apply, start_on, end_on, off, queries_on, h1, h9]
  | some its =>
    cases ho : occluded its <;>
      simp [ambOccLi, startStopOne, Clk.bind_apply, start_on, end_on, off, queries_on, h1, h4, h9, ho]

theorem normal_eq (q : ℕ) (hit : Option (V3 K)) :
    normalLi q hit r = .ok (match hit with | none => 0 | some n => n.absV, r) := by
  have h1 := idle_intersect hr
  have h4 := idle_eval hr
  have h9 := idle_embree hr
  rw [← on_nil r]
  cases hit with
  | none => simp [normalLi, Clk.bind_apply, start_on, end_on, off, queries_on, h1, h9]
  | some n =>
    have key : ∀ c : K, 0 ≤ if c < 0 then -c else c := by
      intro c
      split_ifs with h
      · exact (neg_pos.2 h).le
      · exact not_lt.1 h
    have hn : ¬ (n.absV.x < 0 ∨ n.absV.y < 0 ∨ n.absV.z < 0) := by
      simp only [V3.absV, not_or, not_lt]
      exact ⟨key _, key _, key _⟩
    simp [normalLi, startStopOne, Clk.bind_apply, start_on, end_on, off, queries_on, h1, h4, h9, hn]

theorem niceNormal_eq (q : ℕ) (hit : Option (V3 K)) :
    niceNormalLi q hit r = .ok (match hit with | none => 0 | some n => (n + ⟨1, 1, 1⟩).smul (1 / 2), r) := by
  have h1 := idle_intersect hr
  have h4 := idle_eval hr
  have h9 := idle_embree hr
  rw [← on_nil r]
  cases hit with
  | none => simp [niceNormalLi, Clk.bind_apply, start_on, end_on, off, queries_on, h1, h9]
  | some n =>
    simp [niceNormalLi, startStopOne, Clk.bind_apply, start_on, end_on, off, queries_on, h1, h4, h9]
    rfl

theorem cosine_eq (q : ℕ) (dir : V3 K) (hit : Option (V3 K)) :
    cosineLi q dir hit r =
      .ok (match hit with | none => ⟨-2, -2, -2⟩ | some n => ⟨n.dot dir, n.dot dir, n.dot dir⟩, r) := by
  have h1 := idle_intersect hr
  have h4 := idle_eval hr
  have h9 := idle_embree hr
  rw [← on_nil r]
  cases hit <;> simp [cosineLi, startStopOne, Clk.bind_apply, start_on, end_on, off, queries_on, h1, h4, h9]

theorem barycentric_eq (q : ℕ) (hit : Option (V3 K)) :
    barycentricLi q hit r =
      .ok (match hit with
        | none => ⟨-2, -2, -2⟩
        | some b => if min b.x (min b.y b.z) < 1 / 100 then white else 0, r) := by
  have h1 := idle_intersect hr
  have h4 := idle_eval hr
  have h9 := idle_embree hr
  rw [← on_nil r]
  cases hit with
  | none => simp [barycentricLi, Clk.bind_apply, start_on, end_on, off, queries_on, h1, h9]
  | some b =>
    have hm : (if b.z < (if b.y < b.x then b.y else b.x) then b.z else if b.y < b.x then b.y else b.x) =
        min b.x (min b.y b.z) := by
      rcases lt_or_ge b.y b.x with h | h
      · rw [if_pos h, min_eq_right ((min_le_left _ _).trans h.le)]
        rcases lt_or_ge b.z b.y with h' | h'
        · rw [if_pos h', min_eq_right h'.le]
        · rw [if_neg (not_lt.2 h'), min_eq_left h']
      · rw [if_neg (not_lt.2 h)]
        rcases lt_or_ge b.z b.x with h' | h'
        · rw [if_pos h', min_eq_right ((min_le_right _ _).trans h'.le), min_eq_right (h'.le.trans h)]
        · rw [if_neg (not_lt.2 h'), min_eq_left (le_min h h')]
    by_cases hlt : min b.x (min b.y b.z) < 1 / 100
    · have hlt' := hlt
      rw [← hm] at hlt'
      rw [one_div] at hlt'
      simp only [barycentricLi, startStopOne, Clk.bind_apply, if_pos hlt]
      simp [start_on, end_on, off, queries_on, h1, h4, h9, hlt']
    · have hlt' := hlt
      rw [← hm] at hlt'
      rw [one_div] at hlt'
      simp only [barycentricLi, startStopOne, Clk.bind_apply, if_neg hlt]
      simp [start_on, end_on, off, queries_on, h1, h4, h9, hlt']

end others

/-- C39. Ambient occlusion is white exactly when the camera ray hits a surface and the occlusion ray escapes, and
black otherwise. -/
theorem ambient_occlusion {Its : Type} (q q' : ℕ) (camera : Option Its) (occluded : Its → Bool) (r : Running)
    (hr : Idle r) :
    ∃ v : V3 K, ambOccLi q q' camera occluded r = .ok (v, r) ∧ (v = white ∨ v = 0) ∧
      (v = white ↔ ∃ its, camera = some its ∧ occluded its = false) := by
  refine ⟨_, ambOcc_eq hr q q' camera occluded, ?_⟩
  have hne : (white : V3 K) ≠ 0 := by
    intro h
    have := congrArg V3.x h
    simp [white] at this
  cases camera with
  | none => simp [hne.symm]
  | some its => cases h : occluded its <;> simp [h, hne.symm]

example : ∃ v : V3 ℚ, ambOccLi 1 1 (some ()) (fun _ => false) (fun _ => false) = .ok (v, fun _ => false) ∧
    v = white := by
  obtain ⟨v, h1, _, h3⟩ := ambient_occlusion (K := ℚ) 1 1 (some ()) (fun _ => false) (fun _ => false)
    fun _ _ => rfl
  exact ⟨v, h1, h3.2 ⟨(), rfl, rfl⟩⟩

/-- C40, ambient occlusion and the debug integrators. The early return of the normal integrator, which would leave
a timer running, is never taken. -/
theorem other_timers {Its : Type} (q q' : ℕ) (camera : Option Its) (occluded : Its → Bool) (dir : V3 K)
    (hit : Option (V3 K)) :
    Balanced (ambOccLi (K := K) q q' camera occluded) ∧ Balanced (normalLi q hit) ∧
      Balanced (niceNormalLi q hit) ∧ Balanced (cosineLi q dir hit) ∧ Balanced (barycentricLi q hit) :=
  ⟨fun _ hr => ⟨_, ambOcc_eq hr ..⟩, fun _ hr => ⟨_, normal_eq hr ..⟩, fun _ hr => ⟨_, niceNormal_eq hr ..⟩,
    fun _ hr => ⟨_, cosine_eq hr ..⟩, fun _ hr => ⟨_, barycentric_eq hr ..⟩⟩

/-- All timers used while an image is rendered are stopped. -/
def RenderIdle (r : Running) : Prop :=
  Idle r ∧ r .cameraRay = false ∧ r .integrator = false ∧ r .filter = false

/-- C40. Rendering an image on one thread with balanced radiance computations never throws because of a timer,
and leaves the running timers as they were. -/
theorem render_timers {α : Type} (samples : List (Clk α)) (hb : ∀ c ∈ samples, Balanced c) (r : Running)
    (hr : RenderIdle r) : ∃ vs, renderTimers samples r = .ok (vs, r) ∧ vs.length = samples.length := by
  obtain ⟨hi, hc, hg, hf⟩ := hr
  induction samples with
  | nil =>
    refine ⟨[], ?_, rfl⟩
    rw [← on_nil r]
    simp [renderTimers, Clk.bind_apply, start_on, end_on, off, hf]
  | cons c cs ih =>
    obtain ⟨vs, hvs, hlen⟩ := ih fun c' hc' => hb c' (by simp [hc'])
    have hi' : Idle (on r [.integrator]) := by
      intro t ht
      have := hi t ht
      simp only [on, this, Bool.or_false]
      simp only [liTimers, List.mem_cons, List.not_mem_nil, or_false] at ht
      rcases ht with rfl | rfl | rfl | rfl | rfl | rfl | rfl | rfl | rfl <;> rfl
    obtain ⟨v, hv⟩ := hb c (by simp) _ hi'
    refine ⟨v :: vs, ?_, by simp [hlen]⟩
    rw [← on_nil r] at hvs ⊢
    simp [renderTimers, renderSample, startStopOne, Clk.bind_apply, start_on, end_on, off, hc, hg, hf, hv, hvs]

example : RenderIdle fun _ => false := ⟨fun _ _ => rfl, rfl, rfl, rfl⟩

/-- The timers of one thread, as the sequence of calls it makes to the shared clock: `true` starts, `false`
stops. -/
def clockCall (t : Timer) (start : Bool) : Clk Unit := if start then startClock t else endClock t

/-- C40 does not carry over to the thread pool (`GOTTAGOFAST`, with `CLOCKING` on): the flags are shared, so two
threads that start the same timer one after the other, as any two radiance computations do first, make the second
throw. -/
theorem pool_timers_refuted (r : Running) (h : Idle r) :
    (do clockCall .intersect true; clockCall .intersect true : Clk Unit) r = .throw "already active" := by
  have h1 := idle_intersect h
  rw [← on_nil r]
  simp only [clockCall, if_true, Clk.bind_apply, start_on h1 (ts := []) rfl]
  simp [startClock, on]

/-! ## Whitted -/

/-- The Whitted radiance when no timer is running; the outer `none` is an exception, the inner one a recursion that
has not ended. -/
def whittedRadiance (ans : ℕ → Answer K) (fuel : ℕ) : Option (Option (V3 K)) :=
  match whittedLi ans fuel 0 fun _ => false with
  | .ok (v, _) => some v
  | _ => none

/-- C38 fails for the Whitted integrator: the emission of a non-specular surface the camera sees is counted
twice, whatever the surface. -/
theorem whitted_emission_twice_refuted (ans : ℕ → Answer K) (q : ℕ) (s : Surface K) (h0 : ans 0 = .surface q s)
    (hd : s.delta = false) (fuel : ℕ) :
    whittedRadiance ans (fuel + 1) = some (some (s.emitted + directLight s + s.emitted)) := by
  rw [whittedRadiance, whittedLi_eq (fun _ _ => rfl)]
  simp only [whittedPure, h0, accumulate_eq, evaluate, hd, Closure.fresh, directLight]
  cases s.shader <;> simp

example : whittedRadiance (wallLamp .simple) 1 = some (some ⟨2, 2, 2⟩) ∧
    whittedRadiance (fun k => wallLamp .simple (k + 1)) 1 = some (some ⟨16, 16, 16⟩) := by decide +kernel

/-- C71 and C38 fail for a specular surface that emits: when the random number ends the path, the emission already
found there is dropped. -/
theorem whitted_emission_dropped_refuted (ans : ℕ → Answer K) (q : ℕ) (s : Surface K) (h0 : ans 0 = .surface q s)
    (hd : s.delta = true) (hu : s.u > 19 / 20) (fuel : ℕ) : whittedRadiance ans (fuel + 1) = some (some 0) := by
  rw [whittedRadiance, whittedLi_eq (fun _ _ => rfl)]
  simp [whittedPure, h0, accumulate_eq, evaluate, hd, Closure.fresh, hu]

/-- C38 holds for a specular surface when the path goes on: its emission is counted once and the rest of the path
is weighted by the albedo over the probability of going on. -/
theorem whitted_specular_partial (ans : ℕ → Answer K) (q : ℕ) (s : Surface K) (i : ℕ) (h0 : ans i = .surface q s)
    (hd : s.delta = true) (hu : s.u ≤ 19 / 20) (hz : isZero ((albedo s).smul (1 / (19 / 20))) = false)
    (fuel : ℕ) (r : Running) (hr : Idle r) :
    ∃ w, whittedLi ans fuel (i + 1) r = .ok (w, r) ∧
      whittedLi ans (fuel + 1) i r = .ok (w.map fun v => (albedo s).smul (1 / (19 / 20)) * v + s.emitted, r) := by
  refine ⟨_, whittedLi_eq hr ans fuel (i + 1), ?_⟩
  rw [whittedLi_eq hr]
  have hu' : ¬ s.u > 19 / 20 := not_lt.2 hu
  have hz' : isZero ((albedo s).smul (20 / 19)) = false := by
    rw [← hz]; norm_num
  simp [whittedPure, h0, accumulate_eq, evaluate, hd, Closure.fresh, hu', sample_albedo, hz', hz]

/-- Two mirrors facing each other. -/
def mirrors (_ : ℕ) : Answer ℚ := .surface 1 ⟨.simple, true, 0, [], 0, .bsdf ⟨1, 1, 1⟩ 1, 1, 1 / 2⟩

/-- The recursion of the Whitted integrator has no depth limit: as long as the random numbers let it, a path
between two mirrors goes on. -/
theorem whitted_unbounded_refuted (fuel : ℕ) : whittedRadiance mirrors fuel = some none := by
  rw [whittedRadiance, whittedLi_eq (fun _ _ => rfl)]
  suffices h : ∀ n i, whittedPure mirrors n i = none by rw [h]
  intro n
  induction n with
  | zero => intro i; rfl
  | succ n ih =>
    intro i
    have hz : isZero ((⟨1, 1, 1⟩ : V3 ℚ).smul (20 / 19)) = false := by decide +kernel
    simp [whittedPure, mirrors, accumulate_eq, evaluate, Closure.fresh, sample, ih, hz]
    norm_num

end Feign.Integrators
