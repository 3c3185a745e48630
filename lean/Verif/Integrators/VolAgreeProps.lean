import Verif.Integrators.VolProps

/-!
# C86: without media, the volumetric path integrator returns what the path integrator returns

The path integrator asks for the first surface that is not null (`Scene::intersect_non_null`); the volumetric one stops
at every null surface. The two see the same scene if the answers of the first, in order, are the answers of the second
with the null surfaces left out.
-/

set_option linter.unusedSectionVars false
set_option linter.unusedSimpArgs false

namespace Feign.Integrators.Vol

variable {K M : Type} [Field K] [LinearOrder K]

/-- The surface as the path integrator sees it: the albedo of each light sample is the material's at its direction. -/
def VSurface.plain (s : VSurface K) (queries : ℕ) : Surface K :=
  ⟨s.shader, s.delta, s.emitted, s.rays.map fun r => ⟨r.valid, r.throughput, s.mat r.dir⟩, queries, s.scatter, s.cos, s.u⟩

/-- Both integrators get the same answer. -/
inductive Same : VolAnswer K M → Answer K → Prop where
  | escape (q : ℕ) (env : V3 K) : Same (.escape env) (.escape q env)
  | surface (medium : M → MediumSample K) (b : Option (Boundary K M)) (s : VSurface K) (q q' : ℕ) :
      Same (.hit medium b (.surface s)) (.surface q (VSurface.plain s q'))

/-- A null surface with no medium on either side. -/
def EmptyNull (a : VolAnswer K M) : Prop :=
  ∃ medium b, a = .hit medium b .null ∧ ∀ b', b = some b' → b'.inside = none ∧ b'.outside = none

/-- The answers `ans` of the volumetric integrator are the answers `a` of the path integrator, at the passes `pass k`,
with empty null surfaces in between. -/
structure Interleaved (ans : ℕ → VolAnswer K M) (a : ℕ → Answer K) (pass : ℕ → ℕ) : Prop where
  mono : StrictMono pass
  same : ∀ k, Same (ans (pass k)) (a k)
  rest : ∀ j, (∀ k, j ≠ pass k) → EmptyNull (ans j)

/-- First pass that may belong to vertex `k`. -/
def startOf (pass : ℕ → ℕ) : ℕ → ℕ
  | 0 => 0
  | k + 1 => pass k + 1

theorem startOf_le {pass : ℕ → ℕ} (h : StrictMono pass) (k : ℕ) : startOf pass k ≤ pass k := by
  cases k with
  | zero => exact Nat.zero_le _
  | succ k => exact h (Nat.lt_succ_self k)

theorem between {pass : ℕ → ℕ} (h : StrictMono pass) {k j : ℕ} (h1 : startOf pass k ≤ j) (h2 : j < pass k) (m : ℕ) :
    j ≠ pass m := by
  rintro rfl
  have hm : m < k := h.lt_iff_lt.1 h2
  cases k with
  | zero => omega
  | succ k =>
    have : pass m ≤ pass k := h.monotone (Nat.lt_succ_iff.1 hm)
    simp only [startOf] at h1
    omega

theorem toPlain_evaluate (s : VSurface K) (q : ℕ) (c : Closure K) :
    vAccumulate s (vEvaluate s c []).2 (vEvaluate s c []).1 =
      accumulate (evaluate (VSurface.plain s q) c).2.1 (evaluate (VSurface.plain s q) c).1 := by
  have key : ∀ (rays : List (VRay K)) (c : Closure K), vAccumulate s rays c =
      accumulate (rays.map fun r => ⟨r.valid, r.throughput, s.mat r.dir⟩) c := by
    intro rays
    induction rays with
    | nil => intro c; rfl
    | cons r rs ih =>
      intro c
      rw [vAccumulate, List.foldl_cons, ← vAccumulate, ih, List.map_cons, accumulate, accumulate, List.foldl_cons]
  obtain ⟨sh, de, em, sr, ma, sc, co, u⟩ := s
  cases de <;> cases sh <;> cases hc : c.acceptsShadows <;> cases hl : c.lastSpec <;>
    simp [vEvaluate, evaluate, VSurface.plain, key, hc, hl]

/-- The states of the two loops correspond. -/
structure Match (maxBounces n : ℕ) (st : PathState K) (vst : VolState K M) : Prop where
  Li : vst.Li = st.Li
  beta : vst.beta = st.beta
  closure : vst.closure = st.closure
  rays : vst.rays = []
  media : vst.media = none
  bounces : vst.bounces + n = maxBounces

theorem skip_nulls (quot : K → K → K) (maxBounces : ℕ) (ans : ℕ → VolAnswer K M) (d : ℕ) :
    ∀ (i fuel : ℕ) (vst : VolState K M), vst.media = none → vst.bounces < maxBounces → isZero vst.beta = false →
      (∀ j, i ≤ j → j < i + d → EmptyNull (ans j)) →
      volLoop quot maxBounces ans (d + fuel) i vst = volLoop quot maxBounces ans fuel (i + d) vst := by
  induction d with
  | zero => intro i fuel vst _ _ _ _; simp
  | succ d ih =>
    intro i fuel vst hm hb hz hn
    obtain ⟨medium, b, ha, hbd⟩ := hn i le_rfl (by omega)
    rw [show d + 1 + fuel = (d + fuel) + 1 by omega, volLoop, volStep_eq quot maxBounces _ vst hb hz, ha, hm]
    have hstep : eventStep quot vst (happens (.hit medium b .null) none) = .next vst := by
      obtain ⟨L, be, cl, ra, me, bo⟩ := vst
      cases b with
      | none => simp only [happens, arrive, eventStep, nullStep, mul_white]
      | some b =>
        obtain ⟨h1, h2⟩ := hbd b rfl
        simp only at hm
        simp only [happens, arrive, eventStep, nullStep, mul_white, h1, h2, hm, ite_self]
    rw [hstep]
    simp only
    rw [ih (i + 1) fuel vst hm hb hz (fun j h1 h2 => hn j (by omega) (by omega)),
      show i + 1 + d = i + (d + 1) by omega]

theorem volLoop_stop (quot : K → K → K) (maxBounces : ℕ) (ans : ℕ → VolAnswer K M) (fuel i : ℕ) (vst : VolState K M)
    (h : vst.bounces = maxBounces ∨ isZero vst.beta = true) :
    volLoop quot maxBounces ans (fuel + 1) i vst = some vst.Li := by
  rw [volLoop, volStep.eq_def]
  rcases h with h | h
  · rw [if_neg (by omega)]
  · by_cases hb : vst.bounces < maxBounces
    · rw [if_pos hb, if_pos h]
    · rw [if_neg hb]

/-- What the path integrator returns from vertex `k` on, given the answer there. -/
def pathVertex (quot : K → K → K) (a : ℕ → Answer K) (n k : ℕ) (st : PathState K) : Answer K → V3 K
  | .escape _ env => st.Li + st.beta * env
  | .surface _ s =>
    if s.u > min st.beta.maxValue 1 ∨ (sample s (shaded s st.closure)).pdf = 0 then
      st.Li + st.beta * ((shaded s st.closure).emission + (shaded s st.closure).nee)
    else pathPure quot a n (k + 1) (nextState quot s st)

theorem volLoop_eq_pathPure (quot : K → K → K) (maxBounces : ℕ) {ans : ℕ → VolAnswer K M} {a : ℕ → Answer K}
    {pass : ℕ → ℕ} (hi : Interleaved ans a pass) (n : ℕ) :
    ∀ (k : ℕ) (st : PathState K) (vst : VolState K M), Match maxBounces n st vst →
      ∃ F, ∀ fuel, F ≤ fuel →
        volLoop quot maxBounces ans fuel (startOf pass k) vst = some (pathPure quot a n k st) := by
  induction n with
  | zero =>
    intro k st vst hm
    refine ⟨1, fun fuel hf => ?_⟩
    obtain ⟨fuel, rfl⟩ : ∃ f, fuel = f + 1 := ⟨fuel - 1, by omega⟩
    rw [volLoop_stop _ _ _ _ _ _ (Or.inl (by have := hm.bounces; omega)), pathPure, hm.Li]
  | succ n ih =>
    intro k st vst hm
    rw [pathPure]
    by_cases hz : isZero st.beta = true
    · refine ⟨1, fun fuel hf => ?_⟩
      obtain ⟨fuel, rfl⟩ : ∃ f, fuel = f + 1 := ⟨fuel - 1, by omega⟩
      rw [volLoop_stop _ _ _ _ _ _ (Or.inr (by rw [hm.beta]; exact hz)), if_pos hz, hm.Li]
    · rw [if_neg hz]
      have hz' : isZero vst.beta = false := by rw [hm.beta]; simpa using hz
      have hb : vst.bounces < maxBounces := by have := hm.bounces; omega
      have hle := startOf_le hi.mono k
      obtain ⟨d, hd⟩ : ∃ d, pass k = startOf pass k + d := ⟨pass k - startOf pass k, by omega⟩
      have hskip := fun fuel => skip_nulls quot maxBounces ans d (startOf pass k) fuel vst hm.media hb hz'
        (fun j h1 h2 => hi.rest j (between hi.mono h1 (by omega)))
      have hans := hi.same k
      -- the pass that meets vertex `k`
      suffices H : ∃ F, ∀ fuel, F ≤ fuel → volLoop quot maxBounces ans (fuel + 1) (pass k) vst =
          some (pathVertex quot a n k st (a k)) by
        obtain ⟨F, hF⟩ := H
        refine ⟨d + (F + 1), fun fuel hf => ?_⟩
        obtain ⟨fuel', rfl⟩ : ∃ f, fuel = d + (f + 1) := ⟨fuel - d - 1, by omega⟩
        rw [hskip, ← hd, hF fuel' (by omega)]
        cases a k <;> rfl
      cases hak : a k with
      | escape q env =>
        rw [hak] at hans
        cases hav : ans (pass k) with
        | hit medium b t => rw [hav] at hans; cases hans
        | escape env' =>
          rw [hav] at hans
          cases hans
          refine ⟨0, fun fuel _ => ?_⟩
          rw [volLoop, volStep_eq quot maxBounces _ vst hb hz', hav]
          simp only [happens, eventStep, hm.Li, hm.beta, pathVertex]
      | surface q s =>
        rw [hak] at hans
        cases hav : ans (pass k) with
        | escape env' => rw [hav] at hans; cases hans
        | hit medium b t =>
          rw [hav] at hans
          cases hans with
          | surface _ _ s' _ q' =>
          have hshade : vAccumulate s' (vEvaluate s' { vst.closure with emission := 0, nee := 0, albedo := 0 } vst.rays).2
              (vEvaluate s' { vst.closure with emission := 0, nee := 0, albedo := 0 } vst.rays).1 =
              shaded (VSurface.plain s' q') st.closure := by
            rw [hm.rays, hm.closure, toPlain_evaluate s' q']
            rfl
          have hsample : ∀ c, vSample s' c = sample (VSurface.plain s' q') c := fun _ => rfl
          obtain ⟨F, hF⟩ := ih (k + 1) (nextState quot (VSurface.plain s' q') st)
            { vst with
              Li := (nextState quot (VSurface.plain s' q') st).Li
              beta := (nextState quot (VSurface.plain s' q') st).beta
              closure := (nextState quot (VSurface.plain s' q') st).closure
              rays := []
              bounces := vst.bounces + 1 }
            ⟨rfl, rfl, rfl, rfl, hm.media, by have := hm.bounces; show vst.bounces + 1 + n = _; omega⟩
          refine ⟨F, fun fuel hf => ?_⟩
          rw [volLoop, volStep_eq quot maxBounces _ vst hb hz', hav, hm.media]
          simp only [happens, arrive, eventStep, mul_white, surfaceStep, hshade, hm.Li, hm.beta, hsample, pathVertex]
          have hpu : (VSurface.plain s' q').u = s'.u := rfl
          rw [hpu]
          by_cases hu : s'.u > min st.beta.maxValue 1
          · rw [if_pos hu]
            simp only
            rw [if_pos (Or.inl hu)]
          · rw [if_neg hu]
            by_cases hp : (sample (VSurface.plain s' q') (shaded (VSurface.plain s' q') st.closure)).pdf = 0
            · rw [if_pos hp]
              simp only
              rw [if_pos (Or.inr hp), (sample_emission _ _).1, (sample_emission _ _).2.1]
            · rw [if_neg hp]
              simp only
              rw [if_neg (not_or.2 ⟨hu, hp⟩)]
              refine Eq.trans ?_ (hF fuel hf)
              simp only [startOf, nextState, (sample_emission _ _).1, (sample_emission _ _).2.1]
              rfl

/-- C86. In a scene without media (none in the environment, none at the boundaries of null surfaces) the volumetric
integrator returns, after enough passes, exactly what the path integrator returns, for every bound on the bounces and
however many null surfaces lie between the vertices. -/
theorem vol_eq_path (quot : K → K → K) (maxBounces : ℕ) (ans : ℕ → VolAnswer K M) (a : ℕ → Answer K) (pass : ℕ → ℕ)
    (hi : Interleaved ans a pass) (r : Running) (hr : Idle r) :
    ∃ v F, pathLi quot maxBounces a r = .ok (v, r) ∧
      ∀ fuel, F ≤ fuel → volLi quot maxBounces none ans fuel = some v := by
  obtain ⟨F, hF⟩ := volLoop_eq_pathPure quot maxBounces hi maxBounces 0 ⟨0, white, Closure.fresh⟩
    ⟨0, white, Closure.fresh, [], none, 0⟩ ⟨rfl, rfl, rfl, rfl, rfl, Nat.zero_add _⟩
  exact ⟨_, F, by rw [pathLi, pathLoop_eq hr], fun fuel hf => hF fuel hf⟩

/-! ## A scene that meets the hypotheses -/

/-- A pane of nothing in front of each grey wall. -/
def panes (j : ℕ) : VolAnswer ℚ Unit :=
  if j % 2 = 0 then .hit (fun _ => ⟨white, none⟩) (some ⟨1, none, none⟩) .null
  else .hit (fun _ => ⟨white, none⟩) none
    (.surface ⟨.simple, false, ⟨1, 1, 1⟩, [⟨true, ⟨2, 2, 2⟩, ⟨0, 0, 1⟩⟩], fun _ => ⟨1 / 2, 1 / 2, 1 / 2⟩,
      .bsdf ⟨1 / 2, 1 / 2, 1 / 2⟩ 1, 1, 1 / 4⟩)

/-- The same walls. -/
def walls (_ : ℕ) : Answer ℚ :=
  .surface 2 ⟨.simple, false, ⟨1, 1, 1⟩, [⟨true, ⟨2, 2, 2⟩, ⟨1 / 2, 1 / 2, 1 / 2⟩⟩], 1, .bsdf ⟨1 / 2, 1 / 2, 1 / 2⟩ 1, 1,
    1 / 4⟩

example : Interleaved panes walls (fun k => 2 * k + 1) := by
  refine ⟨fun a b h => by show 2 * a + 1 < 2 * b + 1; omega, fun k => ?_, fun j hj => ?_⟩
  · have : panes (2 * k + 1) = .hit (fun _ => ⟨white, none⟩) none
      (.surface ⟨.simple, false, ⟨1, 1, 1⟩, [⟨true, ⟨2, 2, 2⟩, ⟨0, 0, 1⟩⟩], fun _ => ⟨1 / 2, 1 / 2, 1 / 2⟩,
        .bsdf ⟨1 / 2, 1 / 2, 1 / 2⟩ 1, 1, 1 / 4⟩) := by
      unfold panes
      rw [if_neg (by omega)]
    rw [this]
    exact Same.surface _ _ _ 2 1
  · have hev : j % 2 = 0 := by
      by_contra h
      exact hj (j / 2) (by omega)
    refine ⟨fun _ => ⟨white, none⟩, some ⟨1, none, none⟩, by unfold panes; rw [if_pos hev], ?_⟩
    rintro b' ⟨⟩
    exact ⟨rfl, rfl⟩

example : volLi (· / ·) 3 none panes 8 = radiance 3 walls ∧ radiance 3 walls = some ⟨3, 3, 3⟩ := by decide +kernel

end Feign.Integrators.Vol
