import Verif.Integrators.Model

/-! # Lemmas about timers and integrator loops -/

set_option linter.unusedSectionVars false
set_option linter.unusedSimpArgs false

namespace Feign.Integrators

/-- `r` with the timers in `ts` running as well. -/
def on (r : Running) (ts : List Timer) : Running := fun t => ts.contains t || r t

theorem on_nil (r : Running) : on r [] = r := by
  funext t; simp [on]

theorem start_on {r : Running} {ts : List Timer} {t : Timer} (h : r t = false) (hts : ts.contains t = false) :
    startClock t (on r ts) = .ok ((), on r (t :: ts)) := by
  simp only [startClock, on, h, hts, Bool.or_false]
  simp only [Bool.false_eq_true, if_false]
  congr 2
  funext u
  by_cases hu : u = t
  · subst hu; simp [on]
  · simp [hu, on]

/-- `ts` without `t`. -/
def off (t : Timer) : List Timer → List Timer
  | [] => []
  | u :: us => if u = t then off t us else u :: off t us

theorem off_eq (t : Timer) (ts : List Timer) : off t ts = ts.filter (· != t) := by
  induction ts with
  | nil => rfl
  | cons u us ih => by_cases h : u = t <;> simp [off, h, ih, List.filter_cons]

theorem end_on {r : Running} {ts : List Timer} {t : Timer} (h : r t = false) (hts : ts.contains t = true) :
    endClock t (on r ts) = .ok ((), on r (off t ts)) := by
  rw [off_eq]
  simp only [endClock, on, h, hts, Bool.or_false, if_true]
  congr 2
  funext u
  by_cases hu : u = t
  · subst hu; simp [h, on]
  · simp [Function.update_of_ne hu, on, List.contains_eq_mem, List.mem_filter, hu]

theorem queries_on {r : Running} {ts : List Timer} (h : r .embree = false)
    (hts : ts.contains .embree = false) (n : ℕ) : embreeQueries n (on r ts) = .ok ((), on r ts) := by
  induction n with
  | zero => rfl
  | succ n ih =>
    rw [embreeQueries, Clk.bind_of_ok (start_on h hts), Clk.bind_of_ok (end_on h (by simp))]
    have : off .embree (Timer.embree :: ts) = ts := by
      rw [off_eq]
      rw [List.filter_cons_of_neg (by simp)]
      apply List.filter_eq_self.2
      intro a ha
      simp only [bne_iff_ne, ne_eq]
      rintro rfl
      simp [ha] at hts
    rw [this, ih]

variable {K : Type} [Field K] [LinearOrder K]

/-- The closure of the path integrator after shading a vertex. -/
def shaded (s : Surface K) (c : Closure K) : Closure K :=
  accumulate (evaluate s { c with emission := 0, nee := 0, albedo := 0 }).2.1
    (evaluate s { c with emission := 0, nee := 0, albedo := 0 }).1

/-- The next state of the path integrator after a vertex it survives. -/
def nextState (quot : K → K → K) (s : Surface K) (st : PathState K) : PathState K :=
  ⟨st.Li + st.beta * ((shaded s st.closure).nee + (shaded s st.closure).emission),
    st.beta * divBy quot ((sample s (shaded s st.closure)).albedo.smul
        (if (sample s (shaded s st.closure)).isSpecular then 1 else if s.cos < 0 then -s.cos else s.cos))
      ((sample s (shaded s st.closure)).pdf * min st.beta.maxValue 1),
    sample s (shaded s st.closure)⟩

/-- The path integrator without timers. -/
def pathPure (quot : K → K → K) (ans : ℕ → Answer K) : ℕ → ℕ → PathState K → V3 K
  | 0, _, st => st.Li
  | n + 1, i, st =>
    if isZero st.beta then st.Li
    else match ans i with
      | .escape _ env => st.Li + st.beta * env
      | .surface _ s =>
        if s.u > min st.beta.maxValue 1 ∨ (sample s (shaded s st.closure)).pdf = 0 then
          st.Li + st.beta * ((shaded s st.closure).emission + (shaded s st.closure).nee)
        else pathPure quot ans n (i + 1) (nextState quot s st)

/-- The Whitted integrator without timers. -/
def whittedPure (ans : ℕ → Answer K) : ℕ → ℕ → Option (V3 K)
  | 0, _ => none
  | n + 1, i =>
    match ans i with
    | .escape _ env => some env
    | .surface _ s =>
      let c := accumulate (evaluate s Closure.fresh).2.1 (evaluate s Closure.fresh).1
      if c.isSpecular then
        if s.u > 19 / 20 then some 0
        else if isZero ((sample s c).albedo.smul (1 / (19 / 20))) then some (c.nee + c.emission)
        else (whittedPure ans n (i + 1)).map fun v =>
          (sample s c).albedo.smul (1 / (19 / 20)) * v + c.nee + c.emission
      else some (c.emission + c.nee + c.emission)

theorem sample_emission (s : Surface K) (c : Closure K) :
    (sample s c).emission = c.emission ∧ (sample s c).nee = c.nee ∧ (sample s c).isSpecular = c.isSpecular := by
  unfold sample
  cases s.scatter <;> simp

section timers
variable {r : Running} (hr : Idle r)
include hr

theorem idle_intersect : r .intersect = false := hr _ (by simp [liTimers])
theorem idle_rr : r .rr = false := hr _ (by simp [liTimers])
theorem idle_nee : r .nee = false := hr _ (by simp [liTimers])
theorem idle_eval : r .eval = false := hr _ (by simp [liTimers])
theorem idle_shader : r .shader = false := hr _ (by simp [liTimers])
theorem idle_surface : r .surface = false := hr _ (by simp [liTimers])
theorem idle_surfaceEval : r .surfaceEval = false := hr _ (by simp [liTimers])
theorem idle_surfaceSample : r .surfaceSample = false := hr _ (by simp [liTimers])
theorem idle_embree : r .embree = false := hr _ (by simp [liTimers])

theorem pathLoop_eq (quot : K → K → K) (ans : ℕ → Answer K) (n : ℕ) : ∀ (i : ℕ) (st : PathState K),
    pathLoop quot ans n i st r = .ok (pathPure quot ans n i st, r) := by
  have h1 := idle_intersect hr
  have h2 := idle_rr hr
  have h3 := idle_nee hr
  have h4 := idle_eval hr
  have h5 := idle_shader hr
  have h6 := idle_surface hr
  have h7 := idle_surfaceEval hr
  have h8 := idle_surfaceSample hr
  have h9 := idle_embree hr
  induction n with
  | zero => intro i st; rfl
  | succ n ih =>
    intro i st
    rw [pathLoop, pathPure]
    by_cases hz : isZero st.beta = true
    · simp [hz]
    · rw [if_neg hz, if_neg hz]
      rw [← on_nil r] at ih ⊢
      cases ans i with
      | escape q env =>
        simp [Clk.bind_apply, start_on, end_on, off, queries_on, h1, h9]
      | surface q s =>
        simp only [Clk.bind_apply, startTwoStopOne, startStopOne, startOneStopThree, startThreeStopOne, stopThree]
        by_cases hu : s.u > min st.beta.maxValue 1
        · simp [start_on, end_on, off, queries_on, h1, h2, h3, h4, h5, h6, h7, h8, h9, hu, shaded, Clk.bind_apply]
        · by_cases hp : (sample s (shaded s st.closure)).pdf = 0
          · have hp' := hp
            unfold shaded at hp'
            simp [start_on, end_on, off, queries_on, h1, h2, h3, h4, h5, h6, h7, h8, h9, hu, hp, hp',
              shaded, Clk.bind_apply, sample_emission]
          · have hp' := hp
            unfold shaded at hp'
            simp [start_on, end_on, off, queries_on, h1, h2, h3, h4, h5, h6, h7, h8, h9, hu, hp, hp',
              shaded, Clk.bind_apply, sample_emission, nextState, ih]

/-- The timers of a call that uses only those of `liTimers`. -/
theorem whittedLi_eq (ans : ℕ → Answer K) (n : ℕ) : ∀ i : ℕ,
    whittedLi ans n i r = .ok (whittedPure ans n i, r) := by
  have h1 := idle_intersect hr
  have h2 := idle_rr hr
  have h3 := idle_nee hr
  have h4 := idle_eval hr
  have h5 := idle_shader hr
  have h6 := idle_surface hr
  have h7 := idle_surfaceEval hr
  have h8 := idle_surfaceSample hr
  have h9 := idle_embree hr
  rw [← on_nil r]
  induction n with
  | zero => intro i; rfl
  | succ n ih =>
    intro i
    rw [whittedLi, whittedPure]
    cases ans i with
    | escape q env =>
      simp [Clk.bind_apply, start_on, end_on, off, queries_on, h1, h9]
    | surface q s =>
      simp only [Clk.bind_apply, startTwoStopOne, startStopOne, startOneStopThree, stopTwo]
      cases hs : (accumulate (evaluate s Closure.fresh).2.1 (evaluate s Closure.fresh).1).isSpecular with
      | false =>
        simp [start_on, end_on, off, queries_on, h1, h2, h3, h4, h5, h6, h7, h8, h9, hs, Clk.bind_apply]
      | true =>
        by_cases hu : s.u > 19 / 20
        · simp [start_on, end_on, off, queries_on, h1, h2, h3, h4, h5, h6, h7, h8, h9, hs, hu, Clk.bind_apply]
        · by_cases hz : isZero ((sample s (accumulate (evaluate s Closure.fresh).2.1
            (evaluate s Closure.fresh).1)).albedo.smul (1 / (19 / 20))) = true
          · have hz' := hz
            simp only [one_div, inv_div] at hz'
            simp [start_on, end_on, off, queries_on, h1, h2, h3, h4, h5, h6, h7, h8, h9, hs, hu, hz, hz',
              Clk.bind_apply, sample_emission]
          · have hz' := hz
            simp only [one_div, inv_div] at hz'
            cases hv : whittedPure ans n (i + 1) with
            | none =>
              simp [start_on, end_on, off, queries_on, h1, h2, h3, h4, h5, h6, h7, h8, h9, hs, hu, hz, hz',
                Clk.bind_apply, sample_emission, ih, hv]
            | some v =>
              simp [start_on, end_on, off, queries_on, h1, h2, h3, h4, h5, h6, h7, h8, h9, hs, hu, hz, hz',
                Clk.bind_apply, sample_emission, ih, hv]

end timers

end Feign.Integrators
