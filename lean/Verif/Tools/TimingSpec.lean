import Verif.Tools.Timing
import Mathlib.MeasureTheory.Measure.Lebesgue.Basic

/-!
# Measured times (specification)

When a timer runs, in terms of the calls and the clock only.
-/

namespace Feign.Tools

open Feign.Integrators (Timer)

/-- The clock does not go back. -/
def Ordered {K : Type} [Field K] [LinearOrder K] (h : List (Ev K)) : Prop := h.Pairwise fun a b => a.now ≤ b.now

/-- The last call of timer `t` up to the instant `x`. -/
noncomputable def lastCall (h : List (Ev ℝ)) (t : Timer) (x : ℝ) : Option (Ev ℝ) :=
  (h.filter fun e => e.timer = t ∧ e.now ≤ x).getLast?

/-- The instants at which timer `t` runs: its last call was a start. -/
def busy (h : List (Ev ℝ)) (t : Timer) : Set ℝ := {x | ∃ e, lastCall h t x = some e ∧ e.isStart = true}

/-- The calls of every timer are start, stop, start, stop, and so on. -/
def Alternating {K : Type} [Field K] [LinearOrder K] (h : List (Ev K)) : Prop :=
  ∀ t, ∀ (i : ℕ) (hi : i < (h.filter fun e => e.timer = t).length),
    ((h.filter fun e => e.timer = t)[i]).isStart = (i % 2 == 0)

/-- Calls of the interface while the file is read, without the render request. -/
def Job.callTime {K : Type} [Field K] [LinearOrder K] (j : Job K) : K := (j.calls.map fun q => q.2 - q.1).sum

/-- Timers used inside the render loop are not those of the three stages of a job. -/
def Job.Inside {K : Type} [Field K] [LinearOrder K] (j : Job K) : Prop :=
  ∀ e ∈ j.inner, e.timer ≠ .sceneParse ∧ e.timer ≠ .api ∧ e.timer ≠ .rendering

end Feign.Tools
