import Verif.Basic
import Mathlib.Logic.Function.Basic
import Mathlib.Data.Nat.Notation

/-!
# Timers

`src/stats/clocker.cpp` keeps one flag per timer and throws when a running timer is started or a stopped one is
stopped. A modelled call that uses timers is a function from the running timers to an outcome.
`CLOCKING` is `true` in `include/feign/common.h:29`. Measured durations are not modelled, only the flags.
-/

namespace Feign.Integrators

/-- `ClockerType`, `include/feign/stats/clocker.h:16-47`. -/
inductive Timer where
  | api | rendering | cameraRay | sceneParse | integrator | intersect | preprocess | rr | nee | eval
  | shader | surface | surfaceEval | surfaceSample | surfacePreprocess
  | media | mediaEval | mediaSample | mediaPreprocess | filter | embree | debugOne | debugTwo | debugThree
  deriving DecidableEq, Repr

/-- `Clocker::actives`, `clocker.cpp:223`. -/
abbrev Running := Timer → Bool

/-- A call that may use timers. -/
def Clk (α : Type) := Running → Res (α × Running)

namespace Clk
variable {α β : Type}

def pure (a : α) : Clk α := fun r => .ok (a, r)

/-- Sequencing; an exception ends the call. -/
def bind (c : Clk α) (f : α → Clk β) : Clk β := fun r =>
  match c r with
  | .ok (a, r') => f a r'
  | .throw m => .throw m
  | .ub w => .ub w

instance : Monad Clk where
  pure := Clk.pure
  bind := Clk.bind

@[simp] theorem pure_apply (a : α) (r : Running) : (Pure.pure a : Clk α) r = .ok (a, r) := rfl

theorem bind_apply (c : Clk α) (f : α → Clk β) (r : Running) :
    (c >>= f) r = match c r with
      | .ok (a, r') => f a r'
      | .throw m => .throw m
      | .ub w => .ub w := rfl

theorem bind_of_ok {c : Clk α} {f : α → Clk β} {r r' : Running} {a : α} (h : c r = .ok (a, r')) :
    (c >>= f) r = f a r' := by
  rw [bind_apply, h]

end Clk

/-- `Clocker::start_clock`, `clocker.cpp:243-252`. -/
def startClock (t : Timer) : Clk Unit := fun r =>
  if r t then .throw "already active" else .ok ((), Function.update r t true)

/-- `Clocker::end_clock`, `clocker.cpp:254-263`. -/
def endClock (t : Timer) : Clk Unit := fun r =>
  if r t then .ok ((), Function.update r t false) else .throw "not active"

/-- `CLOCKER_STOP_TWO`, `clocker.h:55-57`. -/
def stopTwo (a b : Timer) : Clk Unit := do endClock a; endClock b
/-- `CLOCKER_STOP_THREE`, `clocker.h:59-62`. -/
def stopThree (a b c : Timer) : Clk Unit := do endClock a; endClock b; endClock c
/-- `CLOCKER_START_STOP_ONE`, `clocker.h:64-66`: the stop comes first. -/
def startStopOne (start stop : Timer) : Clk Unit := do endClock stop; startClock start
/-- `CLOCKER_START_TWO_STOP_ONE`, `clocker.h:82-85`. -/
def startTwoStopOne (a b stop : Timer) : Clk Unit := do endClock stop; startClock a; startClock b
/-- `CLOCKER_START_ONE_STOP_THREE`, `clocker.h:92-96`. -/
def startOneStopThree (start a b c : Timer) : Clk Unit := do
  endClock a; endClock b; endClock c; startClock start
/-- `CLOCKER_START_THREE_STOP_ONE`, `clocker.h:98-102`. -/
def startThreeStopOne (a b c stop : Timer) : Clk Unit := do
  endClock stop; startClock a; startClock b; startClock c

/-- `n` ray queries answered by Embree, each timed on its own, `src/accel/ray_embree.cpp:56-101`. The other
accelerators use no timer (`n = 0`). -/
def embreeQueries : ℕ → Clk Unit
  | 0 => Clk.pure ()
  | n + 1 => do
    startClock .embree
    endClock .embree
    embreeQueries n

/-- The timers used while the radiance along a ray is computed. -/
def liTimers : List Timer :=
  [.intersect, .rr, .nee, .eval, .shader, .surface, .surfaceEval, .surfaceSample, .embree]

/-- The timers of `liTimers` are all stopped. -/
def Idle (r : Running) : Prop := ∀ t ∈ liTimers, r t = false

end Feign.Integrators
