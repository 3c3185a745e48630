import Verif.Integrators.Clock
import Verif.Tools.Record
import Mathlib.Algebra.Order.Field.Basic

/-!
# Measured times and the timing report (model)

`src/stats/clocker.cpp:217-276` with the measured durations, which `Verif/Integrators/Clock.lean` leaves out, the timers
of one job (`src/parsers/json_parser.cpp:24-76`, `:1233-1235`, `src/api/api.cpp`), and the report printed at its end
(`clocker.cpp:50-86`, `:140-197`).

* A call of a timer comes with the reading of `Clock::now()` in seconds. Readings are elements of an ordered field.
* `fl` rounds the sums to `float` (`Duration` is `std::chrono::duration<Float>`, `include/feign/stats/clocker.h:129`).
  The conversion of one difference to `float` is not rounded.
* One thread (`GOTTAGOFAST` is `false`, `include/feign/common.h`).
-/

namespace Feign.Tools

open Feign.Integrators (Timer)

variable {K : Type} [Field K] [LinearOrder K]

/-- A call of a timer and the reading of the clock. -/
inductive Ev (K : Type) where
  | start (t : Timer) (now : K)
  | stop (t : Timer) (now : K)
  deriving DecidableEq, Repr

/-- The reading of the clock. -/
def Ev.now : Ev K → K
  | .start _ a => a
  | .stop _ a => a

/-- The timer called. -/
def Ev.timer : Ev K → Timer
  | .start t _ => t
  | .stop t _ => t

/-- Is it a start? -/
def Ev.isStart : Ev K → Bool
  | .start _ _ => true
  | .stop _ _ => false

/-- `Clocker`, `include/feign/stats/clocker.h:160-180`: `clockings.times`, `start_times` and `actives`. -/
structure Clocker (K : Type) where
  times : Timer → K
  starts : Timer → K
  active : Timer → Bool

/-- `Clocker::Clocker`, `clocker.cpp:219-224`. -/
def Clocker.init : Clocker K := ⟨fun _ => 0, fun _ => 0, fun _ => false⟩

/-- `Clocker::start_clock`, `clocker.cpp:243-252`. -/
def Clocker.start (c : Clocker K) (t : Timer) (now : K) : Res (Clocker K) :=
  if c.active t then .throw "already active"
  else .ok { c with active := Function.update c.active t true, starts := Function.update c.starts t now }

/-- `Clocker::end_clock`, `clocker.cpp:254-263`. -/
def Clocker.stop (fl : K → K) (c : Clocker K) (t : Timer) (now : K) : Res (Clocker K) :=
  if c.active t then
    .ok { c with
      active := Function.update c.active t false
      times := Function.update c.times t (fl (c.times t + (now - c.starts t))) }
  else .throw "not active"

/-- One call. -/
def Clocker.step (fl : K → K) (c : Clocker K) : Ev K → Res (Clocker K)
  | .start t now => c.start t now
  | .stop t now => c.stop fl t now

/-- Calls one after another; an exception ends the program. -/
def Clocker.run (fl : K → K) (c : Clocker K) : List (Ev K) → Res (Clocker K)
  | [] => .ok c
  | e :: es => do
    let c' ← c.step fl e
    c'.run fl es

/-- The total, `clocker.cpp:152-161` (and `:130-134` for the record). -/
def Clocker.total (fl : K → K) (c : Clocker K) : K :=
  fl (fl (c.times .sceneParse + c.times .rendering) + c.times .api)

/-- The clock readings of one job, `JsonParser::parse_and_run`: parsing starts (`json_parser.cpp:39` or `:65`), each
entry of the file makes a call of the interface, which starts and stops its timer (e.g. `api.cpp:513`, `:547`), parsing
stops (`json_parser.cpp:1233`), the render request starts the timer of the interface (`api.cpp:1506`), stops it and
starts that of rendering (`:1566`, stop first, `clocker.h:64-66`), and rendering stops (`:1575`). `inner` are the calls
of timers while rendering. -/
structure Job (K : Type) where
  opened : K
  calls : List (K × K)
  parsed : K
  flushed : K
  prepared : K
  rendering : K
  inner : List (Ev K)
  done : K

/-- The calls of timers of a job, in order. -/
def Job.events (j : Job K) : List (Ev K) :=
  .start .sceneParse j.opened :: j.calls.flatMap (fun q => [.start .api q.1, .stop .api q.2]) ++
    [.stop .sceneParse j.parsed, .start .api j.flushed, .stop .api j.prepared, .start .rendering j.rendering] ++
    j.inner ++ [.stop .rendering j.done]

/-- `Clocker::return_results`, `clocker.cpp:272-276`, called at the end of the render request (`api.cpp:1577`): what the
caller's record holds afterwards; `none` is the null pointer. -/
def Clocker.returnResults (c : Clocker K) (out : Option (Timer → K)) : Option (Timer → K) := out.map fun _ => c.times

/-- What the record that the caller passed to `parse_and_run` holds when the job is done. The variant that renders into
an image passes the record on (`json_parser.cpp:50`), the one that writes files does not (`:75`; the parameter of
`actually_parse` then has its default, the null pointer, `include/feign/parsers/json_parser.h:39`). -/
def Clocker.callerRecord (c : Clocker K) (intoImage : Bool) (out : Option (Timer → K)) : Option (Timer → K) :=
  if intoImage then c.returnResults out
  else match c.returnResults none with
    | none => out
    | some t => some t

/-- The calls of timers for one sample of the render loop, `src/integrators/integrator.cpp:54-103`: the camera ray, the
radiance with the timers used inside it, the filter. The macros stop one timer before they start the next
(`clocker.h:64-66`). -/
structure Frame (K : Type) where
  camera : K × K
  radiance : K × K
  inner : List (Ev K)
  filter : K × K

def Frame.events (f : Frame K) : List (Ev K) :=
  [.start .cameraRay f.camera.1, .stop .cameraRay f.camera.2, .start .integrator f.radiance.1] ++ f.inner ++
    [.stop .integrator f.radiance.2, .start .filter f.filter.1, .stop .filter f.filter.2]

/-- `Integrator::render`, `src/integrators/integrator.cpp:48-129`: all samples, then the normalisation, timed as part of
the filter. -/
def renderEvents (frames : List (Frame K)) (normalise : K × K) : List (Ev K) :=
  frames.flatMap Frame.events ++ [.start .filter normalise.1, .stop .filter normalise.2]

/-- The timers in the order of `ClockerType`, `include/feign/stats/clocker.h:16-47`, which is the order of the report
(`clocker.cpp:60-83`), with `ClockerResults::to_name` (`clocker.cpp:163-197`). -/
def timerNames : List (Timer × String) :=
  [(.api, "api"), (.rendering, "rendering"), (.cameraRay, "camera_ray_sampling"), (.sceneParse, "scene_parsing"),
   (.integrator, "integrator"), (.intersect, "integrator_intersect"), (.preprocess, "integrator_preprocess"),
   (.rr, "integrator_rr"), (.nee, "integrator_nee"), (.eval, "integrator_eval"), (.shader, "shader"),
   (.surface, "surface_shader"), (.surfaceEval, "surface_shader_eval"), (.surfaceSample, "surface_shader_sampling"),
   (.surfacePreprocess, "surface_shader_preprocess"), (.media, "media_shader"), (.mediaEval, "media_shader_eval"),
   (.mediaSample, "media_shader_sampling"), (.mediaPreprocess, "media_shader_preprocess"), (.filter, "filter"),
   (.embree, "embree_total"), (.debugOne, "debug_one"), (.debugTwo, "debug_two"), (.debugThree, "debug_three")]

/-- The width of the column of numbers, `clocker.cpp:52-58`: the loop ends before the last timer. -/
def padding (text : Timer → List Char) : ℕ :=
  (timerNames.dropLast.map fun p => (text p.1).length).foldl max 0

/-- The number, followed by blanks (none if it is too long), `clocker.cpp:142-147`. -/
def padded (width : ℕ) (s : List Char) : List Char := s ++ List.replicate (width - s.length) ' '

/-- The lines of the report up to the total, `ClockerResults::print_results` and `print`, `clocker.cpp:50-83`,
`:140-150`. `text` is `std::to_string` of the time of a timer. -/
def report (text : Timer → List Char) : List (List Char) :=
  timerNames.map fun p => padded (padding text) (text p.1) ++ " seconds - ".toList ++ p.2.toList

end Feign.Tools
