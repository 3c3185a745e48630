import Verif.Math.VecReal

/-!
# Waves (model)

`SquareWave` and `TriangleWave`, `include/feign/math/functor.h:24-88`. Arithmetic is exact. `start_time` and `end_time` are
stored and not read.
-/

namespace Feign

/-- The members of both, `functor.h:49-54, 82-87`. -/
structure Wave where
  start : V3 ℝ
  freq : V3 ℝ
  amp : ℝ
  wavelength : ℝ
  startTime : ℝ
  endTime : ℝ

namespace Wave

/-- `cur_dist`, `functor.h:41, 74`. -/
noncomputable def front (w : Wave) (time : ℝ) : ℝ := (w.start + w.freq.smul time).norm

/-- `dist`, `functor.h:42, 75`. -/
noncomputable def away (w : Wave) (p : V3 ℝ) : ℝ := (p - w.start).norm

/-- `SquareWave::evaluate`, `functor.h:39-47`. -/
noncomputable def square (w : Wave) (p : V3 ℝ) (time : ℝ) : ℝ :=
  if |w.away p - w.front time| < w.wavelength then w.amp else 0

/-- `TriangleWave::evaluate`, `functor.h:72-80`; `none` is a division by zero. -/
noncomputable def triangle (w : Wave) (p : V3 ℝ) (time : ℝ) : Option ℝ :=
  if w.wavelength = 0 then none
  else some (min ((1 - |w.away p - w.front time| / w.wavelength) * w.amp) 0)

end Wave
end Feign
