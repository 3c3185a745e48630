import Verif.Pool.Sched
import Mathlib.Data.Nat.Notation

/-!
# Random number samplers (model)

Models `src/samplers/independent.cpp`, `sampler.cpp` and `include/feign/core/sampler.h`, and the way the
renderer uses a sampler: `src/scene.cpp:131-166`, `src/misc/render_pool.cpp:167-207`.

* The generator `pcg32` is an external submodule that is not part of the repository (`ext/pcg32` is empty);
  it is a parameter `Gen`: a state type, the state of a default-constructed generator, the state made by
  `pcg32(seed, stream)`, and the step of `nextFloat`.
* Members that no constructor sets (`sampleCnt`, `sampleSeed`, `currentSample`) are `none`; reading one is
  undefined behaviour.
* C++ leaves the order in which the arguments of `Vec2f(next1D(), next1D())` are evaluated to the compiler;
  the flag `rtl` chooses left-to-right or right-to-left.
-/

namespace Feign.Sampling

/-- The external generator `pcg32` (`include/feign/core/sampler.h:13`, `:91`). -/
structure Gen (F : Type) where
  State : Type
  /-- `pcg32()`. -/
  dflt : State
  /-- `pcg32(seed, stream)`. -/
  seeded : ℕ → ℕ → State
  /-- `nextFloat()`. -/
  next : State → F × State

variable {F : Type} (g : Gen F)

/-- An `Independent` sampler: the members of `Sampler` and `Independent`,
`include/feign/core/sampler.h:48-51`, `:90-91`. -/
structure Indep where
  sampleCnt : Option Int
  sampleSeed : Option ℕ
  currentSample : Option ℕ
  rng : g.State

namespace Indep

variable {g}

/-- `Independent::Independent()`, `src/samplers/independent.cpp:16`, `src/samplers/sampler.cpp:13`. -/
def new : Indep g := ⟨none, none, none, g.dflt⟩

/-- `Independent::Independent(seed, sample_cnt)`, `src/samplers/independent.cpp:18-22`,
`src/samplers/sampler.cpp:15-17`: the generator itself is default-constructed. -/
def make (seed : ℕ) (cnt : Int) : Indep g := ⟨some cnt, some seed, none, g.dflt⟩

/-- `Independent::reseed(seed)`, `src/samplers/independent.cpp:36-40`. -/
def reseed (seed : ℕ) (s : Indep g) : Indep g :=
  { s with sampleSeed := some seed, rng := g.seeded seed 1 }

/-- `Independent::reseed()`, `src/samplers/independent.cpp:31-34`. -/
def reseedOwn (s : Indep g) : Res (Indep g) :=
  match s.sampleSeed with
  | none => .ub "sampleSeed is not set"
  | some seed => .ok { s with rng := g.seeded seed 1 }

/-- `Independent::preProcess()`, `src/samplers/independent.cpp:24-29`. -/
def preProcess (s : Indep g) : Res (Indep g) :=
  match s.sampleSeed with
  | none => .ub "sampleSeed is not set"
  | some seed => .ok (reseed seed { s with currentSample := some 0 })

/-- `Independent::next1D()`, `src/samplers/independent.cpp:42-45`. -/
def next1D (s : Indep g) : F × Indep g :=
  ((g.next s.rng).1, { s with rng := (g.next s.rng).2 })

/-- `n` calls of `next1D` in the order they are evaluated. -/
def nextList : ℕ → Indep g → List F × Indep g
  | 0, s => ([], s)
  | n + 1, s =>
    let (x, s) := s.next1D
    let (xs, s) := nextList n s
    (x :: xs, s)

/-- `next2D`, `next3D`, `next4D`, `src/samplers/independent.cpp:47-60`: the coordinates of the vector, for
either evaluation order. -/
def nextVec (rtl : Bool) (n : ℕ) (s : Indep g) : List F × Indep g :=
  let (xs, s) := nextList n s
  (if rtl then xs.reverse else xs, s)

/-- `Independent::copy()`, `src/samplers/independent.cpp:63-69`. -/
def copy (s : Indep g) : Res (Indep g) :=
  match s.sampleSeed with
  | none => .ub "sampleSeed is not set"
  | some seed => .ok (reseed seed new)

/-- `Independent::copy(seed)`, `src/samplers/independent.cpp:71-77`. -/
def copySeeded (seed : ℕ) (s : Indep g) : Res (Indep g) :=
  match s.sampleCnt with
  | none => .ub "sampleCnt is not set"
  | some cnt => .ok (reseed seed (make seed cnt))

/-- `Independent::nextSample()`, `src/samplers/independent.cpp:79-82` (`uint32_t`). -/
def nextSample (s : Indep g) : Res (Indep g) :=
  match s.currentSample with
  | none => .ub "currentSample is not set"
  | some c => .ok { s with currentSample := some ((c + 1) % 2 ^ 32) }

/-- `Sampler::getSampleCnt()`, `src/samplers/sampler.cpp:19-22`: an `int` returned as `uint32_t`. -/
def getSampleCnt (s : Indep g) : Res ℕ :=
  match s.sampleCnt with
  | none => .ub "sampleCnt is not set"
  | some cnt => .ok (cnt % 2 ^ 32).toNat

end Indep

/-- The calls a user of a sampler can make on it. -/
inductive Call
  | next1D
  | nextVec (n : ℕ)
  | reseed (seed : ℕ)
  | reseedOwn
  | preProcess
  | nextSample
  deriving DecidableEq, Repr

variable {g}

/-- One call: the numbers it returns and the sampler afterwards. -/
def call (rtl : Bool) (c : Call) (s : Indep g) : Res (List F × Indep g) :=
  match c with
  | .next1D => .ok ([s.next1D.1], s.next1D.2)
  | .nextVec n => .ok (s.nextVec rtl n)
  | .reseed seed => .ok ([], s.reseed seed)
  | .reseedOwn => s.reseedOwn.bind fun s => .ok ([], s)
  | .preProcess => s.preProcess.bind fun s => .ok ([], s)
  | .nextSample => s.nextSample.bind fun s => .ok ([], s)

/-- A sequence of calls: the numbers each call returned and the sampler afterwards. -/
def calls (rtl : Bool) : List Call → Indep g → Res (List (List F) × Indep g)
  | [], s => .ok ([], s)
  | c :: cs, s => (call rtl c s).bind fun r => (calls rtl cs r.2).bind fun r' => .ok (r.1 :: r'.1, r'.2)

/-! ### Samplers inside a render -/

/-- The samplers handed to the first `n` tiles that are started,
`src/misc/render_pool.cpp:172`, `:197`: `sampler->copy(sampler->next1D() * 100000000)`. `toSeed` is the
product followed by the conversion to `uint32_t`. -/
def workers (toSeed : F → ℕ) : ℕ → Indep g → Res (List (Indep g) × Indep g)
  | 0, s => .ok ([], s)
  | n + 1, s =>
    let (x, s) := s.next1D
    (s.copySeeded (toSeed x)).bind fun w =>
      (workers toSeed n s).bind fun r => .ok (w :: r.1, r.2)

/-- The sampler the renderer draws from: `fr_sampler` makes it (`src/api/api.cpp:689-693`) and
`Scene::renderScene` passes it on unchanged (`src/scene.cpp:131`, `:151-162`). No code in the repository
calls its `preProcess` or `reseed`; `Integrator::preProcess` (`src/integrators/integrator.cpp:17-24`) and
the integrators' own versions only use the filter. -/
def sceneSampler (seed : ℕ) (cnt : Int) : Indep g := Indep.make seed cnt

/-- Which sampler each started tile gets when the pool runs `tiles` on `nThreads` threads with the given
timing, `src/misc/render_pool.cpp:144-225`: the `k`-th started tile gets the `k`-th copy. `none`: still
running. -/
def poolJobs {τ : Type} (toSeed : F → ℕ) (tiles : List τ) (nThreads : ℕ) (oracle : ℕ → ℕ → Bool)
    (fuel : ℕ) (s : Indep g) : Option (Res (List (τ × Indep g))) :=
  match Pool.evaluatePool tiles nThreads oracle fuel with
  | none => none
  | some (.throw m) => some (.throw m)
  | some (.ub w) => some (.ub w)
  | some (.ok (_, c)) =>
    some ((workers toSeed c.started.length s).bind fun r => .ok (c.started.zip r.1))

end Feign.Sampling
