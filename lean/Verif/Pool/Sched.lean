import Verif.Basic

/-!
# Handing tiles to worker threads (model)

Models the scheduling part of `RenderPool::evaluate_pool`, `src/misc/render_pool.cpp:144-225`.

* What a worker does with its tile is not modelled here (see `Verif/Pool/Lock.lean`); here a worker is
  something that can be joined once.
* The `done` flags the main thread sees when it polls (`:188`) are an arbitrary oracle
  `sweep number → thread index → Bool`; every timing of the workers yields some oracle, so a theorem
  for all oracles covers all timings. (`done` is a plain `bool` written by the worker and read by the
  main thread: formally a data race. The model does not exhibit miscompilation of that race.)
* `std::thread::join` on a thread that is not joinable throws `std::system_error`. It is uncaught at
  `:190` and swallowed at `:218`.
* `tiles_to_do[tiles_to_do.size() - 1]` on an empty vector is undefined behaviour (`:169`).
-/

namespace Feign.Pool

variable {τ : Type}

/-- One entry of `threads` together with the same entry of `active_tiles`
(`include/feign/misc/render_pool.h:72-74`). -/
structure Slot (τ : Type) where
  tile : τ
  joinable : Bool
  deriving DecidableEq, Repr

/-- The rest of the scheduler state, with a log of its observable effects. -/
structure Core (τ : Type) where
  /-- `tiles_to_do`; the back of the C++ vector is the last element. -/
  todo : List τ
  /-- log: tiles handed to a new thread, oldest first. The `k`-th entry is run with the sampler seeded
  by the `k`-th number drawn at `:172`/`:197`. -/
  started : List τ
  /-- log: tiles whose thread was joined, oldest first. -/
  joined : List τ
  deriving DecidableEq, Repr

/-- `v[v.size() - 1]; v.pop_back();` with `none` for an empty vector. -/
def popBack (l : List τ) : Option (List τ × τ) :=
  match l.getLast? with
  | none => none
  | some t => some (l.dropLast, t)

/-- The first loop, `src/misc/render_pool.cpp:167-182`, for `n` threads. -/
def launch : Nat → Core τ → Res (List (Slot τ) × Core τ)
  | 0, c => .ok ([], c)
  | n + 1, c =>
    match popBack c.todo with
    | none => .ub "tiles_to_do is empty"
    | some (rest, t) => do
      let (slots, c') ← launch n { c with todo := rest, started := c.started ++ [t] }
      .ok ({ tile := t, joinable := true } :: slots, c')

/-- Body of the polling loop for one thread, `src/misc/render_pool.cpp:188-208`. -/
def pollSlot (flag : Bool) (s : Slot τ) (c : Core τ) : Res (Slot τ × Core τ) :=
  if flag then
    if s.joinable then
      let c := { c with joined := c.joined ++ [s.tile] }
      match popBack c.todo with
      | none => .ok ({ s with joinable := false }, c)
      | some (rest, t) =>
        .ok ({ tile := t, joinable := true },
             { c with todo := rest, started := c.started ++ [t] })
    else .throw "std::system_error: join"
  else .ok (s, c)

/-- `for (int i = 0; i < active_tiles.size(); ++i)`, `src/misc/render_pool.cpp:186-209`. -/
def sweep (flags : Nat → Bool) : Nat → List (Slot τ) → Core τ → Res (List (Slot τ) × Core τ)
  | _, [], c => .ok ([], c)
  | i, s :: ss, c => do
    let (s', c') ← pollSlot (flags i) s c
    let (ss', c'') ← sweep flags (i + 1) ss c'
    .ok (s' :: ss', c'')

/-- `while (tiles_to_do.size())`, `src/misc/render_pool.cpp:184-210`, for at most `fuel` sweeps;
`k` counts the sweeps done so far. `none`: still polling. -/
def pollLoop (oracle : Nat → Nat → Bool) :
    (fuel : Nat) → Nat → List (Slot τ) → Core τ → Option (Res (List (Slot τ) × Core τ))
  | 0, _, _, _ => none
  | fuel + 1, k, slots, c =>
    if c.todo = [] then some (.ok (slots, c))
    else
      match sweep (oracle k) 0 slots c with
      | .ok (slots', c') => pollLoop oracle fuel (k + 1) slots' c'
      | .throw m => some (.throw m)
      | .ub w => some (.ub w)

/-- The last loop, `src/misc/render_pool.cpp:212-225`: a failing join is caught and ignored. -/
def finalJoin : List (Slot τ) → Core τ → List (Slot τ) × Core τ
  | [], c => ([], c)
  | s :: ss, c =>
    let c' := if s.joinable then { c with joined := c.joined ++ [s.tile] } else c
    let (ss', c'') := finalJoin ss c'
    ({ s with joinable := false } :: ss', c'')

/-- Scheduling part of `RenderPool::evaluate_pool`, `src/misc/render_pool.cpp:150-225`, with
`nThreads` threads. `none`: the polling loop is still running after `fuel` sweeps. -/
def evaluatePool (tiles : List τ) (nThreads : Nat) (oracle : Nat → Nat → Bool) (fuel : Nat) :
    Option (Res (List (Slot τ) × Core τ)) :=
  match launch nThreads { todo := tiles, started := [], joined := [] } with
  | .throw m => some (.throw m)
  | .ub w => some (.ub w)
  | .ok (slots, c) =>
    match pollLoop oracle fuel 0 slots c with
    | none => none
    | some (.throw m) => some (.throw m)
    | some (.ub w) => some (.ub w)
    | some (.ok (slots, c)) => some (.ok (finalJoin slots c))

end Feign.Pool
