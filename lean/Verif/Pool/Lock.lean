import Mathlib.Algebra.BigOperators.Fin
import Mathlib.Algebra.BigOperators.Group.Finset.Basic
import Mathlib.Logic.Relation
import Mathlib.Logic.Function.Basic

/-!
# Workers updating the shared frame buffer under per-pixel locks (model)

Models the innermost block of `RenderTile::evaluate`, `src/misc/render_pool.cpp:76-86`, executed by
several threads at once:

```
mutexes[index].lock();
(*image)(fj, fi, 0) += rad(0) * weight;      // read, then write
(*image)(fj, fi, 1) += rad(1) * weight;
(*image)(fj, fi, 2) += rad(2) * weight;
(*weights)[index] += weight;
mutexes[index].unlock();
```

Every memory access is a separate step, and any thread may run between two steps of another one.
A worker is reduced to the list of updates it performs, in its program order. Arithmetic is exact
(an additive commutative group); floating-point addition is not associative, so real images may differ
in the last bits between schedules.
-/

namespace Feign.Pool

variable {P : Type} {K : Type}

/-- One pass through the locked block: channels `0,1,2` of the image and channel `3`, the weight. -/
structure Upd (P K : Type) where
  pix : P
  amount : Fin 4 → K

/-- A thread inside the locked block: it is about to process channel `next` (`4` = about to unlock),
and `reg` is the value it has already read for that channel, if any. -/
structure Busy (P K : Type) where
  upd : Upd P K
  next : Nat
  reg : Option K

/-- A worker thread: the updates still to do, and where it is in the current one. -/
structure Worker (P K : Type) where
  rest : List (Upd P K)
  cur : Option (Busy P K)

/-- Shared memory: the accumulators, the mutexes (which worker holds each), and the workers. -/
structure Shared (P K : Type) (n : Nat) where
  mem : P → Fin 4 → K
  lock : P → Option (Fin n)
  worker : Fin n → Worker P K

variable [DecidableEq P] [Add K] {n : Nat}

/-- One step of one worker, `src/misc/render_pool.cpp:78-86`. `lock()` only succeeds on a free mutex. -/
inductive Step : Shared P K n → Shared P K n → Prop
  | acquire (s : Shared P K n) (t : Fin n) (u : Upd P K) (us : List (Upd P K))
      (hcur : s.worker t = ⟨u :: us, none⟩) (hfree : s.lock u.pix = none) :
      Step s { s with
        lock := Function.update s.lock u.pix (some t)
        worker := Function.update s.worker t ⟨us, some ⟨u, 0, none⟩⟩ }
  | read (s : Shared P K n) (t : Fin n) (us : List (Upd P K)) (u : Upd P K) (c : Fin 4)
      (hcur : s.worker t = ⟨us, some ⟨u, c, none⟩⟩) :
      Step s { s with worker := Function.update s.worker t ⟨us, some ⟨u, c, some (s.mem u.pix c)⟩⟩ }
  | write (s : Shared P K n) (t : Fin n) (us : List (Upd P K)) (u : Upd P K) (c : Fin 4) (r : K)
      (hcur : s.worker t = ⟨us, some ⟨u, c, some r⟩⟩) :
      Step s { s with
        mem := Function.update s.mem u.pix (Function.update (s.mem u.pix) c (r + u.amount c))
        worker := Function.update s.worker t ⟨us, some ⟨u, c + 1, none⟩⟩ }
  | release (s : Shared P K n) (t : Fin n) (us : List (Upd P K)) (u : Upd P K)
      (hcur : s.worker t = ⟨us, some ⟨u, 4, none⟩⟩) :
      Step s { s with
        lock := Function.update s.lock u.pix none
        worker := Function.update s.worker t ⟨us, none⟩ }

/-- The state before any worker has run. -/
def Shared.start (mem0 : P → Fin 4 → K) (progs : Fin n → List (Upd P K)) : Shared P K n :=
  { mem := mem0, lock := fun _ => none, worker := fun t => ⟨progs t, none⟩ }

/-- All workers have finished. -/
def Shared.Done (s : Shared P K n) : Prop := ∀ t, s.worker t = ⟨[], none⟩

/-- Specification: performing one update without interruption. -/
def applyUpd (mem : P → Fin 4 → K) (u : Upd P K) : P → Fin 4 → K :=
  fun p c => if p = u.pix then mem p c + u.amount c else mem p c

end Feign.Pool
