import Verif.Pool.SchedLemmas

/-!
# C02: every tile is rendered exactly once under any thread timing
-/

namespace Feign.Pool

variable {τ : Type}

/-- The property as listed: for every number of tiles and threads and every timing, the scheduler does
not run into undefined behaviour or an exception and, when it returns, has started every tile exactly
once and joined every started thread exactly once. -/
def SchedulerCorrect (tiles : List τ) (nThreads : Nat) : Prop :=
  ∀ oracle fuel,
    evaluatePool tiles nThreads oracle fuel = none ∨
    ∃ slots c, evaluatePool tiles nThreads oracle fuel = some (.ok (slots, c)) ∧
      c.started.Perm tiles ∧ c.joined.Perm tiles ∧ ∀ s ∈ slots, s.joinable = false

/-- **C02 (partial: at most as many threads as tiles).** For every timing of the workers the scheduler
neither misbehaves nor throws; when it returns, every tile was handed to exactly one worker, every
worker was joined exactly once, and none is left running. Moreover the order in which tiles are handed
out is always the reverse of the tile list, so the seed each tile receives does not depend on timing.

Missing for the full property: more threads than tiles, where the code misbehaves
(`scheduler_more_threads_than_tiles_ub`). -/
theorem scheduler_every_tile_once_partial (tiles : List τ) (nThreads : Nat)
    (h : nThreads ≤ tiles.length) :
    SchedulerCorrect tiles nThreads ∧
    ∀ oracle fuel slots c, evaluatePool tiles nThreads oracle fuel = some (.ok (slots, c)) →
      c.started = tiles.reverse ∧ slots.length = nThreads := by
  have hi0 : Inv tiles [] ({ todo := tiles, started := [], joined := [] } : Core τ) :=
    ⟨by simp, by simp⟩
  obtain ⟨slots0, c0, e0, l0, j0, i0, t0, -⟩ := (launch_spec tiles nThreads _ [] hi0).1 h
  have all : ∀ oracle fuel, evaluatePool tiles nThreads oracle fuel = none ∨
      ∃ slots c, evaluatePool tiles nThreads oracle fuel = some (.ok (slots, c)) ∧
        c.started = tiles.reverse ∧ slots.length = nThreads ∧ c.joined.Perm c.started ∧
        ∀ s ∈ slots, s.joinable = false := by
    intro oracle fuel
    unfold evaluatePool
    rw [e0]
    rcases pollLoop_safe tiles oracle fuel 0 slots0 c0 (fun _ => j0) (by simpa using i0) with
      hn | ⟨s1, c1, e1, t1, l1, i1⟩
    · left; simp only [hn]
    · right
      simp only [e1]
      obtain ⟨f1, f2, f3, f4, f5⟩ := finalJoin_spec s1 c1
      refine ⟨_, _, rfl, ?_, by omega, ?_, f4⟩
      · rw [f2]
        have := i1.order
        simpa [t1] using this
      · rw [f1, f2]; exact i1.perm
  refine ⟨?_, ?_⟩
  · intro oracle fuel
    rcases all oracle fuel with hn | ⟨s, c, e, hs, hl, hp, hf⟩
    · exact Or.inl hn
    · refine Or.inr ⟨s, c, e, ?_, ?_, hf⟩
      · rw [hs]; exact List.reverse_perm tiles
      · exact hp.trans (by rw [hs]; exact List.reverse_perm tiles)
  · intro oracle fuel slots c e
    rcases all oracle fuel with hn | ⟨s, c', e', hs, hl, -, -⟩
    · rw [hn] at e; cases e
    · rw [e'] at e
      simp only [Option.some.injEq, Res.ok.injEq, Prod.mk.injEq] at e
      obtain ⟨rfl, rfl⟩ := e
      exact ⟨hs, hl⟩

/-- **C02, termination.** If, whenever the main thread is still polling, some worker is eventually seen
as finished, then the scheduler returns. -/
theorem scheduler_terminates_partial (tiles : List τ) (nThreads : Nat) (h : nThreads ≤ tiles.length)
    (oracle : Nat → Nat → Bool)
    (fair : ∀ k, ∃ k', k ≤ k' ∧ ∃ i, i < nThreads ∧ oracle k' i = true) :
    ∃ fuel slots c, evaluatePool tiles nThreads oracle fuel = some (.ok (slots, c)) := by
  have hi0 : Inv tiles [] ({ todo := tiles, started := [], joined := [] } : Core τ) :=
    ⟨by simp, by simp⟩
  obtain ⟨slots0, c0, e0, l0, j0, i0, t0, -⟩ := (launch_spec tiles nThreads _ [] hi0).1 h
  obtain ⟨fuel, r, hr⟩ := pollLoop_terminates tiles oracle nThreads fair c0.todo.length 0 slots0 c0
    (Nat.le_refl _) l0 (fun _ => j0) (by simpa using i0)
  rcases (scheduler_every_tile_once_partial tiles nThreads h).1 oracle fuel with hn | ⟨s, c, e, -⟩
  · unfold evaluatePool at hn
    rw [e0] at hn
    rcases pollLoop_safe tiles oracle fuel 0 slots0 c0 (fun _ => j0) (by simpa using i0) with
      hn' | ⟨s1, c1, e1, -⟩
    · rw [hn'] at hr; cases hr
    · simp [e1] at hn
  · exact ⟨fuel, s, c, e⟩

/-- With more threads than tiles the first loop reads the back of an empty vector
(`src/misc/render_pool.cpp:169`), whatever the timing. -/
theorem scheduler_more_threads_than_tiles_ub (tiles : List τ) (nThreads : Nat)
    (h : tiles.length < nThreads) (oracle : Nat → Nat → Bool) (fuel : Nat) :
    evaluatePool tiles nThreads oracle fuel = some (.ub "tiles_to_do is empty") := by
  have hi0 : Inv tiles [] ({ todo := tiles, started := [], joined := [] } : Core τ) :=
    ⟨by simp, by simp⟩
  unfold evaluatePool
  rw [(launch_spec tiles nThreads _ [] hi0).2 h]

/-- The listed property is false of the code: `render_fast` uses 12 threads and 64-pixel tiles
(`src/integrators/integrator.cpp:33`, `include/feign/common.h` `NTHREADS`), so e.g. a 4-tile image
misbehaves. -/
theorem scheduler_correct_refuted : ¬ SchedulerCorrect (τ := Nat) [0, 1, 2, 3] 12 := by
  intro h
  rcases h (fun _ _ => true) 1 with h | ⟨s, c, h, -⟩ <;>
    rw [scheduler_more_threads_than_tiles_ub _ _ (by decide)] at h <;> cases h

/-- The property holds exactly when there are at most as many threads as tiles. -/
theorem scheduler_correct_iff (tiles : List τ) (nThreads : Nat) :
    SchedulerCorrect tiles nThreads ↔ nThreads ≤ tiles.length := by
  refine ⟨fun h => ?_, fun h => (scheduler_every_tile_once_partial tiles nThreads h).1⟩
  apply Classical.byContradiction
  intro hc
  have hc : tiles.length < nThreads := by omega
  rcases h (fun _ _ => true) 1 with h | ⟨s, c, h, -⟩ <;>
    rw [scheduler_more_threads_than_tiles_ub _ _ hc] at h <;> cases h

/-- A pool of zero threads with work to do polls forever. -/
theorem scheduler_zero_threads_diverges (tiles : List τ) (h : tiles ≠ [])
    (oracle : Nat → Nat → Bool) (fuel : Nat) : evaluatePool tiles 0 oracle fuel = none := by
  have key : ∀ fuel k (c : Core τ), c.todo ≠ [] → pollLoop oracle fuel k [] c = none := by
    intro fuel
    induction fuel with
    | zero => intros; rfl
    | succ n ih => intro k c hc; simp [pollLoop, hc, sweep, ih _ _ hc]
  simp [evaluatePool, launch, key fuel 0 { todo := tiles, started := [], joined := [] } h]

/-- Non-vacuity: five tiles on two threads; thread 1 finishes first, then both finish in the same sweep
when only one tile is left: thread 1 is joined without getting new work, and its second join in the
last loop is swallowed. -/
example : evaluatePool [10, 11, 12, 13, 14] 2
    (fun k i => decide (i = 1 ∧ k < 2) || decide (k = 2)) 9 =
    some (.ok ([⟨10, false⟩, ⟨11, false⟩], ⟨[], [14, 13, 12, 11, 10], [13, 12, 14, 11, 10]⟩)) := by
  decide

end Feign.Pool
