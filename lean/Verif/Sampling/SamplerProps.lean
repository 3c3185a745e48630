import Verif.Sampling.Sampler
import Verif.Pool.SchedProps
import Verif.Pool.LockProps

/-!
# C50, C76: random streams and seeds
-/

set_option linter.unusedSectionVars false

namespace Feign.Sampling

variable {F : Type} {g : Gen F} {A τ : Type}

/-! ### Specification -/

/-- The first `n` numbers of the stream that starts in generator state `st`. -/
def stream (g : Gen F) : ℕ → g.State → List F
  | 0, _ => []
  | n + 1, st => (g.next st).1 :: stream g n (g.next st).2

/-- A computation that uses a sampler: it may ask for vectors of random numbers and for the sample count,
and what it does next may depend on the answers. `Integrator::render`, the tiles of the pool and every
`Li` have this form. -/
inductive Prog (F A : Type)
  | ret (a : A)
  | draw (n : ℕ) (k : List F → Prog F A)
  | count (k : ℕ → Prog F A)

/-- Run a computation on a sampler. -/
def Prog.run (rtl : Bool) : Prog F A → Indep g → Res A
  | .ret a, _ => .ok a
  | .draw n k, s => (k (s.nextVec rtl n).1).run rtl (s.nextVec rtl n).2
  | .count k, s => s.getSampleCnt.bind fun c => (k c).run rtl s

/-- The same computation with its random numbers taken from the stream that starts in `st` and the sample
count `cnt`: no sampler involved. -/
def Prog.runOn (g : Gen F) (rtl : Bool) (cnt : ℕ) : Prog F A → g.State → A
  | .ret a, _ => a
  | .draw n k, st =>
    (k (if rtl then (stream g n st).reverse else stream g n st)).runOn g rtl cnt
      (n.repeat (fun st => (g.next st).2) st)
  | .count k, st => (k cnt).runOn g rtl cnt st

/-! ### Helpers -/

private theorem repeat_succ {α : Type} (f : α → α) (n : ℕ) (a : α) :
    (n + 1).repeat f a = n.repeat f (f a) := by
  induction n with
  | zero => rfl
  | succ n ih => show f ((n + 1).repeat f a) = f (n.repeat f (f a)); rw [ih]

theorem nextList_eq (n : ℕ) (s : Indep g) :
    s.nextList n = (stream g n s.rng, { s with rng := n.repeat (fun st => (g.next st).2) s.rng }) := by
  induction n generalizing s with
  | zero => rfl
  | succ n ih =>
    simp only [Indep.nextList, Indep.next1D, ih, stream, repeat_succ]

theorem nextVec_eq (rtl : Bool) (n : ℕ) (s : Indep g) :
    s.nextVec rtl n = (if rtl then (stream g n s.rng).reverse else stream g n s.rng,
      { s with rng := n.repeat (fun st => (g.next st).2) s.rng }) := by
  simp only [Indep.nextVec, nextList_eq]

theorem run_eq_runOn (rtl : Bool) (p : Prog F A) (s : Indep g) (cnt : ℕ)
    (h : s.getSampleCnt = .ok cnt) : p.run rtl s = .ok (p.runOn g rtl cnt s.rng) := by
  induction p generalizing s with
  | ret a => rfl
  | draw n k ih =>
    rw [Prog.run, nextVec_eq, Prog.runOn]
    exact ih _ _ h
  | count k ih =>
    rw [Prog.run, h, Prog.runOn]
    exact ih _ _ h

theorem workers_eq (toSeed : F → ℕ) (n : ℕ) (s : Indep g) (cnt : Int) (h : s.sampleCnt = some cnt) :
    workers toSeed n s = .ok
      ((stream g n s.rng).map (fun x => Indep.reseed (toSeed x) (Indep.make (toSeed x) cnt)),
        { s with rng := n.repeat (fun st => (g.next st).2) s.rng }) := by
  induction n generalizing s with
  | zero => rfl
  | succ n ih =>
    have h1 : s.next1D.2.copySeeded (toSeed s.next1D.1) =
        .ok (Indep.reseed (toSeed s.next1D.1) (Indep.make (toSeed s.next1D.1) cnt)) := by
      simp only [Indep.copySeeded, Indep.next1D, h]
    have h2 := ih s.next1D.2 h
    show (s.next1D.2.copySeeded (toSeed s.next1D.1)).bind _ = _
    rw [h1]
    show (workers toSeed n s.next1D.2).bind _ = _
    rw [h2]
    simp only [Res.bind, stream, List.map_cons, repeat_succ, Indep.next1D]

/-! ### C50 -/

/-- **C50.** Reseeding without an argument starts the stream of the stored seed again: after any reseeding and any
draws it leads back to the state right after the reseeding. -/
theorem reseed_own_restarts (rtl : Bool) (seed : ℕ) (ns : List ℕ) (s : Indep g) :
    ∃ out s', calls rtl (ns.map .nextVec) (s.reseed seed) = .ok (out, s') ∧ s'.reseedOwn = .ok (s.reseed seed) := by
  have hlist : ∀ n (t : Indep g), (t.nextList n).2.sampleSeed = t.sampleSeed ∧
      (t.nextList n).2.sampleCnt = t.sampleCnt ∧ (t.nextList n).2.currentSample = t.currentSample := by
    intro n
    induction n with
    | zero => intro t; exact ⟨rfl, rfl, rfl⟩
    | succ n ih => intro t; exact ih t.next1D.2
  have key : ∀ (ns : List ℕ) (t : Indep g), ∃ out t', calls rtl (ns.map .nextVec) t = .ok (out, t') ∧
      t'.sampleSeed = t.sampleSeed ∧ t'.sampleCnt = t.sampleCnt ∧ t'.currentSample = t.currentSample := by
    intro ns
    induction ns with
    | nil => intro t; exact ⟨[], t, rfl, rfl, rfl, rfl⟩
    | cons n ns ih =>
      intro t
      obtain ⟨out, t', h, h1, h2, h3⟩ := ih (t.nextVec rtl n).2
      obtain ⟨g1, g2, g3⟩ := hlist n t
      refine ⟨(t.nextVec rtl n).1 :: out, t', ?_, h1.trans g1, h2.trans g2, h3.trans g3⟩
      rw [List.map_cons, calls]
      show ((calls rtl (ns.map .nextVec) (t.nextVec rtl n).2).bind _) = _
      rw [h]
      rfl
  obtain ⟨out, s', h, h1, h2, h3⟩ := key ns (s.reseed seed)
  refine ⟨out, s', h, ?_⟩
  have h1' : s'.sampleSeed = some seed := h1
  unfold Indep.reseedOwn
  rw [h1']
  show Res.ok _ = Res.ok _
  congr 1
  cases s'
  simp only [Indep.reseed] at h1 h2 h3 ⊢
  rw [h2, h3]

/-- **C50.** Reseeding forgets everything that happened before: whatever state `s` a sampler has reached,
after `reseed(seed)` the vectors it hands out are consecutive pieces of the stream of `seed`, in every
split into vectors and for either evaluation order. -/
theorem reseed_stream (rtl : Bool) (seed : ℕ) (ns : List ℕ) (s : Indep g) :
    ∃ out s', calls rtl (.reseed seed :: ns.map .nextVec) s = .ok ([] :: out, s') ∧
      out.map List.length = ns ∧
      (out.map fun v => if rtl then v.reverse else v).flatten = stream g ns.sum (g.seeded seed 1) := by
  have stream_add : ∀ a b st, stream g (a + b) st =
      stream g a st ++ stream g b (a.repeat (fun st => (g.next st).2) st) := by
    intro a b
    induction a with
    | zero => intro st; simp [stream, Nat.repeat]
    | succ a ih =>
      intro st
      rw [Nat.succ_add]
      simp only [stream, ih, List.cons_append, repeat_succ]
  have len : ∀ n st, (stream g n st).length = n := by
    intro n
    induction n with
    | zero => intro st; rfl
    | succ n ih => intro st; simp [stream, ih]
  have key : ∀ (ns : List ℕ) (s : Indep g), ∃ out s', calls rtl (ns.map .nextVec) s = .ok (out, s') ∧
      out.map List.length = ns ∧
      (out.map fun v => if rtl then v.reverse else v).flatten = stream g ns.sum s.rng := by
    intro ns
    induction ns with
    | nil => intro s; exact ⟨[], s, rfl, rfl, rfl⟩
    | cons n ns ih =>
      intro s
      obtain ⟨out, s', e, hl, hs⟩ := ih (s.nextVec rtl n).2
      refine ⟨(s.nextVec rtl n).1 :: out, s', ?_, ?_, ?_⟩
      · show (calls rtl (ns.map .nextVec) (s.nextVec rtl n).2).bind _ = _
        rw [e]; rfl
      · rw [List.map_cons, hl, nextVec_eq]
        cases rtl <;> simp [len]
      · rw [List.map_cons, List.flatten_cons, hs, List.sum_cons, stream_add, nextVec_eq]
        cases rtl <;> simp
  obtain ⟨out, s', e, hl, hs⟩ := key ns (s.reseed seed)
  refine ⟨out, s', ?_, hl, hs⟩
  show (calls rtl (ns.map .nextVec) (s.reseed seed)).bind _ = _
  rw [e]; rfl

/-- **C50.** Two samplers with the same configured sample count behave the same after being reseeded with
the same value, whatever happened to each of them before. -/
theorem reseed_forgets (rtl : Bool) (seed : ℕ) (p : Prog F A) (s t : Indep g)
    (h : s.sampleCnt = t.sampleCnt) :
    p.run rtl (s.reseed seed) = p.run rtl (t.reseed seed) := by
  have key : ∀ (p : Prog F A) (s t : Indep g), s.sampleCnt = t.sampleCnt → s.rng = t.rng →
      p.run rtl s = p.run rtl t := by
    intro p
    induction p with
    | ret a => intros; rfl
    | draw n k ih =>
      intro s t h1 h2
      rw [Prog.run, Prog.run, nextVec_eq, nextVec_eq, h2]
      exact ih _ _ _ h1 rfl
    | count k ih =>
      intro s t h1 h2
      have hc : s.getSampleCnt = t.getSampleCnt := by simp only [Indep.getSampleCnt, h1]
      rw [Prog.run, Prog.run, hc]
      cases t.getSampleCnt with
      | ok c => exact ih c s t h1 h2
      | throw m => rfl
      | ub w => rfl
  exact key p _ _ h rfl

/-- **C50.** Copies made for workers with equal seeds are equal, whatever was drawn from the originals:
their stream is that of the seed and they carry the configured sample count. -/
theorem worker_copies (rtl : Bool) (seed : ℕ) (cnt : Int) (s : Indep g) (hs : s.sampleCnt = some cnt)
    (h0 : 0 ≤ cnt) (h1 : cnt < 2 ^ 31) :
    ∃ w, s.copySeeded seed = .ok w ∧ w.getSampleCnt = .ok cnt.toNat ∧
      (∀ t : Indep g, t.sampleCnt = some cnt → t.copySeeded seed = .ok w) ∧
      ∀ p : Prog F A, p.run rtl w = .ok (p.runOn g rtl cnt.toNat (g.seeded seed 1)) := by
  have hc : (Indep.reseed seed (Indep.make seed cnt) : Indep g).getSampleCnt = .ok cnt.toNat := by
    simp only [Indep.getSampleCnt, Indep.reseed, Indep.make]
    rw [Int.emod_eq_of_lt h0 (by omega)]
  refine ⟨Indep.reseed seed (Indep.make seed cnt), ?_, hc, ?_, ?_⟩
  · simp only [Indep.copySeeded, hs]
  · intro t ht; simp only [Indep.copySeeded, ht]
  · intro p; exact run_eq_runOn rtl p _ _ hc

/-- **C50.** Whatever the timing of the threads, each tile is rendered with the same sampler: the pool
hands out the tiles from the last to the first, and the `k`-th one gets the copy seeded by the `k`-th
number of the main sampler's stream. -/
theorem pool_samplers_deterministic (toSeed : F → ℕ) (tiles : List τ) (nThreads : ℕ)
    (h : nThreads ≤ tiles.length) (s : Indep g) (cnt : Int) (hs : s.sampleCnt = some cnt)
    (oracle : ℕ → ℕ → Bool) (fuel : ℕ) :
    poolJobs toSeed tiles nThreads oracle fuel s = none ∨
    poolJobs toSeed tiles nThreads oracle fuel s = some (.ok (tiles.reverse.zip
      ((stream g tiles.length s.rng).map fun x =>
        Indep.reseed (toSeed x) (Indep.make (toSeed x) cnt)))) := by
  obtain ⟨hsafe, hord⟩ := Pool.scheduler_every_tile_once_partial tiles nThreads h
  rcases hsafe oracle fuel with e | ⟨slots, c, e, -⟩
  · left; simp only [poolJobs, e]
  · right
    have hst := (hord oracle fuel slots c e).1
    simp only [poolJobs, e, hst, List.length_reverse, workers_eq toSeed tiles.length s cnt hs, Res.bind]

/-- **C50.** Two runs of the multi-threaded renderer that start from samplers in the same state with the
same sample count end with the same accumulated image, for any two timings of the pool and any two
interleavings of the workers' memory accesses (exact arithmetic). `job` is what a tile adds to the image
when it is rendered with its sampler. -/
theorem pool_image_deterministic {P K : Type} [DecidableEq P] [AddCommGroup K]
    (toSeed : F → ℕ) (tiles : List τ) (nThreads : ℕ) (h : nThreads ≤ tiles.length)
    (s : Indep g) (cnt : Int) (hs : s.sampleCnt = some cnt)
    (job : τ × Indep g → List (Pool.Upd P K)) (mem : P → Fin 4 → K)
    (oracle oracle' : ℕ → ℕ → Bool) (fuel fuel' : ℕ) (jobs jobs' : List (τ × Indep g))
    (e : poolJobs toSeed tiles nThreads oracle fuel s = some (.ok jobs))
    (e' : poolJobs toSeed tiles nThreads oracle' fuel' s = some (.ok jobs'))
    (m m' : _)
    (r : Relation.ReflTransGen Pool.Step
      (Pool.Shared.start mem fun i : Fin jobs.length => job jobs[i]) m) (d : m.Done)
    (r' : Relation.ReflTransGen Pool.Step
      (Pool.Shared.start mem fun i : Fin jobs'.length => job jobs'[i]) m') (d' : m'.Done) :
    m.mem = m'.mem := by
  have hj : jobs = jobs' := by
    rcases pool_samplers_deterministic toSeed tiles nThreads h s cnt hs oracle fuel with h1 | h1
    · rw [h1] at e; cases e
    · rcases pool_samplers_deterministic toSeed tiles nThreads h s cnt hs oracle' fuel' with h2 | h2
      · rw [h2] at e'; cases e'
      · rw [h1] at e
        rw [h2] at e'
        simp only [Option.some.injEq, Res.ok.injEq] at e e'
        rw [← e, ← e']
  subst hj
  rw [Pool.interleaving_independent _ _ m r d, Pool.interleaving_independent _ _ m' r' d']

/-- The unseeded `copy()` does not carry the sample count over: asking the copy for it reads an
uninitialised member. (`copy()` is not called anywhere in the repository.) -/
theorem plain_copy_loses_count (s : Indep g) (seed : ℕ) (hs : s.sampleSeed = some seed) :
    ∃ w, s.copy = .ok w ∧ w.getSampleCnt = .ub "sampleCnt is not set" := by
  exact ⟨Indep.reseed seed Indep.new, by simp only [Indep.copy, hs], rfl⟩

/-- The property for every way of making a copy: copies carry the configured sample count. -/
def CopiesKeepCount (g : Gen F) : Prop :=
  ∀ (seed : ℕ) (cnt : Int), 0 ≤ cnt → cnt < 2 ^ 31 →
    (∀ w, (Indep.make seed cnt : Indep g).copy = .ok w → w.getSampleCnt = .ok cnt.toNat) ∧
    (∀ seed' w, (Indep.make seed cnt : Indep g).copySeeded seed' = .ok w →
      w.getSampleCnt = .ok cnt.toNat)

theorem copies_keep_count_refuted (g : Gen F) : ¬ CopiesKeepCount g := by
  intro h
  obtain ⟨w, e, hw⟩ := plain_copy_loses_count (Indep.make 7 8 : Indep g) 7 rfl
  have := (h 7 8 (by decide) (by decide)).1 w e
  rw [hw] at this
  cases this

/-- A negative sample count is read back as a huge one. -/
theorem negative_count_refuted (seed : ℕ) (n : ℕ) (h0 : 0 < n) (h1 : n ≤ 2 ^ 31) :
    (Indep.make seed (-(n : Int)) : Indep g).getSampleCnt = .ok (2 ^ 32 - n) := by
  simp only [Indep.getSampleCnt, Indep.make]
  congr 1
  have : (-(n : Int)) % 2 ^ 32 = 2 ^ 32 - n := by omega
  rw [this]
  omega

/-! ### C76 -/

/-- C76 as listed: a render with a given seed uses that seed's random stream. -/
def SeedIsUsed (g : Gen F) : Prop :=
  ∀ (seed : ℕ) (cnt : Int) (n : ℕ),
    ((sceneSampler seed cnt : Indep g).nextList n).1 = stream g n (g.seeded seed 1)

/-- **C76, what the code does instead.** The configured seed has no influence on a render: two scenes that
differ only in the seed give the same result in the single-threaded renderer (any computation `p` on the
scene's sampler), and the same samplers for every tile of the multi-threaded one. -/
theorem configured_seed_ignored (rtl : Bool) (seed seed' : ℕ) (cnt : Int) :
    (∀ p : Prog F A, p.run rtl (sceneSampler seed cnt : Indep g) =
      p.run rtl (sceneSampler seed' cnt : Indep g)) ∧
    ∀ (toSeed : F → ℕ) (tiles : List τ) (nThreads : ℕ) (oracle : ℕ → ℕ → Bool) (fuel : ℕ),
      poolJobs toSeed tiles nThreads oracle fuel (sceneSampler seed cnt : Indep g) =
        poolJobs toSeed tiles nThreads oracle fuel (sceneSampler seed' cnt) := by
  constructor
  · intro p
    have key : ∀ (p : Prog F A) (st : g.State) (a b : Option ℕ),
        p.run rtl (⟨some cnt, a, none, st⟩ : Indep g) = p.run rtl ⟨some cnt, b, none, st⟩ := by
      intro p
      induction p with
      | ret a => intros; rfl
      | draw n k ih =>
        intro st a b
        rw [Prog.run, Prog.run, nextVec_eq, nextVec_eq]
        exact ih _ _ _ _
      | count k ih => intro st a b; exact ih _ _ _ _
    exact key p _ _ _
  · intro toSeed tiles nThreads oracle fuel
    unfold poolJobs
    match Pool.evaluatePool tiles nThreads oracle fuel with
    | none => rfl
    | some (.throw _) => rfl
    | some (.ub _) => rfl
    | some (.ok (_, c)) =>
      simp only
      rw [workers_eq toSeed _ (sceneSampler seed cnt : Indep g) cnt rfl,
        workers_eq toSeed _ (sceneSampler seed' cnt : Indep g) cnt rfl]
      rfl

/-- **C76 is false of the code**, for every generator that can tell two seeds apart by its first number. -/
theorem seed_is_used_refuted (g : Gen F) (a b : ℕ)
    (hab : (g.next (g.seeded a 1)).1 ≠ (g.next (g.seeded b 1)).1) : ¬ SeedIsUsed g := by
  intro h
  apply hab
  have ha := h a 1 1
  have hb := h b 1 1
  rw [nextList_eq] at ha hb
  simp only [stream, List.cons.injEq, and_true] at ha hb
  rw [← ha, ← hb]
  rfl

/-- **C76 (partial: the missing call).** If the renderer called the sampler's `preProcess`, the stream
would be that of the configured seed. Missing for the full property: no code calls it. -/
theorem preprocessed_seed_is_used_partial (seed : ℕ) (cnt : Int) (n : ℕ) :
    ∃ s, (sceneSampler seed cnt : Indep g).preProcess = .ok s ∧
      (s.nextList n).1 = stream g n (g.seeded seed 1) := by
  refine ⟨Indep.reseed seed ⟨some cnt, some seed, some 0, g.dflt⟩, rfl, ?_⟩
  rw [nextList_eq]
  rfl

/-! ### Non-vacuity -/

/-- A small linear congruential generator. -/
def lcg : Gen ℕ := ⟨ℕ, 1, fun a b => 2 * a + b, fun s => (s % 16, (5 * s + 3) % 64)⟩

/-- Reseeding after drawing, for the small generator. -/
example : (calls (g := lcg) false [.nextVec 2, .reseed 9, .nextVec 2, .next1D] (.make 4 8)).bind
    (fun r => .ok r.1) = .ok [[1, 8], [], [3, 2], [13]] := by decide

/-- Two tiles on one thread. -/
example : ((poolJobs (g := lcg) id [10, 11] 1 (fun _ _ => true) 5 (sceneSampler 4 8)).map
    fun r => r.bind fun l => .ok (l.map fun j => (j.1, j.2.sampleSeed, j.2.sampleCnt))) =
    some (.ok [(11, some 1, some 8), (10, some 8, some 8)]) := by decide

/-- The small generator tells the seeds 1 and 2 apart. -/
example : ¬ SeedIsUsed lcg := seed_is_used_refuted lcg 1 2 (by decide)

end Feign.Sampling
