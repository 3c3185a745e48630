import Verif.Tools.TimingLemmas
import Verif.Math.Single
import Mathlib.Tactic.Linarith
import Mathlib.Tactic.NormNum
import Mathlib.Tactic.FinCases

/-!
# The timing report adds up (C122)

Every line of the report is the length of time during which that timer was running, stages inside another stage take no
longer than it, and the total is the time the job took.
-/

set_option linter.unusedSectionVars false
set_option linter.unusedSimpArgs false

namespace Feign.Tools

open Feign.Integrators (Timer)
open MeasureTheory

/-! ## When timing fails -/

section
variable {K : Type} [Field K] [LinearOrder K]

private theorem step_ok_iff (fl : K → K) (c : Clocker K) (e : Ev K) :
    (∃ c', c.step fl e = .ok c' ∧ c'.active = Function.update c.active e.timer (!c.active e.timer)) ∧
        e.isStart = (!c.active e.timer) ∨
      (∀ c', c.step fl e ≠ .ok c') ∧ e.isStart ≠ (!c.active e.timer) := by
  cases e with
  | start t now =>
    cases h : c.active t
    · refine .inl ⟨⟨_, by simp [Clocker.step, Clocker.start, h]; rfl, ?_⟩, ?_⟩ <;> simp [Ev.timer, Ev.isStart, h]
    · exact .inr ⟨by simp [Clocker.step, Clocker.start, h], by simp [Ev.timer, Ev.isStart, h]⟩
  | stop t now =>
    cases h : c.active t
    · exact .inr ⟨by simp [Clocker.step, Clocker.stop, h], by simp [Ev.timer, Ev.isStart, h]⟩
    · refine .inl ⟨⟨_, by simp [Clocker.step, Clocker.stop, h]; rfl, ?_⟩, ?_⟩ <;> simp [Ev.timer, Ev.isStart, h]

private theorem run_ok_iff (fl : K → K) (h : List (Ev K)) : ∀ c : Clocker K, (∃ c', c.run fl h = .ok c') ↔
    ∀ t, ∀ (i : ℕ) (hi : i < (h.filter fun e => e.timer = t).length),
      ((h.filter fun e => e.timer = t)[i]).isStart = ((i % 2 == 0) != c.active t) := by
  induction h with
  | nil => intro c; simp [Clocker.run]
  | cons e es ih =>
    intro c
    rcases step_ok_iff fl c e with ⟨⟨c', hc', ha⟩, hs⟩ | ⟨hc', hs⟩
    · have hrun : c.run fl (e :: es) = c'.run fl es := by simp [Clocker.run, hc']
      rw [hrun, ih c']
      refine forall_congr' fun t => ?_
      by_cases ht : e.timer = t
      · subst ht
        simp only [List.filter_cons, decide_true, if_true, ha, Function.update_self]
        constructor
        · intro H i hi
          cases i with
          | zero => simp [hs]
          | succ i =>
            have := H i (by simpa using hi)
            rw [List.getElem_cons_succ, this]
            rcases Nat.mod_two_eq_zero_or_one i with h | h
            · rw [h, show (i + 1) % 2 = 1 by omega]; cases c.active e.timer <;> rfl
            · rw [h, show (i + 1) % 2 = 0 by omega]; cases c.active e.timer <;> rfl
        · intro H i hi
          have := H (i + 1) (by simpa using hi)
          rw [List.getElem_cons_succ] at this
          rw [this]
          rcases Nat.mod_two_eq_zero_or_one i with h | h
          · rw [h, show (i + 1) % 2 = 1 by omega]; cases c.active e.timer <;> rfl
          · rw [h, show (i + 1) % 2 = 0 by omega]; cases c.active e.timer <;> rfl
      · have ht' : t ≠ e.timer := fun h => ht h.symm
        simp only [List.filter_cons, ht, decide_false, ha, Function.update_of_ne ht', Bool.false_eq_true, if_false]
    · constructor
      · rintro ⟨c'', h⟩
        obtain ⟨m, hm, -⟩ := Res.bind_eq_ok.mp h
        exact absurd hm (hc' m)
      · intro H
        have := H e.timer 0 (by simp)
        simp only [List.filter_cons, decide_true, if_true, List.getElem_cons_zero] at this
        exact absurd (by rw [this]; cases c.active e.timer <;> rfl) hs

/-- **C122, failures.** The calls go through exactly if every timer is called start, stop, start, stop, and so on,
whatever the others do; anything else ends the program with an exception. -/
theorem timing_goes_through_iff (fl : K → K) (h : List (Ev K)) :
    (∃ c, Clocker.init.run fl h = .ok c) ↔ Alternating h := by
  rw [run_ok_iff]
  unfold Alternating
  simp [Clocker.init]

example : Alternating ([.start .api 0, .start .nee 1, .stop .api 2, .stop .nee 3, .start .api 4] : List (Ev ℚ)) := by
  rw [← timing_goes_through_iff id]
  exact ⟨_, rfl⟩

end

/-! ## What a line of the report says -/

/-- **C122, lines.** A timer that has been stopped reads the length of time during which it was running. -/
theorem time_recorded (h : List (Ev ℝ)) (ho : Ordered h) (c : Clocker ℝ) (hr : Clocker.init.run id h = .ok c)
    (t : Timer) (hs : c.active t = false) : volume (busy h t) = ENNReal.ofReal (c.times t) ∧ 0 ≤ c.times t :=
  ⟨(tracks_run h ho hr t).stopped hs, (tracks_run h ho hr t).nonneg⟩

/-- **C122, stages inside a stage.** Timers of which no two run at once, and which run only while another one runs, add
up to at most what that one reads. -/
theorem parts_le (h : List (Ev ℝ)) (ho : Ordered h) (c : Clocker ℝ) (hr : Clocker.init.run id h = .ok c)
    (S : Finset Timer) (outer : Timer) (hs : ∀ t ∈ S, c.active t = false) (hso : c.active outer = false)
    (hin : ∀ t ∈ S, busy h t ⊆ busy h outer)
    (hdis : ∀ t ∈ S, ∀ t' ∈ S, t ≠ t' → Disjoint (busy h t) (busy h t')) :
    ∑ t ∈ S, c.times t ≤ c.times outer := by
  have hout := (tracks_run h ho hr outer)
  have h1 : volume (⋃ t ∈ S, busy h t) = ∑ t ∈ S, volume (busy h t) :=
    measure_biUnion_finset (fun t ht t' ht' hne => hdis t ht t' ht' hne) fun t _ => (tracks_run h ho hr t).meas
  have h2 : volume (⋃ t ∈ S, busy h t) ≤ volume (busy h outer) := measure_mono (Set.iUnion₂_subset hin)
  rw [h1, hout.stopped hso, Finset.sum_congr rfl fun t ht => (tracks_run h ho hr t).stopped (hs t ht),
    ← ENNReal.ofReal_sum_of_nonneg fun t _ => (tracks_run h ho hr t).nonneg] at h2
  exact (ENNReal.ofReal_le_ofReal_iff hout.nonneg).mp h2

/-- Two stages inside a third one. -/
def threeStages : List (Ev ℝ) :=
  [.start .integrator 0, .start .nee 1, .stop .nee 3, .start .rr 3, .stop .rr 4, .stop .integrator 6]

private theorem busy_nil (t : Timer) : busy [] t = ∅ := by
  ext x
  simp [busy, lastCall]

private theorem threeStages_busy : busy threeStages .integrator = Set.Ici 0 ∩ Set.Iio 6 ∧
    busy threeStages .nee = Set.Ici 1 ∩ Set.Iio 3 ∧ busy threeStages .rr = Set.Ici 3 ∩ Set.Iio 4 := by
  have : threeStages = ((((([] ++ [.start .integrator 0]) ++ [.start .nee 1]) ++ [.stop .nee 3]) ++ [.start .rr 3]) ++
    [.stop .rr 4]) ++ [.stop .integrator 6] := rfl
  rw [this]
  simp only [busy_snoc, busy_nil, Ev.timer, Ev.isStart, Ev.now]
  refine ⟨?_, ?_, ?_⟩ <;> simp

/-- The hypotheses of `parts_le` are met, and the report says what one expects. -/
example : ∃ c : Clocker ℝ, Clocker.init.run id threeStages = .ok c ∧ Ordered threeStages ∧
    (∀ t, c.active t = false) ∧
    (∀ t ∈ ({.nee, .rr} : Finset Timer), busy threeStages t ⊆ busy threeStages .integrator) ∧
    Disjoint (busy threeStages .nee) (busy threeStages .rr) ∧
    c.times .integrator = 6 ∧ c.times .nee = 2 ∧ c.times .rr = 1 := by
  obtain ⟨b1, b2, b3⟩ := threeStages_busy
  refine ⟨_, rfl, ?_, ?_, ?_, ?_, ?_, ?_, ?_⟩
  · norm_num [Ordered, threeStages, Ev.now]
  · intro t
    cases t <;> simp [Function.update, Clocker.init]
  · intro t ht
    rcases Finset.mem_insert.mp ht with rfl | ht
    · rw [b1, b2]
      rintro x ⟨h1, h2⟩
      rw [Set.mem_Ici] at h1
      rw [Set.mem_Iio] at h2
      exact ⟨Set.mem_Ici.mpr (by linarith), Set.mem_Iio.mpr (by linarith)⟩
    · rw [Finset.mem_singleton.mp ht, b1, b3]
      rintro x ⟨h1, h2⟩
      rw [Set.mem_Ici] at h1
      rw [Set.mem_Iio] at h2
      exact ⟨Set.mem_Ici.mpr (by linarith), Set.mem_Iio.mpr (by linarith)⟩
  · rw [b2, b3]
    exact Set.disjoint_left.mpr fun x hx hx' => absurd (Set.mem_Iio.mp hx.2) (not_lt.mpr (Set.mem_Ici.mp hx'.1))
  · simp [Function.update, Clocker.init]
  · simp [Function.update, Clocker.init]
    norm_num
  · simp [Function.update, Clocker.init]
    norm_num

/-! ## The stages of the render loop -/

section
variable {K : Type} [Field K] [LinearOrder K] [IsStrictOrderedRing K]

private theorem only_append (t : Timer) (a b : List (Ev K)) : only t (a ++ b) = only t a ++ only t b :=
  List.filter_append ..

private theorem only_none (t : Timer) (a : List (Ev K)) (h : ∀ e ∈ a, e.timer ≠ t) : only t a = [] := by
  simpa [only, List.filter_eq_nil_iff] using h

private theorem only_pairs_self (t : Timer) (qs : List (K × K)) :
    only t (qs.flatMap fun q => [.start t q.1, .stop t q.2]) = qs.flatMap fun q => [.start t q.1, .stop t q.2] := by
  induction qs with
  | nil => rfl
  | cons q qs ih =>
    rw [List.flatMap_cons, only_append, ih]
    simp [only, Ev.timer]

/-- What a timer reads when its calls are those of the stretches `qs`. -/
private theorem times_of_pairs {h : List (Ev K)} {c : Clocker K} (hr : Clocker.init.run id h = .ok c) (t : Timer)
    (qs : List (K × K)) (hq : only t h = qs.flatMap fun q => [.start t q.1, .stop t q.2]) :
    c.times t = (qs.map fun q => q.2 - q.1).sum ∧ c.active t = false := by
  obtain ⟨d, hd, hs⟩ := run_only id t h (c := Clocker.init) (d := Clocker.init) ⟨rfl, rfl, rfl⟩ hr
  obtain ⟨d', hd', ha, ht⟩ := run_pairs t qs (c := Clocker.init) rfl
  rw [hq, hd'] at hd
  cases hd
  rw [hs.1, hs.2.2, ht, ha]
  simp [Clocker.init]

/-- **C122, the total.** The total of the report is the time from the start of reading the file to the end of rendering,
without the pauses between stages, plus the time of the calls of the interface made while reading, which is counted a
second time. -/
theorem total_exact (j : Job K) (hin : j.Inside) (c : Clocker K) (hr : Clocker.init.run id j.events = .ok c) :
    c.total id = (j.done - j.opened) - (j.flushed - j.parsed) - (j.rendering - j.prepared) + j.callTime := by
  have hcalls : ∀ t : Timer, t ≠ .api →
      only t (j.calls.flatMap fun q => [Ev.start .api q.1, Ev.stop .api q.2]) = [] := by
    intro t ht
    apply only_none
    intro e he
    obtain ⟨q, -, hq⟩ := List.mem_flatMap.mp he
    rcases List.mem_cons.mp hq with rfl | hq
    · exact fun h => ht h.symm
    · rw [List.mem_singleton.mp hq]; exact fun h => ht h.symm
  have hi1 := only_none .sceneParse j.inner fun e he => (hin e he).1
  have hi2 := only_none .api j.inner fun e he => (hin e he).2.1
  have hi3 := only_none .rendering j.inner fun e he => (hin e he).2.2
  have h1 := (times_of_pairs hr .sceneParse [(j.opened, j.parsed)] (by
    rw [Job.events, ← List.singleton_append]
    simp only [only_append]
    rw [hcalls _ (by decide), hi1]
    simp [only, Ev.timer])).1
  have h2 := (times_of_pairs hr .rendering [(j.rendering, j.done)] (by
    rw [Job.events, ← List.singleton_append]
    simp only [only_append]
    rw [hcalls _ (by decide), hi3]
    simp [only, Ev.timer])).1
  have h3 := (times_of_pairs hr .api (j.calls ++ [(j.flushed, j.prepared)]) (by
    rw [Job.events, ← List.singleton_append]
    simp only [only_append]
    rw [only_pairs_self, hi2]
    simp [only, Ev.timer])).1
  simp only [Clocker.total, id, h1, h2, h3, Job.callTime, List.map_append, List.sum_append, List.map_cons, List.map_nil,
    List.sum_cons, List.sum_nil]
  ring

/-- **C122, the total, exact condition.** The total is the time the job took exactly if the calls made while reading the
file took as long as the pauses between stages. -/
theorem total_iff (j : Job K) (hin : j.Inside) (c : Clocker K) (hr : Clocker.init.run id j.events = .ok c) :
    c.total id = j.done - j.opened ↔ j.callTime = (j.flushed - j.parsed) + (j.rendering - j.prepared) := by
  rw [total_exact j hin c hr]
  constructor <;> intro h <;> linarith

/-- **C122, how far the total can be off.** With a clock that never runs backwards the total is at most the time the job
took plus the time of the calls made while reading, which is counted twice: the stages themselves do not overlap. -/
theorem total_le (j : Job K) (hin : j.Inside) (ho : Ordered j.events) (c : Clocker K)
    (hr : Clocker.init.run id j.events = .ok c) : c.total id ≤ (j.done - j.opened) + j.callTime := by
  rw [total_exact j hin c hr]
  have hp := (List.pairwise_append.mp (List.pairwise_append.mp (List.pairwise_append.mp ho).1).1).2.1
  simp only [List.pairwise_cons, List.mem_cons, List.not_mem_nil, or_false, forall_eq_or_imp, forall_eq, Ev.now] at hp
  have h1 : j.parsed ≤ j.flushed := hp.1.1
  have h2 : j.prepared ≤ j.rendering := hp.2.2.1
  linarith

/-- A job of ten seconds: one second of reading, of which half is spent in a call, then nine seconds of rendering. -/
def tenSeconds : Job ℚ := ⟨0, [(1 / 4, 3 / 4)], 1, 1, 1, 1, [], 10⟩

/-- **C122 refuted for the total.** No pause between the stages: the report says ten and a half seconds. -/
theorem total_refuted : ∃ c, Clocker.init.run id tenSeconds.events = .ok c ∧ Ordered tenSeconds.events ∧
    tenSeconds.done - tenSeconds.opened = 10 ∧ c.total id = 21 / 2 := by
  have hok : ∃ c, Clocker.init.run id tenSeconds.events = .ok c := ⟨_, rfl⟩
  obtain ⟨c, hc⟩ := hok
  refine ⟨c, hc, ?_, ?_, ?_⟩
  · norm_num [Ordered, tenSeconds, Job.events, Ev.now]
  · norm_num [tenSeconds]
  · rw [total_exact tenSeconds (by intro e he; cases he) c hc]
    norm_num [tenSeconds, Job.callTime]

/-- **C122, the caller's record.** Who renders into an image and asks for the times gets what the timers read. -/
theorem record_handed_over (c : Clocker K) (old : Timer → K) :
    c.callerRecord true (some old) = some c.times := rfl

/-- **C122 refuted for the caller's record** when the image is written to files: the record keeps what it held before,
whatever the timers read. -/
theorem record_dropped_refuted (c : Clocker K) (old : Timer → K) :
    c.callerRecord false (some old) = some old := rfl

/-! The stages of the render loop -/

private theorem only_frames (t : Timer) (f : Frame K → K × K)
    (frames : List (Frame K)) (h : ∀ g ∈ frames, only t g.events = [.start t (f g).1, .stop t (f g).2]) :
    only t (frames.flatMap Frame.events) = (frames.map f).flatMap fun q => [.start t q.1, .stop t q.2] := by
  induction frames with
  | nil => rfl
  | cons g gs ih =>
    rw [List.flatMap_cons, only_append, ih fun g hg => h g (List.mem_cons_of_mem _ hg), h g (by simp)]
    simp

/-- The three stages of the samples, between two readings of the clock. -/
private theorem frames_le (frames : List (Frame K)) : ∀ lo hi : K, lo ≤ hi →
    Ordered (frames.flatMap Frame.events) → (∀ e ∈ frames.flatMap Frame.events, lo ≤ e.now ∧ e.now ≤ hi) →
    (frames.map fun f => f.camera.2 - f.camera.1).sum + (frames.map fun f => f.radiance.2 - f.radiance.1).sum +
      (frames.map fun f => f.filter.2 - f.filter.1).sum ≤ hi - lo := by
  induction frames with
  | nil =>
    intro lo hi h _ _
    simpa using h
  | cons f fs ih =>
    intro lo hi hlh ho hb
    rw [List.flatMap_cons] at ho hb
    have hp := List.pairwise_append.mp ho
    have hlast : Ev.stop .filter f.filter.2 ∈ f.events := by simp [Frame.events]
    have hrest := ih f.filter.2 hi (hb _ (List.mem_append_left _ hlast)).2 hp.2.1 fun e he =>
      ⟨hp.2.2 _ hlast e he, (hb e (List.mem_append_right _ he)).2⟩
    have h1 := (hb (.start .cameraRay f.camera.1) (List.mem_append_left _ (by simp [Frame.events]))).1
    have ho1 := hp.1
    rw [Frame.events] at ho1
    have hq := List.pairwise_append.mp ho1
    have hq' := List.pairwise_append.mp hq.1
    have hl : (Ev.start .integrator f.radiance.1).now ≤ (Ev.stop .integrator f.radiance.2).now :=
      hq.2.2 _ (by simp) _ (by simp)
    have hr := hq.2.1
    have hl' := hq'.1
    simp only [List.pairwise_cons, List.mem_cons, List.not_mem_nil, or_false, forall_eq_or_imp, forall_eq, Ev.now,
      IsEmpty.forall_iff, implies_true, List.Pairwise.nil, and_true] at hr hl'
    simp only [Ev.now] at hl h1
    simp only [List.map_cons, List.sum_cons]
    linarith [hr.1.1, hl'.1.2]

/-- **C122, render stages.** The times of camera rays, radiance and filter add up to at most the time of rendering,
whatever timers are used inside the radiance. -/
theorem render_stages_le (j : Job K) (frames : List (Frame K)) (normalise : K × K)
    (hi : j.inner = renderEvents frames normalise) (ho : Ordered j.events)
    (hf : ∀ f ∈ frames, ∀ e ∈ f.inner, e.timer ∉ [Timer.sceneParse, .api, .rendering, .cameraRay, .integrator, .filter])
    (c : Clocker K) (hr : Clocker.init.run id j.events = .ok c) :
    c.times .cameraRay + c.times .integrator + c.times .filter ≤ c.times .rendering := by
  have hf' : ∀ t ∈ [Timer.sceneParse, .api, .rendering, .cameraRay, .integrator, .filter], ∀ f ∈ frames,
      only t f.inner = [] := fun t ht f hff => only_none t f.inner fun e he h => hf f hff e he (h ▸ ht)
  have hcalls : ∀ t : Timer, t ≠ .api →
      only t (j.calls.flatMap fun q => [Ev.start .api q.1, Ev.stop .api q.2]) = [] := by
    intro t ht
    apply only_none
    intro e he
    obtain ⟨q, -, hq⟩ := List.mem_flatMap.mp he
    rcases List.mem_cons.mp hq with rfl | hq
    · exact fun h => ht h.symm
    · rw [List.mem_singleton.mp hq]; exact fun h => ht h.symm
  have hin : j.Inside := by
    intro e he
    rw [hi, renderEvents] at he
    rcases List.mem_append.mp he with he | he
    · obtain ⟨f, hff, he⟩ := List.mem_flatMap.mp he
      simp only [Frame.events, List.mem_append, List.mem_cons, List.not_mem_nil, or_false] at he
      rcases he with ((rfl | rfl | rfl) | he) | (rfl | rfl | rfl)
      · simp [Ev.timer]
      · simp [Ev.timer]
      · simp [Ev.timer]
      · have := hf f hff e he
        simp only [List.mem_cons, List.not_mem_nil, or_false, not_or] at this
        exact ⟨this.1, this.2.1, this.2.2.1⟩
      · simp [Ev.timer]
      · simp [Ev.timer]
      · simp [Ev.timer]
    · simp only [List.mem_cons, List.not_mem_nil, or_false] at he
      rcases he with rfl | rfl <;> simp [Ev.timer]
  have hcam := (times_of_pairs hr .cameraRay (frames.map Frame.camera) (by
    rw [Job.events, ← List.singleton_append]
    simp only [only_append]
    rw [hcalls _ (by decide), hi, renderEvents, only_append, only_frames _ Frame.camera]
    · simp [only, Ev.timer]
    · intro g hg
      simp only [Frame.events, only_append, hf' .cameraRay (by simp) g hg]
      simp [only, Ev.timer])).1
  have hint := (times_of_pairs hr .integrator (frames.map Frame.radiance) (by
    rw [Job.events, ← List.singleton_append]
    simp only [only_append]
    rw [hcalls _ (by decide), hi, renderEvents, only_append, only_frames _ Frame.radiance]
    · simp [only, Ev.timer]
    · intro g hg
      simp only [Frame.events, only_append, hf' .integrator (by simp) g hg]
      simp [only, Ev.timer])).1
  have hfil := (times_of_pairs hr .filter (frames.map Frame.filter ++ [normalise]) (by
    rw [Job.events, ← List.singleton_append]
    simp only [only_append]
    rw [hcalls _ (by decide), hi, renderEvents, only_append, only_frames _ Frame.filter]
    · simp [only, Ev.timer]
    · intro g hg
      simp only [Frame.events, only_append, hf' .filter (by simp) g hg]
      simp [only, Ev.timer])).1
  have hren := (times_of_pairs hr .rendering [(j.rendering, j.done)] (by
    rw [Job.events, ← List.singleton_append]
    simp only [only_append]
    rw [hcalls _ (by decide), only_none .rendering j.inner fun e he => (hin e he).2.2]
    simp [only, Ev.timer])).1
  -- the order of the readings
  rw [Job.events, hi, renderEvents] at ho
  have hp := List.pairwise_append.mp ho
  have hp' := List.pairwise_append.mp hp.1
  have hp'' := List.pairwise_append.mp hp'.2.1
  have hlo : ∀ e ∈ frames.flatMap Frame.events ++ [Ev.start .filter normalise.1, Ev.stop .filter normalise.2],
      j.rendering ≤ e.now := fun e he => hp'.2.2 (.start .rendering j.rendering) (by simp) e he
  have hhi : ∀ e ∈ frames.flatMap Frame.events, e.now ≤ normalise.1 := fun e he =>
    hp''.2.2 e he (.start .filter normalise.1) (by simp)
  have hend : normalise.2 ≤ j.done :=
    hp.2.2 (.stop .filter normalise.2) (by simp) (.stop .rendering j.done) (by simp)
  have := frames_le frames j.rendering normalise.1 (hlo (.start .filter normalise.1) (by simp)) hp''.1 fun e he =>
    ⟨hlo e (List.mem_append_left _ he), hhi e he⟩
  rw [hcam, hint, hfil, hren]
  simp only [List.map_map, Function.comp_def, List.map_append, List.sum_append, List.map_cons, List.map_nil,
    List.sum_cons, List.sum_nil] at *
  linarith

/-- One sample with a timer inside the radiance. -/
example : ∃ (j : Job ℚ) (f : Frame ℚ) (c : Clocker ℚ), j.inner = renderEvents [f] (8, 9) ∧ Ordered j.events ∧
    f.inner ≠ [] ∧
    (∀ e ∈ f.inner, e.timer ∉ [Timer.sceneParse, .api, .rendering, .cameraRay, .integrator, .filter]) ∧
    Clocker.init.run id j.events = .ok c := by
  refine ⟨⟨0, [], 1, 1, 1, 1, renderEvents [⟨(1, 2), (2, 6), [.start .nee 3, .stop .nee 4], (6, 7)⟩] (8, 9), 10⟩,
    ⟨(1, 2), (2, 6), [.start .nee 3, .stop .nee 4], (6, 7)⟩, _, rfl, ?_, by simp, ?_, rfl⟩
  · norm_num [Ordered, Job.events, renderEvents, Frame.events, Ev.now]
  · decide

end

/-! ## Many short stretches -/

section
variable {K : Type} [Field K] [LinearOrder K] [IsStrictOrderedRing K] [FloorRing K]

/-- Nothing shorter than half a unit in the last place changes a power of two. -/
private theorem single_stalls (e : ℤ) (d : K) (h0 : 0 ≤ d) (hd : d ≤ (2 : K) ^ (e - 24)) :
    single ((2 : K) ^ e + d) = 2 ^ e := by
  have hp : (0 : K) < 2 ^ e := zpow_pos two_pos e
  have hq : (0 : K) < (2 : K) ^ (e - 24) := zpow_pos two_pos _
  have h2 : (2 : K) ^ e = 2 ^ 24 * (2 : K) ^ (e - 24) := by
    rw [← zpow_natCast, ← zpow_add₀ two_ne_zero]; congr 1; omega
  have hpos : 0 < (2 : K) ^ e + d := by linarith
  have hlog : Int.log 2 |(2 : K) ^ e + d| = e := by
    rw [abs_of_pos hpos]
    refine le_antisymm (Int.lt_add_one_iff.mp ((Int.lt_zpow_iff_log_lt one_lt_two hpos).mp ?_))
      ((Int.zpow_le_iff_le_log one_lt_two hpos).mp ?_)
    · push_cast
      rw [zpow_add_one₀ two_ne_zero]
      have : (2 : K) ^ (e - 24) < 2 ^ e := zpow_lt_zpow_right₀ one_lt_two (by omega)
      linarith
    · push_cast
      linarith
  have hsp : spacing ((2 : K) ^ e + d) = 2 * (2 : K) ^ (e - 24) := by
    rw [spacing, hlog, ← zpow_one_add₀ two_ne_zero]; congr 1; omega
  rw [single, if_neg hpos.ne', hsp]
  have hx : ((2 : K) ^ e + d) / (2 * (2 : K) ^ (e - 24)) = 2 ^ 23 + d / (2 * (2 : K) ^ (e - 24)) := by
    rw [h2]; field_simp
  have hr0 : 0 ≤ d / (2 * (2 : K) ^ (e - 24)) := by positivity
  have hr1 : d / (2 * (2 : K) ^ (e - 24)) ≤ 1 / 2 := by
    rw [div_le_iff₀ (by linarith)]; linarith
  have hfl : ⌊((2 : K) ^ e + d) / (2 * (2 : K) ^ (e - 24))⌋ = 2 ^ 23 := by
    rw [hx, Int.floor_eq_iff]
    push_cast
    constructor <;> linarith
  have hn : nearest (((2 : K) ^ e + d) / (2 * (2 : K) ^ (e - 24))) = 2 ^ 23 := by
    unfold nearest
    rw [hfl]
    split
    · rfl
    · split
      · rename_i h; rw [hx] at h; push_cast at h; linarith
      · rw [if_pos (by decide)]
  rw [hn, h2]
  push_cast
  ring

/-- **C122 refuted for short stretches.** Times are added up in single precision. Once a timer has reached a power of two,
stretches of at most its `2^24`-th part leave it where it is, however many there are: a timer of ray queries that has
reached 32 seconds no longer counts queries of a microsecond. -/
theorem timer_stalls_refuted (e : ℤ) (t : Timer) (a d : K) (h0 : 0 ≤ d) (hd : d ≤ (2 : K) ^ (e - 24)) (n : ℕ)
    (c : Clocker K) (hc : c.active t = false) (ht : c.times t = (2 : K) ^ e) :
    ∃ c', c.run single ((List.range n).flatMap fun k : ℕ =>
        [.start t (a + (k : K) * d), .stop t (a + (k : K) * d + d)]) = .ok c' ∧
      c'.times t = (2 : K) ^ e := by
  suffices ∀ ks : List ℕ, ∀ c : Clocker K, c.active t = false → c.times t = (2 : K) ^ e →
      ∃ c', c.run single (ks.flatMap fun k : ℕ => [.start t (a + (k : K) * d), .stop t (a + (k : K) * d + d)]) = .ok c' ∧
        c'.times t = (2 : K) ^ e from this _ c hc ht
  intro ks
  induction ks with
  | nil => intro c hc ht; exact ⟨c, rfl, ht⟩
  | cons k ks ih =>
    intro c hc ht
    obtain ⟨c1, h1, a1, t1⟩ := run_pair single t (a + k * d) (a + k * d + d) hc
    rw [ht, add_sub_cancel_left, single_stalls e d h0 hd] at t1
    obtain ⟨c2, h2, t2⟩ := ih c1 a1 t1
    refine ⟨c2, ?_, t2⟩
    rw [List.flatMap_cons, run_append, h1]
    exact h2

example : (1 / 1000000 : ℚ) ≤ (2 : ℚ) ^ ((5 : ℤ) - 24) := by norm_num [zpow_neg]

end

/-! ## The layout of the report -/

/-- The numbers of all lines take up the same width, so that the names are below one another. -/
def Aligned (text : Timer → List Char) (lines : List (List Char)) : Prop :=
  lines.length = timerNames.length ∧ ∃ w, ∀ (i : ℕ) (hi : i < lines.length) (hi' : i < timerNames.length), ∃ col,
    lines[i] = col ++ " seconds - ".toList ++ (timerNames[i]).2.toList ∧ col.length = w ∧
      text (timerNames[i]).1 <+: col

private theorem padding_ge (text : Timer → List Char) (p : Timer × String) (hp : p ∈ timerNames.dropLast) :
    (text p.1).length ≤ padding text := by
  unfold padding
  generalize timerNames.dropLast = l at hp
  have key : ∀ (l : List ℕ) (a : ℕ), a ≤ l.foldl max a ∧ ∀ x ∈ l, x ≤ l.foldl max a := by
    intro l
    induction l with
    | nil => intro a; simp
    | cons b l ih =>
      intro a
      obtain ⟨h1, h2⟩ := ih (max a b)
      refine ⟨(le_max_left a b).trans h1, ?_⟩
      intro x hx
      rcases List.mem_cons.mp hx with rfl | hx
      · exact (le_max_right a x).trans h1
      · exact h2 x hx
  exact (key _ 0).2 _ (List.mem_map.mpr ⟨p, hp, rfl⟩)

/-- **C122, layout.** The report is aligned if the time of the last timer is not written longer than that of another one.
-/
theorem report_aligned (text : Timer → List Char)
    (h : ∃ t, t ≠ .debugThree ∧ (text .debugThree).length ≤ (text t).length) : Aligned text (report text) := by
  have hall : ∀ p ∈ timerNames, (text p.1).length ≤ padding text := by
    intro p hp
    by_cases hd : p ∈ timerNames.dropLast
    · exact padding_ge text p hd
    · obtain ⟨t, ht, hl⟩ := h
      have hp' : p = (.debugThree, "debug_three") := by
        have hs : timerNames = timerNames.dropLast ++ [(.debugThree, "debug_three")] := by decide
        rw [hs] at hp
        rcases List.mem_append.mp hp with hp | hp
        · exact absurd hp hd
        · simpa using hp
      have : ∃ s, (t, s) ∈ timerNames.dropLast := by
        cases t <;> first | exact absurd rfl ht | simp [timerNames]
      obtain ⟨s, hs⟩ := this
      rw [hp']
      exact hl.trans (padding_ge text _ hs)
  refine ⟨by simp [report], padding text, ?_⟩
  intro i hi hi'
  refine ⟨padded (padding text) (text (timerNames[i]).1), by simp [report], ?_, ?_⟩
  · have := hall _ (List.getElem_mem hi')
    simp [padded]
    omega
  · exact List.prefix_append _ _

private theorem fmtNat_pos (n : ℕ) : 1 ≤ (fmtNat n).length := by
  unfold fmtNat
  split
  · simp
  · rename_i h
    rw [List.length_map, List.length_reverse]
    exact List.length_pos_iff.mpr fun h' => h (Nat.digits_eq_nil_iff_eq_zero.mp h')

private theorem fmtFixed_ge (z : ℤ) : 8 ≤ (fmtFixed z).length := by
  have := fmtNat_pos (z.natAbs / 1000000)
  simp [fmtFixed]
  omega

/-- The renderer never calls the last timer, so its reports are aligned, whatever the times are. -/
theorem report_of_run (fl : ℚ → ℚ) (micro : ℚ → ℤ) (h0 : micro 0 = 0) (h : List (Ev ℚ)) (c : Clocker ℚ)
    (hr : Clocker.init.run fl h = .ok c) (hd : ∀ e ∈ h, e.timer ≠ .debugThree) :
    Aligned (fun t => fmtFixed (micro (c.times t))) (report fun t => fmtFixed (micro (c.times t))) := by
  apply report_aligned
  refine ⟨.api, by decide, ?_⟩
  obtain ⟨d, hd', hs⟩ := run_only fl .debugThree h (c := Clocker.init) (d := Clocker.init) ⟨rfl, rfl, rfl⟩ hr
  rw [show only Timer.debugThree h = [] by simpa [only, List.filter_eq_nil_iff] using hd] at hd'
  cases hd'
  have : c.times .debugThree = 0 := hs.1
  rw [this, h0]
  exact le_trans (by decide) (fmtFixed_ge _)

/-- A longer number in the last line sticks out. -/
theorem report_misaligned_refuted (text : Timer → List Char)
    (h : ∀ t, t ≠ .debugThree → (text t).length < (text .debugThree).length) : ¬ Aligned text (report text) := by
  rintro ⟨-, w, hw⟩
  have hpad : padding text < (text .debugThree).length := by
    unfold padding
    have key : ∀ (l : List ℕ) (a b : ℕ), a < b → (∀ x ∈ l, x < b) → l.foldl max a < b := by
      intro l
      induction l with
      | nil => intro a b h _; exact h
      | cons x l ih =>
        intro a b h1 h2
        exact ih _ _ (max_lt h1 (h2 x (by simp))) fun y hy => h2 y (List.mem_cons_of_mem _ hy)
    refine key _ 0 _ (lt_of_le_of_lt (Nat.zero_le _) (h .api (by decide))) ?_
    intro x hx
    obtain ⟨p, hp, rfl⟩ := List.mem_map.mp hx
    refine h p.1 ?_
    intro hp'
    have : ∀ p ∈ timerNames.dropLast, p.1 ≠ Timer.debugThree := by decide
    exact this p hp hp'
  obtain ⟨col, h1, h2, -⟩ := hw 0 (by simp [report, timerNames]) (by simp [timerNames])
  obtain ⟨col', h1', h2', h3'⟩ := hw 23 (by simp [report, timerNames]) (by simp [timerNames])
  have e1 := congrArg List.length h1
  have hl : text Timer.debugThree <+: col' := h3'
  have hl' := hl.length_le
  have ha := padding_ge text (.api, "api") (by simp [timerNames])
  simp [report, timerNames, padded] at e1 ha
  omega

end Feign.Tools
