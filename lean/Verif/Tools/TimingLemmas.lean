import Verif.Tools.TimingSpec
import Mathlib.MeasureTheory.Measure.Lebesgue.Basic

/-! # Lemmas about timers -/

set_option linter.unusedSectionVars false
set_option linter.unusedSimpArgs false

namespace Feign.Tools

open Feign.Integrators (Timer)
open MeasureTheory

section
variable {K : Type} [Field K] [LinearOrder K]

/-- The calls of one timer. -/
def only (t : Timer) (h : List (Ev K)) : List (Ev K) := h.filter fun e => e.timer = t

/-- Two clockers agree about a timer. -/
def Same (t : Timer) (c d : Clocker K) : Prop := c.times t = d.times t ∧ c.starts t = d.starts t ∧ c.active t = d.active t

theorem step_same (fl : K → K) {t : Timer} {c d : Clocker K} (h : Same t c d) {e : Ev K} (he : e.timer = t)
    {c' : Clocker K} (hc : c.step fl e = .ok c') : ∃ d', d.step fl e = .ok d' ∧ Same t c' d' := by
  obtain ⟨h1, h2, h3⟩ := h
  cases e with
  | start s now =>
    obtain rfl : s = t := he
    simp only [Clocker.step, Clocker.start] at hc ⊢
    rw [← h3]
    split at hc
    · cases hc
    · rename_i ha
      cases hc
      refine ⟨_, if_neg ha, ?_⟩
      simp [Same, h1]
  | stop s now =>
    obtain rfl : s = t := he
    simp only [Clocker.step, Clocker.stop] at hc ⊢
    rw [← h3]
    split at hc
    · rename_i ha
      cases hc
      refine ⟨_, if_pos ha, ?_⟩
      simp [Same, h1, h2]
    · cases hc

theorem step_other (fl : K → K) {t : Timer} {c : Clocker K} {e : Ev K} (he : e.timer ≠ t)
    {c' : Clocker K} (hc : c.step fl e = .ok c') : Same t c c' := by
  cases e with
  | start s now =>
    have hs : t ≠ s := fun h => he h.symm
    simp only [Clocker.step, Clocker.start] at hc
    split at hc
    · cases hc
    · cases hc
      simp [Same, Function.update_of_ne hs]
  | stop s now =>
    have hs : t ≠ s := fun h => he h.symm
    simp only [Clocker.step, Clocker.stop] at hc
    split at hc
    · cases hc
      simp [Same, Function.update_of_ne hs]
    · cases hc

theorem Same.trans {t : Timer} {a b c : Clocker K} (h : Same t a b) (h' : Same t b c) : Same t a c :=
  ⟨h.1.trans h'.1, h.2.1.trans h'.2.1, h.2.2.trans h'.2.2⟩

theorem Same.symm {t : Timer} {a b : Clocker K} (h : Same t a b) : Same t b a := ⟨h.1.symm, h.2.1.symm, h.2.2.symm⟩

/-- What a timer reads depends only on its own calls. -/
theorem run_only (fl : K → K) (t : Timer) (h : List (Ev K)) : ∀ {c d c' : Clocker K}, Same t c d →
    c.run fl h = .ok c' → ∃ d', d.run fl (only t h) = .ok d' ∧ Same t c' d' := by
  induction h with
  | nil =>
    intro c d c' hs hr
    cases hr
    exact ⟨d, rfl, hs⟩
  | cons e es ih =>
    intro c d c' hs hr
    simp only [Clocker.run] at hr
    obtain ⟨m, hm, hr'⟩ := Res.bind_eq_ok.mp hr
    by_cases he : e.timer = t
    · obtain ⟨m', hm', hsm⟩ := step_same fl hs he hm
      obtain ⟨d', hd', hs'⟩ := ih hsm hr'
      refine ⟨d', ?_, hs'⟩
      simp only [only, List.filter_cons, he, decide_true, if_true, Clocker.run, hm']
      exact hd'
    · obtain ⟨d', hd', hs'⟩ := ih ((step_other fl he hm).symm.trans hs) hr'
      refine ⟨d', ?_, hs'⟩
      simp only [only, List.filter_cons, he, decide_false]
      exact hd'

theorem run_append (fl : K → K) (h₁ h₂ : List (Ev K)) (c : Clocker K) :
    c.run fl (h₁ ++ h₂) = (c.run fl h₁ >>= fun c' => c'.run fl h₂) := by
  induction h₁ generalizing c with
  | nil => rfl
  | cons e es ih =>
    simp only [List.cons_append, Clocker.run]
    cases c.step fl e with
    | ok a => simpa using ih a
    | throw m => rfl
    | ub w => rfl

/-- One timed stretch. -/
theorem run_pair (fl : K → K) (t : Timer) (a b : K) {c : Clocker K} (hc : c.active t = false) :
    ∃ c', c.run fl [.start t a, .stop t b] = .ok c' ∧ c'.active t = false ∧
      c'.times t = fl (c.times t + (b - a)) := by
  simp [Clocker.run, Clocker.step, Clocker.start, Clocker.stop, hc]

/-- Several timed stretches, exactly added up. -/
theorem run_pairs (t : Timer) (qs : List (K × K)) : ∀ {c : Clocker K}, c.active t = false →
    ∃ c', c.run id (qs.flatMap fun q => [.start t q.1, .stop t q.2]) = .ok c' ∧ c'.active t = false ∧
      c'.times t = c.times t + (qs.map fun q => q.2 - q.1).sum := by
  induction qs with
  | nil =>
    intro c hc
    exact ⟨c, rfl, hc, by simp⟩
  | cons q qs ih =>
    intro c hc
    obtain ⟨c1, h1, a1, t1⟩ := run_pair id t q.1 q.2 hc
    obtain ⟨c2, h2, a2, t2⟩ := ih a1
    refine ⟨c2, ?_, a2, ?_⟩
    · rw [List.flatMap_cons, run_append, h1]
      exact h2
    · rw [t2, t1, List.map_cons, List.sum_cons, id]
      ring

end

/-! ### The set of instants at which a timer runs -/

theorem lastCall_snoc (h : List (Ev ℝ)) (e : Ev ℝ) (t : Timer) (x : ℝ) :
    lastCall (h ++ [e]) t x = if e.timer = t ∧ e.now ≤ x then some e else lastCall h t x := by
  unfold lastCall
  rw [List.filter_append]
  by_cases hx : e.timer = t ∧ e.now ≤ x
  · rw [if_pos hx, List.filter_cons_of_pos (by simpa using hx)]
    simp
  · rw [if_neg hx, List.filter_cons_of_neg (by simpa using hx)]
    simp

theorem busy_snoc (h : List (Ev ℝ)) (e : Ev ℝ) (t : Timer) :
    busy (h ++ [e]) t =
      if e.timer = t then (busy h t ∩ Set.Iio e.now) ∪ (if e.isStart then Set.Ici e.now else ∅) else busy h t := by
  ext x
  simp only [busy, Set.mem_ofPred_eq, lastCall_snoc]
  by_cases ht : e.timer = t
  · by_cases hx : e.now ≤ x
    · cases hs : e.isStart <;> simp [ht, hx, hs, not_lt.mpr hx]
    · cases hs : e.isStart <;> simp [ht, hx, hs, not_le.mp hx]
  · simp [ht]

/-- What the clocker knows about a timer after the calls `h`, at any later time `T`. -/
structure Tracks (h : List (Ev ℝ)) (c : Clocker ℝ) (t : Timer) : Prop where
  meas : MeasurableSet (busy h t)
  le : c.active t = true → ∀ T, (∀ e ∈ h, e.now ≤ T) → c.starts t ≤ T
  nonneg : 0 ≤ c.times t
  off : c.active t = false → ∀ T, (∀ e ∈ h, e.now ≤ T) → busy h t ⊆ Set.Iio T
  on : c.active t = true → ∀ T, (∀ e ∈ h, e.now ≤ T) → Set.Ici T ⊆ busy h t
  vol : ∀ T, (∀ e ∈ h, e.now ≤ T) → volume (busy h t ∩ Set.Iio T) =
    ENNReal.ofReal (c.times t + if c.active t then T - c.starts t else 0)

theorem tracks_nil (t : Timer) : Tracks [] Clocker.init t := by
  have hb : busy [] t = ∅ := by ext x; simp [busy, lastCall]
  constructor
  · rw [hb]; exact MeasurableSet.empty
  · intro h; cases h
  · exact le_rfl
  · intro _ T _; rw [hb]; exact Set.empty_subset _
  · intro h; cases h
  · intro T _; simp [hb, Clocker.init]

theorem tracks_snoc {h : List (Ev ℝ)} {c c' : Clocker ℝ} {t : Timer} {e : Ev ℝ} (H : Tracks h c t)
    (ho : ∀ a ∈ h, a.now ≤ e.now) (hc : c.step id e = .ok c') : Tracks (h ++ [e]) c' t := by
  by_cases ht : e.timer = t
  swap
  · obtain ⟨e1, e2, e3⟩ := step_other id ht hc
    have hb : busy (h ++ [e]) t = busy h t := by rw [busy_snoc, if_neg ht]
    have hT : ∀ T, (∀ a ∈ h ++ [e], a.now ≤ T) → ∀ a ∈ h, a.now ≤ T := fun T hT a ha =>
      hT a (List.mem_append_left _ ha)
    constructor
    · rw [hb]; exact H.meas
    · intro ha T hh; rw [← e2]; exact H.le (e3 ▸ ha) T (hT T hh)
    · rw [← e1]; exact H.nonneg
    · intro ha T hh; rw [hb]; exact H.off (e3 ▸ ha) T (hT T hh)
    · intro ha T hh; rw [hb]; exact H.on (e3 ▸ ha) T (hT T hh)
    · intro T hh; rw [hb, H.vol T (hT T hh), e1, e2, e3]
  · cases e with
    | start s now =>
      obtain rfl : s = t := ht
      simp only [Clocker.step, Clocker.start] at hc
      split at hc
      · cases hc
      · rename_i ha
        cases hc
        have ha' : c.active s = false := by simpa using ha
        have hb : busy (h ++ [.start s now]) s = busy h s ∪ Set.Ici now := by
          rw [busy_snoc, if_pos (show Ev.timer _ = s from rfl)]
          simp only [Ev.isStart, if_true, Ev.now]
          rw [Set.inter_eq_left.mpr (H.off ha' now ho)]
        have hT : ∀ T, (∀ a ∈ h ++ [Ev.start s now], a.now ≤ T) → now ≤ T := fun T hT =>
          hT (.start s now) (by simp)
        constructor
        · rw [hb]; exact H.meas.union measurableSet_Ici
        · intro _ T hh; simpa using hT T hh
        · exact H.nonneg
        · intro hf; simp at hf
        · intro _ T hh; rw [hb]; exact (Set.Ici_subset_Ici.mpr (hT T hh)).trans Set.subset_union_right
        · intro T hh
          have h1 : busy (h ++ [.start s now]) s ∩ Set.Iio T = (busy h s ∩ Set.Iio now) ∪ Set.Ico now T := by
            rw [hb]
            ext x
            constructor
            · rintro ⟨hx | hx, hx'⟩
              · exact .inl ⟨hx, H.off ha' now ho hx⟩
              · exact .inr ⟨hx, hx'⟩
            · rintro (⟨hx, hx'⟩ | ⟨hx, hx'⟩)
              · exact ⟨.inl hx, lt_of_lt_of_le hx' (hT T hh)⟩
              · exact ⟨.inr hx, hx'⟩
          have hd : Disjoint (busy h s ∩ Set.Iio now) (Set.Ico now T) :=
            Set.disjoint_left.mpr fun x hx hx' => absurd hx.2 (not_lt.mpr hx'.1)
          rw [h1, measure_union hd measurableSet_Ico, H.vol now ho, Real.volume_Ico]
          simp only [ha', Function.update_self, if_true]
          rw [if_neg (by decide), add_zero, ← ENNReal.ofReal_add H.nonneg (sub_nonneg.mpr (hT T hh))]
    | stop s now =>
      obtain rfl : s = t := ht
      simp only [Clocker.step, Clocker.stop] at hc
      split at hc
      swap
      · cases hc
      · rename_i ha
        cases hc
        have hb : busy (h ++ [.stop s now]) s = busy h s ∩ Set.Iio now := by
          rw [busy_snoc, if_pos (show Ev.timer _ = s from rfl)]
          simp [Ev.isStart, Ev.now]
        have hT : ∀ T, (∀ a ∈ h ++ [Ev.stop s now], a.now ≤ T) → now ≤ T := fun T hT =>
          hT (.stop s now) (by simp)
        have hle := H.le ha now ho
        constructor
        · rw [hb]; exact H.meas.inter measurableSet_Iio
        · intro hf; simp at hf
        · simp only [Function.update_self, id]
          have := H.nonneg
          linarith
        · intro _ T hh; rw [hb]; exact fun x hx => lt_of_lt_of_le hx.2 (hT T hh)
        · intro hf; simp at hf
        · intro T hh
          have h1 : busy (h ++ [.stop s now]) s ∩ Set.Iio T = busy h s ∩ Set.Iio now := by
            rw [hb, Set.inter_assoc, Set.inter_eq_left.mpr (Set.Iio_subset_Iio (hT T hh))]
          rw [h1, H.vol now ho, if_pos ha]
          simp

theorem tracks_run (h : List (Ev ℝ)) (ho : Ordered h) {c : Clocker ℝ}
    (hr : Clocker.init.run id h = .ok c) (t : Timer) : Tracks h c t := by
  induction h using List.reverseRecOn generalizing c with
  | nil => cases hr; exact tracks_nil t
  | append_singleton h e ih =>
    rw [run_append] at hr
    obtain ⟨m, hm, hr'⟩ := Res.bind_eq_ok.mp hr
    have hp := List.pairwise_append.mp ho
    simp only [Clocker.run] at hr'
    obtain ⟨m', hm', hr''⟩ := Res.bind_eq_ok.mp hr'
    cases hr''
    exact tracks_snoc (ih hp.1 hm) (fun a ha => hp.2.2 a ha e (by simp)) hm'

/-- The time on a stopped timer. -/
theorem Tracks.stopped {h : List (Ev ℝ)} {c : Clocker ℝ} {t : Timer} (H : Tracks h c t) (hs : c.active t = false) :
    volume (busy h t) = ENNReal.ofReal (c.times t) := by
  obtain ⟨T, hT⟩ : ∃ T, ∀ e ∈ h, e.now ≤ T := by
    clear H
    induction h with
    | nil => exact ⟨0, by simp⟩
    | cons e es ih =>
      obtain ⟨T, hT⟩ := ih
      refine ⟨max e.now T, ?_⟩
      intro a ha
      rcases List.mem_cons.mp ha with rfl | ha
      · exact le_max_left _ _
      · exact (hT a ha).trans (le_max_right _ _)
  have := H.vol T hT
  rw [Set.inter_eq_left.mpr (H.off hs T hT), hs] at this
  simpa using this

end Feign.Tools
