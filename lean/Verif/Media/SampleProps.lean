import Verif.Media.TransProps
import Mathlib.MeasureTheory.Measure.Lebesgue.Basic

/-!
# C45: sampled scattering distances
-/

set_option linter.unusedSectionVars false

namespace Feign.Media

open MeasureTheory

theorem maxOp_eq (v : V3 ℝ) : v.maxOp = min (min v.x v.y) v.z := by
  unfold V3.maxOp
  dsimp only
  by_cases h1 : v.x > v.y
  · rw [if_pos h1, min_eq_right h1.le]
    by_cases h2 : v.y > v.z
    · rw [if_pos h2, min_eq_right h2.le]
    · rw [if_neg h2, min_eq_left (not_lt.1 h2)]
  · rw [if_neg h1, min_eq_left (not_lt.1 h1)]
    by_cases h2 : v.x > v.z
    · rw [if_pos h2, min_eq_right h2.le]
    · rw [if_neg h2, min_eq_left (not_lt.1 h2)]

theorem maxOp_nonneg {v : V3 ℝ} (h : All (fun c => 0 ≤ c) v) : 0 ≤ v.maxOp := by
  rw [maxOp_eq]
  exact le_min (le_min h.1 h.2.1) h.2.2

theorem lt_maxOp {v : V3 ℝ} {c : ℝ} : c < v.maxOp ↔ All (fun d => c < d) v := by
  rw [maxOp_eq, lt_min_iff, lt_min_iff, and_assoc]
  rfl

/-- What a delta tracking walk reports: a point at or after its start; and, if before the end of the segment, a point
of positive density. -/
theorem deltaLoop_spec (maj tMax : ℝ) (dense : ℝ → ℝ) (hd : ∀ t, 0 ≤ dense t) (us : List ℝ)
    (hus : ∀ u ∈ us, 0 ≤ u ∧ u < 1) (t : ℝ) (ht : 0 < maj ∨ t ≤ tMax) (r : WithTop ℝ)
    (h : deltaLoop maj tMax dense us t = some r) :
    (t : WithTop ℝ) ≤ r ∧ (r < (tMax : WithTop ℝ) → ∃ t' : ℝ, r = (t' : WithTop ℝ) ∧ 0 < dense t') := by
  induction hn : us.length using Nat.strong_induction_on generalizing us t r with
  | _ n ih =>
    cases us with
    | nil => simp [deltaLoop] at h
    | cons u us =>
      have hu := hus u (by simp)
      rw [deltaLoop] at h
      split at h
      · cases h
      · cases h
        exact ⟨le_top, fun hlt => absurd hlt (not_lt.2 le_top)⟩
      · rename_i t' ht'
        obtain ⟨hm, he, hpos, hneg⟩ := flight_dir hu.1 hu.2 ht'
        split_ifs at h with hge
        · cases h
          refine ⟨?_, fun hlt => absurd (WithTop.coe_lt_coe.1 hlt) (not_lt.2 hge)⟩
          rw [WithTop.coe_le_coe]
          rcases ht with hp | hle
          · exact hpos hp
          · linarith
        · cases us with
          | nil => cases h
          | cons v us =>
            have hv := hus v (by simp)
            have hus' : ∀ w ∈ us, 0 ≤ w ∧ w < 1 := fun w hw => hus w (by simp [hw])
            dsimp only at h
            split_ifs at h with hgt
            · cases h
              have hquot : 0 < dense t' / maj := lt_of_le_of_lt hv.1 hgt
              have hmaj : 0 < maj := by
                by_contra hcon
                have := div_nonpos_of_nonneg_of_nonpos (hd t') (not_lt.1 hcon)
                linarith
              refine ⟨by rw [WithTop.coe_le_coe]; exact hpos hmaj, fun _ => ⟨t', rfl, ?_⟩⟩
              by_contra hcon
              have h0 : dense t' = 0 := le_antisymm (not_lt.1 hcon) (hd t')
              rw [h0, zero_div] at hquot
              exact lt_irrefl _ hquot
            · have hlen : us.length < n := by rw [← hn]; simp
              obtain ⟨h1, h2⟩ := ih us.length hlen us hus' t' (Or.inr (not_le.1 hge).le) r h rfl
              refine ⟨?_, h2⟩
              rcases lt_or_gt_of_ne hm with hn' | hp'
              · -- a negative majorant: the walk is before the end and never returns
                exfalso
                have stuck : ∀ (k : ℕ) (ws : List ℝ) (s : ℝ), ws.length = k → (∀ w ∈ ws, 0 ≤ w ∧ w < 1) → s < tMax →
                    deltaLoop maj tMax dense ws s = none := by
                  intro k
                  induction k using Nat.strong_induction_on with
                  | _ k ihk =>
                    intro ws s hk hws hs
                    cases ws with
                    | nil => rfl
                    | cons w ws =>
                      have hw := hws w (by simp)
                      have hf : flight maj s w = some ((s - Real.log (1 - w) / maj : ℝ) : WithTop ℝ) := by
                        rw [flight, if_neg hn'.ne]
                      have hle := (flight_dir hw.1 hw.2 hf).2.2.2 hn'
                      rw [deltaLoop, hf]
                      show (if s - Real.log (1 - w) / maj ≥ tMax then _ else _) = none
                      rw [if_neg (by linarith)]
                      cases ws with
                      | nil => rfl
                      | cons x ws =>
                        have hx := hws x (by simp)
                        dsimp only
                        rw [if_neg (by
                          have := div_nonpos_of_nonneg_of_nonpos (hd (s - Real.log (1 - w) / maj)) hn'.le
                          linarith)]
                        exact ihk ws.length (by rw [← hk]; simp) ws _ rfl
                          (fun y hy => hws y (by simp [hy])) (by linarith)
                rw [stuck _ us t' rfl hus' (not_le.1 hge)] at h
                cases h
              · exact le_trans (by rw [WithTop.coe_le_coe]; exact hpos hp') h1

/-- What the ray marching sampler reports. -/
theorem marchSample_spec (step_size tMax samp odSamp : ℝ) (hs : 0 ≤ step_size) (ext : ℝ → V3 ℝ)
    (n : ℕ) (t : ℝ) (ht : t ≤ tMax + 1) (od : V3 ℝ) (hod : od.maxOp ≤ odSamp) (r : ℝ)
    (h : marchSample step_size tMax samp odSamp ext n t od = some r) :
    t ≤ r ∧ (r < tMax ∨ r = tMax + 1) := by
  induction n generalizing t od with
  | zero => cases h
  | succ n ih =>
    rw [marchSample] at h
    by_cases hlt : t < tMax
    · rw [if_pos hlt] at h
      dsimp only at h
      set od' := od + ext (t + min step_size (tMax - t) * samp) with hod'
      by_cases hgt : od'.maxOp > odSamp
      · rw [if_pos hgt] at h
        cases h
        have hden : 0 < od'.maxOp - od.maxOp := by linarith
        have hstep : 0 ≤ min step_size (tMax - t) := le_min hs (by linarith)
        have hfrac0 : 0 ≤ (odSamp - od.maxOp) / (od'.maxOp - od.maxOp) := div_nonneg (by linarith) hden.le
        have hfrac1 : (odSamp - od.maxOp) / (od'.maxOp - od.maxOp) < 1 := by rw [div_lt_one hden]; linarith
        rw [mul_div_assoc]
        constructor
        · have := mul_nonneg hstep hfrac0
          linarith
        · left
          rcases hstep.lt_or_eq with hpos | hzero
          · have : min step_size (tMax - t) * ((odSamp - od.maxOp) / (od'.maxOp - od.maxOp)) <
                min step_size (tMax - t) := by nlinarith
            have := min_le_right step_size (tMax - t)
            linarith
          · rw [← hzero, zero_mul, add_zero]
            exact hlt
      · rw [if_neg hgt] at h
        by_cases hnext : t + step_size ≤ tMax + 1
        · obtain ⟨h1, h2⟩ := ih _ hnext _ (not_lt.1 hgt) h
          exact ⟨by linarith, h2⟩
        · -- the next position is past the end: the call returns there
          cases n with
          | zero => cases h
          | succ n =>
            rw [marchSample, if_neg (by linarith)] at h
            cases h
            exact ⟨by linarith, Or.inr rfl⟩
    · rw [if_neg hlt] at h
      cases h
      exact ⟨ht, Or.inr rfl⟩

/-- C45: for a non-negative density and extinction coefficient and a step size that is not negative, the distance
reported by any sampler is at or after the start of the segment. -/
theorem sample_after_start_partial (s : Sampling) (D : ℝ → V3 ℝ) (hD : ∀ t, All (fun c => 0 ≤ c) (D t))
    (sigma_t : V3 ℝ) (hs : All (fun c => 0 ≤ c) sigma_t) (tMin tMax : ℝ) (ht : tMin ≤ tMax)
    (hstep : ∀ h, s = .rayMarching h → 0 ≤ h) (us : List ℝ) (hus : ∀ u ∈ us, 0 ≤ u ∧ u < 1) (fuel : ℕ)
    (r : WithTop ℝ) (h : sampleT s D sigma_t tMin tMax us fuel = some r) : (tMin : WithTop ℝ) ≤ r := by
  have hext : ∀ t, All (fun c => 0 ≤ c) (D t * sigma_t) := fun t =>
    ⟨mul_nonneg (hD t).1 hs.1, mul_nonneg (hD t).2.1 hs.2.1, mul_nonneg (hD t).2.2 hs.2.2⟩
  cases s with
  | analytical =>
    cases us with
    | nil => simp [sampleT] at h
    | cons u us =>
      have hu := hus u (by simp)
      simp only [sampleT, analytic] at h
      have hd := maxOp_nonneg (hext ((tMax - tMin) / 2 + tMin))
      split_ifs at h with h1 h2 h3
      · cases h; exact le_top
      · cases h; exact le_top
      · cases h
        rw [WithTop.coe_le_coe]
        have hlog : 0 ≤ -Real.log u := by
          have := Real.log_nonpos hu.1 hu.2.le
          linarith
        have := div_nonneg hlog hd
        linarith
  | delta majorant =>
    exact (deltaLoop_spec majorant tMax _ (fun t => maxOp_nonneg (hext t)) us hus tMin (Or.inr ht) r h).1
  | rayMarching step_size =>
    match us, hus, h with
    | samp :: u :: us, hus, h =>
      replace h : (marchSample step_size tMax samp (-Real.log (1 - u)) (fun t => D t * sigma_t) fuel tMin
        (grey 0)).map (fun x : ℝ => (x : WithTop ℝ)) = some r := by
        rw [← h]
        simp only [sampleT]
        cases marchSample step_size tMax samp (-Real.log (1 - u)) (fun t => D t * sigma_t) fuel tMin (grey 0) <;> rfl
      rw [Option.map_eq_some_iff] at h
      obtain ⟨x, hx, rfl⟩ := h
      have hu := hus u (by simp)
      have ho : 0 ≤ -Real.log (1 - u) := by
        have := Real.log_nonpos (by linarith [hu.2] : (0 : ℝ) ≤ 1 - u) (by linarith [hu.1])
        linarith
      rw [WithTop.coe_le_coe]
      exact (marchSample_spec step_size tMax samp _ (hstep _ rfl) _ fuel tMin (by linarith) (grey 0)
        (by simpa [maxOp_eq, grey] using ho) x hx).1

/-- C45 fails for a negative step size, which nothing rejects: the scattering point is behind the start of the
segment. -/
theorem sample_before_start_refuted :
    ∃ fuel, ∃ r : ℝ, sampleT (.rayMarching (-1)) (fun _ => grey 1) (grey 1) 0 1 [0, 1 - Real.exp (-(1 / 2))] fuel =
      some (r : WithTop ℝ) ∧ r < 0 := by
  refine ⟨1, -(1 / 2), ?_, by norm_num⟩
  have hl : -Real.log (1 - (1 - Real.exp (-(1 / 2)))) = 1 / 2 := by
    rw [sub_sub_cancel, Real.log_exp, neg_neg]
  have e1 : (grey 0 : V3 ℝ).maxOp = 0 := by simp [maxOp_eq, grey]
  have e2 : (grey 0 + grey 1 * grey 1 : V3 ℝ).maxOp = 1 := by simp [maxOp_eq, grey]
  simp only [sampleT, hl, marchSample, zero_lt_one, if_true, e1, e2]
  norm_num

/-- A scattering event happens at a point where every channel of the extinction is positive. -/
theorem scatter_extinction (s : Sampling) (D : ℝ → V3 ℝ) (hD : ∀ t, All (fun c => 0 ≤ c) (D t))
    (sigma_t : V3 ℝ) (hs : All (fun c => 0 ≤ c) sigma_t) (tMin tMax : ℝ) (ht : tMin ≤ tMax) (us : List ℝ)
    (hus : ∀ u ∈ us, 0 ≤ u ∧ u < 1) (fuel : ℕ) (r : WithTop ℝ) (h : sampleT s D sigma_t tMin tMax us fuel = some r)
    (hr : r < (tMax : WithTop ℝ)) : All (fun c => 0 < c) sigma_t := by
  have hext : ∀ t, All (fun c => 0 ≤ c) (D t * sigma_t) := fun t =>
    ⟨mul_nonneg (hD t).1 hs.1, mul_nonneg (hD t).2.1 hs.2.1, mul_nonneg (hD t).2.2 hs.2.2⟩
  have hpos : ∀ t, 0 < (D t * sigma_t).maxOp → All (fun c => 0 < c) sigma_t := by
    intro t hlt
    obtain ⟨a, b, c⟩ := lt_maxOp.1 hlt
    exact ⟨pos_of_mul_pos_right a (hD t).1, pos_of_mul_pos_right b (hD t).2.1, pos_of_mul_pos_right c (hD t).2.2⟩
  cases s with
  | analytical =>
    cases us with
    | nil => simp [sampleT] at h
    | cons u us =>
      simp only [sampleT, analytic] at h
      have hd := maxOp_nonneg (hext ((tMax - tMin) / 2 + tMin))
      split_ifs at h with h1 h2 h3
      · cases h; exact absurd hr (not_lt.2 le_top)
      · cases h; exact absurd hr (not_lt.2 le_top)
      · exact hpos _ (lt_of_le_of_ne hd (Ne.symm h1))
  | delta majorant =>
    obtain ⟨t', -, hd⟩ := (deltaLoop_spec majorant tMax _ (fun t => maxOp_nonneg (hext t)) us hus tMin (Or.inr ht) r
      h).2 hr
    exact hpos t' hd
  | rayMarching step_size =>
    match us, hus, h with
    | samp :: u :: us, hus, h =>
      replace h : (marchSample step_size tMax samp (-Real.log (1 - u)) (fun t => D t * sigma_t) fuel tMin
        (grey 0)).map (fun x : ℝ => (x : WithTop ℝ)) = some r := by
        rw [← h]
        simp only [sampleT]
        cases marchSample step_size tMax samp (-Real.log (1 - u)) (fun t => D t * sigma_t) fuel tMin (grey 0) <;> rfl
      rw [Option.map_eq_some_iff] at h
      obtain ⟨x, hx, rfl⟩ := h
      rw [WithTop.coe_lt_coe] at hr
      have hu := hus u (by simp)
      have ho : 0 ≤ -Real.log (1 - u) := by
        have := Real.log_nonpos (by linarith [hu.2] : (0 : ℝ) ≤ 1 - u) (by linarith [hu.1])
        linarith
      by_contra hcon
      -- a channel without extinction keeps the smallest optical depth at zero or below
      have key : ∀ (n : ℕ) (t : ℝ) (od : V3 ℝ),
          ((sigma_t.x = 0 ∧ od.x = 0) ∨ (sigma_t.y = 0 ∧ od.y = 0) ∨ (sigma_t.z = 0 ∧ od.z = 0)) → ∀ x,
          marchSample step_size tMax samp (-Real.log (1 - u)) (fun t => D t * sigma_t) n t od = some x →
          x = tMax + 1 := by
        intro n
        induction n with
        | zero => intro t od _ x hx; cases hx
        | succ n ih =>
          intro t od hz x hx
          rw [marchSample] at hx
          split_ifs at hx with hlt
          · dsimp only at hx
            have hz' : ((sigma_t.x = 0 ∧ (od + D (t + min step_size (tMax - t) * samp) * sigma_t).x = 0) ∨
                (sigma_t.y = 0 ∧ (od + D (t + min step_size (tMax - t) * samp) * sigma_t).y = 0) ∨
                (sigma_t.z = 0 ∧ (od + D (t + min step_size (tMax - t) * samp) * sigma_t).z = 0)) := by
              rcases hz with ⟨a, b⟩ | ⟨a, b⟩ | ⟨a, b⟩
              · left; simp [a, b]
              · right; left; simp [a, b]
              · right; right; simp [a, b]
            have hle : (od + D (t + min step_size (tMax - t) * samp) * sigma_t).maxOp ≤ 0 := by
              rw [maxOp_eq]
              rcases hz' with ⟨-, b⟩ | ⟨-, b⟩ | ⟨-, b⟩
              · exact (min_le_left _ _).trans ((min_le_left _ _).trans b.le)
              · exact (min_le_left _ _).trans ((min_le_right _ _).trans b.le)
              · exact (min_le_right _ _).trans b.le
            rw [if_neg (by linarith)] at hx
            exact ih _ _ hz' x hx
          · cases hx; rfl
      have hz : ((sigma_t.x = 0 ∧ (grey 0).x = 0) ∨ (sigma_t.y = 0 ∧ (grey 0).y = 0) ∨
          (sigma_t.z = 0 ∧ (grey 0).z = 0)) := by
        by_contra hne
        apply hcon
        refine ⟨lt_of_le_of_ne hs.1 fun e => hne ?_, lt_of_le_of_ne hs.2.1 fun e => hne ?_,
          lt_of_le_of_ne hs.2.2 fun e => hne ?_⟩
        · exact Or.inl ⟨e.symm, rfl⟩
        · exact Or.inr (Or.inl ⟨e.symm, rfl⟩)
        · exact Or.inr (Or.inr ⟨e.symm, rfl⟩)
      have := key fuel tMin (grey 0) hz x hx
      linarith

/-- C45: sampling a medium is always defined for non-negative coefficients. The weight is the single-scattering albedo
when the path scatters, white when it does not (the transmittance in a medium that only absorbs), in every case
between 0 and 1. -/
theorem sample_weight (s : Sampling) (e : Estimator) (D : ℝ → V3 ℝ) (hD : ∀ t, All (fun c => 0 ≤ c) (D t))
    (abs sca : V3 ℝ) (ha : All (fun c => 0 ≤ c) abs) (hsc : All (fun c => 0 ≤ c) sca) (tMin tMax : ℝ)
    (ht : tMin ≤ tMax) (us : List ℝ) (hus : ∀ u ∈ us, 0 ≤ u ∧ u < 1) (fuel : ℕ) :
    (sampleMedium s e D abs sca tMin tMax us fuel).isUb = false ∧
    ∀ ev, sampleMedium s e D abs sca tMin tMax us fuel = .ok (some ev) →
      All Unit01 ev.weight ∧ (sca = 0 → ¬ ev.scatters tMax) ∧
      (sca ≠ 0 → ¬ ev.scatters tMax → ev.weight = grey 1) ∧
      (ev.scatters tMax → ev.weight * (abs + sca) = sca) := by
  have hst : All (fun c => 0 ≤ c) (abs + sca) :=
    ⟨add_nonneg ha.1 hsc.1, add_nonneg ha.2.1 hsc.2.1, add_nonneg ha.2.2 hsc.2.2⟩
  unfold sampleMedium
  dsimp only
  have heq : sca.eqOp 0 = true ↔ sca = 0 := by
    simp only [V3.eqOp, Bool.and_eq_true, decide_eq_true_eq, V3.ext_iff, V3.zero_x, V3.zero_y, V3.zero_z, and_assoc]
  by_cases hb : sca.eqOp 0 = true
  · rw [if_pos hb]
    have h0 := heq.1 hb
    cases htr : transmittance e D (abs + sca) tMin tMax us fuel with
    | throw m => exact ⟨rfl, fun ev h => by cases h⟩
    | ub w =>
      exfalso
      cases e <;> simp [transmittance] at htr
      cases us <;> simp at htr
    | ok v =>
      refine ⟨rfl, fun ev hev => ?_⟩
      simp only [Res.ok.injEq, Option.map_eq_some_iff] at hev
      obtain ⟨tr, rfl, rfl⟩ := hev
      have hr := (transmittance_range e D hD _ hst tMin tMax ht us hus fuel tr htr).1
      have hn : ¬ Event.scatters tMax ⟨tr, (tMax : WithTop ℝ)⟩ := lt_irrefl _
      exact ⟨hr, fun _ => hn, fun hne => absurd h0 hne, fun h => absurd h hn⟩
  · rw [if_neg hb]
    have hne : sca ≠ 0 := fun h => hb (heq.2 h)
    cases hst' : sampleT s D (abs + sca) tMin tMax us fuel with
    | none => exact ⟨rfl, fun ev h => by cases h⟩
    | some r =>
      dsimp only
      by_cases hlt : r < (tMax : WithTop ℝ)
      · have hpos := scatter_extinction s D hD _ hst tMin tMax ht us hus fuel r hst' hlt
        obtain ⟨px, py, pz⟩ := hpos
        rw [if_pos hlt, if_neg (by rintro (h | h | h) <;> [exact px.ne' h; exact py.ne' h; exact pz.ne' h])]
        refine ⟨rfl, fun ev hev => ?_⟩
        cases hev
        refine ⟨⟨⟨div_nonneg hsc.1 px.le, ?_⟩, ⟨div_nonneg hsc.2.1 py.le, ?_⟩, ⟨div_nonneg hsc.2.2 pz.le, ?_⟩⟩,
          fun h => absurd h hne, fun _ h => absurd hlt h, fun _ => ?_⟩
        · rw [div_le_one px, V3.add_x]; linarith [ha.1]
        · rw [div_le_one py, V3.add_y]; linarith [ha.2.1]
        · rw [div_le_one pz, V3.add_z]; linarith [ha.2.2]
        · ext
          · exact div_mul_cancel₀ _ px.ne'
          · exact div_mul_cancel₀ _ py.ne'
          · exact div_mul_cancel₀ _ pz.ne'
      · rw [if_neg hlt]
        refine ⟨rfl, fun ev hev => ?_⟩
        cases hev
        exact ⟨unit_one, fun h => absurd h hne, fun _ _ => rfl, fun h => absurd h hlt⟩

/-- C45: the analytic sampler scatters within distance `x` of the start for exactly the share of random numbers that
the Beer–Lambert law asks for. -/
theorem analytic_distribution (dense tMin x : ℝ) (hd : 0 < dense) :
    volume {u : ℝ | 0 ≤ u ∧ u < 1 ∧ ∃ r : ℝ, analytic dense tMin u = some (r : WithTop ℝ) ∧ r < tMin + x} =
      ENNReal.ofReal (1 - Real.exp (-(dense * x))) := by
  have hs : {u : ℝ | 0 ≤ u ∧ u < 1 ∧ ∃ r : ℝ, analytic dense tMin u = some (r : WithTop ℝ) ∧ r < tMin + x} =
      Set.Ioo (Real.exp (-(dense * x))) 1 := by
    ext u
    simp only [Set.mem_ofPred_eq, Set.mem_Ioo, analytic, if_neg hd.ne']
    constructor
    · rintro ⟨h0, h1, r, hr, hlt⟩
      split_ifs at hr with hu
      · simp at hr
      · have hr' : tMin + -Real.log u / dense = r := by
          have := Option.some.inj hr
          exact_mod_cast this
        have hup : 0 < u := lt_of_le_of_ne h0 (Ne.symm hu)
        have h2 : -Real.log u / dense < x := by linarith
        rw [div_lt_iff₀ hd] at h2
        refine ⟨?_, h1⟩
        rw [← Real.lt_log_iff_exp_lt hup]
        linarith
    · rintro ⟨h0, h1⟩
      have hup : 0 < u := (Real.exp_pos _).trans h0
      refine ⟨hup.le, h1, tMin + -Real.log u / dense, by rw [if_neg hup.ne'], ?_⟩
      rw [← Real.lt_log_iff_exp_lt hup] at h0
      have h2 : -Real.log u / dense < x := by rw [div_lt_iff₀ hd]; linarith
      linarith
  rw [hs, Real.volume_Ioo]

example : sampleT .analytical (fun _ => grey 1) (grey 1) 0 2 [Real.exp (-1)] 0 = some ((1 : ℝ) : WithTop ℝ) := by
  have h : ((grey 1 : V3 ℝ) * grey 1).maxOp = 1 := by simp [maxOp_eq, grey]
  simp only [sampleT, h, analytic]
  rw [if_neg one_ne_zero, if_neg (Real.exp_pos _).ne', Real.log_exp]
  norm_num

/-- C45 and C46 disagree: in a medium of density 1 and extinction coefficient 2 the analytic sampler lets the light
travel as in an extinction of 4, while the homogeneous estimator attenuates it with 2. -/
theorem analytic_transmittance_refuted :
    ((Density.constant (grey 1)).D (grey 2) 0 * grey 2).maxOp = 4 ∧ homoTr (grey 1) (grey 2) 0 1 = grey (Real.exp (-2))
    := by
  constructor
  · norm_num [maxOp_eq, Density.D, grey]
  · norm_num [homoTr, expV, grey]

/-- In a coloured medium every sampler follows the channel with the smallest extinction (the vector's `max()` is a
minimum): red light that is strongly attenuated is not scattered at all if blue is not attenuated. -/
theorem colour_minimum_refuted (us : List ℝ) (u : ℝ) :
    sampleT .analytical (fun _ => ⟨100, 100, 0⟩) (grey 1) 0 1 (u :: us) 0 = some ⊤ := by
  have h : ((⟨100, 100, 0⟩ : V3 ℝ) * grey 1).maxOp = 0 := by norm_num [maxOp_eq, grey]
  simp only [sampleT, h, analytic, if_true]

end Feign.Media
