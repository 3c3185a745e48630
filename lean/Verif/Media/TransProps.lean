import Verif.Media.Model
import Mathlib.Analysis.SpecialFunctions.Log.Basic
import Mathlib.Tactic.Linarith
import Mathlib.Tactic.Ring
import Mathlib.Tactic.FieldSimp
import Mathlib.Tactic.NormNum
import Mathlib.Tactic.Positivity
import Mathlib.Tactic.IntervalCases
import Mathlib.Algebra.Order.Floor.Semiring
import Mathlib.Algebra.Order.Archimedean.Basic

/-!
# C43, C44, C46: densities and transmittance
-/

set_option linter.unusedSectionVars false

namespace Feign.Media

/-- Every channel satisfies `p`. -/
def All (p : ℝ → Prop) (v : V3 ℝ) : Prop := p v.x ∧ p v.y ∧ p v.z

/-! ## C43 -/

theorem escape_range (bound : ℝ) (c : C3 ℝ) (k : ℕ) (val : C3 ℝ) (m : Int) :
    m ≤ escape bound c k val m ∧ escape bound c k val m ≤ m + k := by
  induction k generalizing val m with
  | zero => simp [escape]
  | succ k ih =>
    rw [escape]
    split_ifs with h
    · have := ih ((val.mul val).add c) (m + 1)
      push_cast
      constructor <;> omega
    · push_cast
      constructor <;> omega

theorem escape_start (bound : ℝ) (hb : 0 ≤ bound) (c : C3 ℝ) (k : ℕ) :
    0 ≤ escape bound c (k + 1) ⟨0, 0, 0⟩ (-1) ∧ escape bound c (k + 1) ⟨0, 0, 0⟩ (-1) ≤ k := by
  rw [escape, if_pos (by simpa [C3.norm] using hb)]
  have := escape_range bound c k ((C3.mul ⟨0, 0, 0⟩ ⟨0, 0, 0⟩).add c) (-1 + 1)
  constructor <;> omega

/-- C43: the density is at most the maximum reported, in every channel and at every point: constant densities always,
sphere densities when they are not negative. -/
theorem density_le_max (d : Density) (sigma_t p : V3 ℝ)
    (hd : ∀ density radius, d = .sphere density radius → All (fun c => 0 ≤ c) density) (mx : ℝ)
    (h : d.maxDensity sigma_t = .ok mx) : All (fun c => c ≤ mx) (d.D sigma_t p) := by
  cases d with
  | constant density =>
    cases h
    exact ⟨le_max_left _ _, (le_max_left _ _).trans (le_max_right _ _), (le_max_right _ _).trans (le_max_right _ _)⟩
  | sphere density radius =>
    cases h
    have h0 := (hd _ _ rfl).1
    simp only [Density.D]
    split_ifs
    · exact ⟨le_max_left _ _, le_max_left _ _, le_max_left _ _⟩
    · have : 0 ≤ max density.x (max density.y density.z) := h0.trans (le_max_left _ _)
      exact ⟨this, this, this⟩
  | mandelbrot m => cases h

/-- C43, the Mandelbrot density: it reports no maximum (the call throws), and its values are between 0 and 1 whatever
maximum it was given. -/
theorem mandelbrot_range (m sigma_t p : V3 ℝ) :
    ((Density.mandelbrot m).maxDensity sigma_t).isThrow = true ∧
    All (fun c => 0 ≤ c ∧ c ≤ 1) ((Density.mandelbrot m).D sigma_t p) := by
  refine ⟨rfl, ?_⟩
  have key : ∀ (b : ℝ) (c : C3 ℝ), 0 ≤ b → 0 ≤ ((escape b c 1001 ⟨0, 0, 0⟩ (-1) : Int) : ℝ) / 1000 ∧
      ((escape b c 1001 ⟨0, 0, 0⟩ (-1) : Int) : ℝ) / 1000 ≤ 1 := by
    intro b c hb
    obtain ⟨h0, h1⟩ := escape_start b hb c 1000
    have h0' : (0 : ℝ) ≤ ((escape b c 1001 ⟨0, 0, 0⟩ (-1) : Int) : ℝ) := by exact_mod_cast h0
    have h1' : ((escape b c 1001 ⟨0, 0, 0⟩ (-1) : Int) : ℝ) ≤ 1000 := by exact_mod_cast h1
    constructor
    · positivity
    · linarith
  exact ⟨key _ _ (by norm_num), key _ _ (by norm_num), key _ _ (by norm_num)⟩

example : All (fun c => c ≤ 6) ((Density.constant ⟨1, 2, 3⟩).D ⟨1, 1, 2⟩ 0) :=
  density_le_max _ _ _ (by intro _ _ h; cases h) _ (by norm_num [Density.maxDensity])

/-- C43 fails for a sphere of negative density, where the density outside, zero, is above the maximum reported. -/
theorem density_negative_refuted :
    ∃ (d : Density) (p : V3 ℝ) (mx : ℝ), d.maxDensity 0 = .ok mx ∧ mx < (d.D 0 p).x := by
  refine ⟨.sphere ⟨-1, -1, -1⟩ 1, ⟨2, 0, 0⟩, -1, by simp [Density.maxDensity], ?_⟩
  norm_num [Density.D, V3.sqrNorm, grey]

/-- C43 fails for what the estimators and samplers actually compare with a majorant: they multiply the density by the
extinction coefficient once more, and that product exceeds the maximum reported. -/
theorem extinction_exceeds_max_refuted :
    ∃ (d : Density) (sigma_t p : V3 ℝ) (mx : ℝ), d.maxDensity sigma_t = .ok mx ∧ mx < (d.D sigma_t p * sigma_t).x := by
  refine ⟨.constant ⟨1, 1, 1⟩, ⟨2, 2, 2⟩, 0, 2, by norm_num [Density.maxDensity], ?_⟩
  norm_num [Density.D]

/-! ## C44 -/

/-- A number between 0 and 1. -/
def Unit01 (c : ℝ) : Prop := 0 ≤ c ∧ c ≤ 1

theorem Unit01.mul {a b : ℝ} (ha : Unit01 a) (hb : Unit01 b) : Unit01 (a * b) :=
  ⟨mul_nonneg ha.1 hb.1, mul_le_one₀ ha.2 hb.1 hb.2⟩

theorem All.mul {a b : V3 ℝ} (ha : All Unit01 a) (hb : All Unit01 b) : All Unit01 (a * b) :=
  ⟨ha.1.mul hb.1, ha.2.1.mul hb.2.1, ha.2.2.mul hb.2.2⟩

theorem unit_one : All Unit01 (grey 1) := by simp [All, Unit01, grey]

/-- One channel of the factor of ratio tracking. -/
noncomputable def ratio (maj e : ℝ) : ℝ := (maj - if e < maj then e else maj) / maj

theorem ratio_eq (maj e : ℝ) : ratio maj e = (maj - min e maj) / maj := by
  unfold ratio
  split_ifs with h
  · rw [min_eq_left h.le]
  · rw [min_eq_right (not_lt.1 h)]

theorem factor_eq (maj : ℝ) (e : V3 ℝ) :
    divS (grey maj - e.minS maj) maj = ⟨ratio maj e.x, ratio maj e.y, ratio maj e.z⟩ := rfl

theorem ratio_range (maj e : ℝ) (he : 0 ≤ e) : Unit01 (ratio maj e) := by
  unfold ratio Unit01
  split_ifs with h
  · have hp : 0 < maj := lt_of_le_of_lt he h
    constructor
    · exact div_nonneg (by linarith) hp.le
    · rw [div_le_one hp]; linarith
  · simp

theorem ratio_zero (maj : ℝ) (h : 0 < maj) : ratio maj 0 = 1 := by
  rw [ratio, if_pos h, sub_zero, div_self h.ne']

theorem ratioLoop_range (maj tMax : ℝ) (ext : ℝ → V3 ℝ) (hext : ∀ t, All (fun c => 0 ≤ c) (ext t)) (us : List ℝ)
    (t : ℝ) (tr v : V3 ℝ) (htr : All Unit01 tr) (h : ratioLoop maj tMax ext us t tr = some v) : All Unit01 v := by
  induction us generalizing t tr with
  | nil => simp [ratioLoop] at h
  | cons u us ih =>
    rw [ratioLoop] at h
    split at h
    · cases h
    · cases h; exact htr
    · rename_i t' ht'
      split_ifs at h with hge
      · cases h; exact htr
      · refine ih _ _ (htr.mul ?_) h
        rw [factor_eq]
        obtain ⟨hx, hy, hz⟩ := hext t'
        exact ⟨ratio_range _ _ hx, ratio_range _ _ hy, ratio_range _ _ hz⟩

/-- The steps of the walk go forward for a positive majorant and backward for a negative one. -/
theorem flight_dir {maj t u : ℝ} (hu : 0 ≤ u) (hu1 : u < 1) {t' : ℝ} (h : flight maj t u = some (t' : WithTop ℝ)) :
    maj ≠ 0 ∧ t' = t - Real.log (1 - u) / maj ∧ (0 < maj → t ≤ t') ∧ (maj < 0 → t' ≤ t) := by
  unfold flight at h
  have hlog : Real.log (1 - u) ≤ 0 := Real.log_nonpos (by linarith) (by linarith)
  split_ifs at h with h1 h2
  · simp at h
  · have h' : t - Real.log (1 - u) / maj = t' := by
      have := Option.some.inj h
      exact_mod_cast this
    refine ⟨h1, h'.symm, fun hp => ?_, fun hn => ?_⟩
    · have := div_nonpos_of_nonpos_of_nonneg hlog hp.le
      linarith
    · have := div_nonneg_of_nonpos hlog hn.le
      linarith

/-- With a negative majorant the walk moves backward and does not return once it is before the end. -/
theorem ratioLoop_negative (maj tMax : ℝ) (hm : maj < 0) (ext : ℝ → V3 ℝ) (us : List ℝ)
    (hus : ∀ u ∈ us, 0 ≤ u ∧ u < 1) (t : ℝ) (ht : t < tMax) (tr : V3 ℝ) : ratioLoop maj tMax ext us t tr = none := by
  induction us generalizing t tr with
  | nil => rfl
  | cons u us ih =>
    have hu := hus u (by simp)
    have hf : flight maj t u = some ((t - Real.log (1 - u) / maj : ℝ) : WithTop ℝ) := by
      rw [flight, if_neg hm.ne]
    have hle := (flight_dir hu.1 hu.2 hf).2.2.2 hm
    have hlt : t - Real.log (1 - u) / maj < tMax := lt_of_le_of_lt hle ht
    rw [ratioLoop, hf]
    show (if t - Real.log (1 - u) / maj ≥ tMax then some tr else _) = none
    rw [if_neg (not_le.2 hlt)]
    exact ih (fun w hw => hus w (by simp [hw])) _ hlt _

theorem ratioLoop_vacuum (maj tMax : ℝ) (us : List ℝ) (hus : ∀ u ∈ us, 0 ≤ u ∧ u < 1) (t : ℝ) (tr v : V3 ℝ)
    (h : ratioLoop maj tMax (fun _ => 0) us t tr = some v) : v = tr := by
  induction us generalizing t tr with
  | nil => simp [ratioLoop] at h
  | cons u us ih =>
    have hu := hus u (by simp)
    have hus' : ∀ w ∈ us, 0 ≤ w ∧ w < 1 := fun w hw => hus w (by simp [hw])
    rw [ratioLoop] at h
    split at h
    · cases h
    · cases h; rfl
    · rename_i t' ht'
      split_ifs at h with hge
      · cases h; rfl
      · have hm := (flight_dir hu.1 hu.2 ht').1
        rcases lt_or_gt_of_ne hm with hneg | hpos
        · rw [ratioLoop_negative maj tMax hneg _ us hus' t' (not_le.1 hge)] at h
          cases h
        · have := ih hus' _ _ h
          rw [this, factor_eq]
          simp only [V3.zero_x, V3.zero_y, V3.zero_z, ratio_zero maj hpos]
          ext <;> simp

theorem marchLoop_nonneg (step_size tMax samp : ℝ) (ext : ℝ → V3 ℝ) (hext : ∀ t, All (fun c => 0 ≤ c) (ext t)) (n : ℕ)
    (t : ℝ) (od v : V3 ℝ) (hod : All (fun c => 0 ≤ c) od) (h : marchLoop step_size tMax samp ext n t od = some v) :
    All (fun c => 0 ≤ c) v := by
  induction n generalizing t od with
  | zero => cases h
  | succ n ih =>
    rw [marchLoop] at h
    split_ifs at h with hlt
    · refine ih _ _ ?_ h
      obtain ⟨a, b, c⟩ := hext (t + min step_size (tMax - t) * samp)
      exact ⟨add_nonneg hod.1 a, add_nonneg hod.2.1 b, add_nonneg hod.2.2 c⟩
    · cases h; exact hod

theorem marchLoop_vacuum (step_size tMax samp : ℝ) (n : ℕ) (t : ℝ) (od v : V3 ℝ)
    (h : marchLoop step_size tMax samp (fun _ => 0) n t od = some v) : v = od := by
  induction n generalizing t od with
  | zero => cases h
  | succ n ih =>
    rw [marchLoop] at h
    split_ifs at h with hlt
    · have := ih _ _ h
      rw [this]
      ext <;> simp
    · cases h; rfl

theorem exp_unit {c : ℝ} (h : c ≤ 0) : Unit01 (Real.exp c) := ⟨(Real.exp_pos c).le, Real.exp_le_one_iff.2 h⟩

/-- C44: whatever the estimator, its majorant or step size and the random numbers, a transmittance that is returned
lies between 0 and 1 in every channel, and is exactly 1 in a vacuum. -/
theorem transmittance_range (e : Estimator) (D : ℝ → V3 ℝ) (hD : ∀ t, All (fun c => 0 ≤ c) (D t)) (sigma_t : V3 ℝ)
    (hs : All (fun c => 0 ≤ c) sigma_t) (tMin tMax : ℝ) (ht : tMin ≤ tMax) (us : List ℝ)
    (hus : ∀ u ∈ us, 0 ≤ u ∧ u < 1) (fuel : ℕ) (v : V3 ℝ)
    (h : transmittance e D sigma_t tMin tMax us fuel = .ok (some v)) :
    All Unit01 v ∧ ((∀ t, D t = 0) → v = grey 1) := by
  have hext : ∀ t, All (fun c => 0 ≤ c) (D t * sigma_t) := fun t =>
    ⟨mul_nonneg (hD t).1 hs.1, mul_nonneg (hD t).2.1 hs.2.1, mul_nonneg (hD t).2.2 hs.2.2⟩
  have hvac : (∀ t, D t = 0) → (fun t => D t * sigma_t) = fun _ => 0 := by
    intro h0; funext t; rw [h0]; ext <;> simp
  cases e with
  | homogenous =>
    simp only [transmittance, Res.ok.injEq, Option.some.injEq] at h
    subst h
    constructor
    · obtain ⟨a, b, c⟩ := hD ((tMax - tMin) / 2 + tMin)
      have hn : -(tMax - tMin) ≤ 0 := by linarith
      exact ⟨exp_unit (mul_nonpos_of_nonneg_of_nonpos a hn), exp_unit (mul_nonpos_of_nonneg_of_nonpos b hn),
        exp_unit (mul_nonpos_of_nonneg_of_nonpos c hn)⟩
    · intro h0
      rw [h0]
      ext <;> simp [expV, grey]
  | deltaTracking => cases h
  | pseriesCMF => cases h
  | ratioTracking maj =>
    simp only [transmittance, Res.ok.injEq] at h
    refine ⟨ratioLoop_range maj tMax _ hext us tMin _ v unit_one h, fun h0 => ?_⟩
    rw [hvac h0] at h
    exact ratioLoop_vacuum maj tMax us hus tMin _ v h
  | rayMarching step_size =>
    cases us with
    | nil => simp [transmittance] at h
    | cons samp us =>
      simp only [transmittance, Res.ok.injEq, Option.map_eq_some_iff] at h
      obtain ⟨od, hod, rfl⟩ := h
      constructor
      · obtain ⟨a, b, c⟩ := marchLoop_nonneg step_size tMax samp _ hext fuel tMin _ od (by simp [All, grey]) hod
        exact ⟨exp_unit (neg_nonpos.2 a), exp_unit (neg_nonpos.2 b), exp_unit (neg_nonpos.2 c)⟩
      · intro h0
        rw [hvac h0] at hod
        rw [marchLoop_vacuum _ _ _ _ _ _ _ hod]
        ext <;> simp [expV, grey]

/-! ### When the estimators return -/

/-- The distance covered by ratio tracking, in mean free paths. -/
noncomputable def covered (us : List ℝ) : ℝ := (us.map fun u => -Real.log (1 - u)).sum

/-- C44: ratio tracking with a positive majorant returns as soon as the random numbers cover the segment; it returns
only then. -/
theorem ratio_returns_iff (maj tMin tMax : ℝ) (hm : 0 < maj) (ext : ℝ → V3 ℝ) (us : List ℝ)
    (hus : ∀ u ∈ us, 0 ≤ u ∧ u < 1) (tr : V3 ℝ) :
    (ratioLoop maj tMax ext us tMin tr).isSome ↔ us ≠ [] ∧ maj * (tMax - tMin) ≤ covered us := by
  induction us generalizing tMin tr with
  | nil => simp [ratioLoop]
  | cons u us ih =>
    have hu := hus u (by simp)
    have hus' : ∀ w ∈ us, 0 ≤ w ∧ w < 1 := fun w hw => hus w (by simp [hw])
    have hf : flight maj tMin u = some ((tMin - Real.log (1 - u) / maj : ℝ) : WithTop ℝ) := by
      rw [flight, if_neg hm.ne']
    have hcov : 0 ≤ covered us := by
      apply List.sum_nonneg
      intro x hx
      obtain ⟨w, hw, rfl⟩ := List.mem_map.1 hx
      have := hus' w hw
      have := Real.log_nonpos (by linarith : (0 : ℝ) ≤ 1 - w) (by linarith)
      linarith
    have hc : covered (u :: us) = -Real.log (1 - u) + covered us := by simp [covered]
    have hmul : maj * (Real.log (1 - u) / maj) = Real.log (1 - u) := by field_simp
    rw [ratioLoop, hf]
    show (if tMin - Real.log (1 - u) / maj ≥ tMax then some tr else
      ratioLoop maj tMax ext us (tMin - Real.log (1 - u) / maj) _).isSome ↔ _
    split_ifs with h
    · simp only [Option.isSome_some, ne_eq, reduceCtorEq, not_false_eq_true, true_and, true_iff, hc]
      have : maj * tMax ≤ maj * (tMin - Real.log (1 - u) / maj) := mul_le_mul_of_nonneg_left h hm.le
      rw [mul_sub, hmul] at this
      linarith
    · rw [ih _ hus', hc]
      have hlt : maj * (tMin - Real.log (1 - u) / maj) < maj * tMax := mul_lt_mul_of_pos_left (not_le.1 h) hm
      rw [mul_sub, hmul] at hlt
      have e : maj * (tMax - (tMin - Real.log (1 - u) / maj)) = maj * (tMax - tMin) + Real.log (1 - u) := by
        rw [mul_sub, mul_sub maj tMin, hmul]; ring
      rw [e]
      constructor
      · rintro ⟨-, h2⟩
        exact ⟨by simp, by linarith⟩
      · rintro ⟨-, h2⟩
        refine ⟨?_, by linarith⟩
        rintro rfl
        simp [covered] at h2
        linarith

/-- C44 fails: with a negative majorant ratio tracking never returns, whatever the random numbers. -/
theorem ratio_negative_majorant_refuted (maj tMin tMax : ℝ) (hm : maj < 0) (ht : tMin < tMax) (D : ℝ → V3 ℝ)
    (sigma_t : V3 ℝ) (us : List ℝ) (hus : ∀ u ∈ us, 0 ≤ u ∧ u < 1) (fuel : ℕ) :
    transmittance (.ratioTracking maj) D sigma_t tMin tMax us fuel = .ok none := by
  simp only [transmittance, ratioLoop_negative maj tMax hm _ us hus tMin ht]

/-- C44 fails: with a majorant of zero ratio tracking returns 1 at once, unless the random number is zero: then the
distance is not a number and the call never returns, even in a vacuum. -/
theorem ratio_zero_majorant_refuted (tMin tMax : ℝ) (D : ℝ → V3 ℝ) (sigma_t : V3 ℝ) (u : ℝ) (us : List ℝ) (fuel : ℕ) :
    transmittance (.ratioTracking 0) D sigma_t tMin tMax (u :: us) fuel =
      .ok (if u = 0 then none else some (grey 1)) := by
  by_cases h : u = 0 <;> simp [transmittance, ratioLoop, flight, h]

/-- C44: ray marching with a positive step returns, after one visit per started step. -/
theorem marchLoop_returns (step_size tMax samp : ℝ) (ext : ℝ → V3 ℝ) (n : ℕ) (t : ℝ) (od : V3 ℝ)
    (h : tMax - t ≤ n * step_size) : (marchLoop step_size tMax samp ext (n + 1) t od).isSome := by
  induction n generalizing t od with
  | zero =>
    rw [marchLoop, if_neg (by simp at h; linarith)]
    rfl
  | succ n ih =>
    rw [marchLoop]
    split_ifs with hlt
    · apply ih
      push_cast at h
      linarith
    · rfl

theorem march_returns (step_size : ℝ) (hs : 0 < step_size) (D : ℝ → V3 ℝ) (sigma_t : V3 ℝ) (tMin tMax : ℝ)
    (samp : ℝ) (us : List ℝ) :
    ∃ fuel v, transmittance (.rayMarching step_size) D sigma_t tMin tMax (samp :: us) fuel = .ok (some v) := by
  obtain ⟨n, hn⟩ := exists_nat_ge ((tMax - tMin) / step_size)
  have hle : tMax - tMin ≤ n * step_size := by rwa [div_le_iff₀ hs] at hn
  have := marchLoop_returns step_size tMax samp (fun t => D t * sigma_t) n tMin (grey 0) hle
  obtain ⟨v, hv⟩ := Option.isSome_iff_exists.1 this
  exact ⟨n + 1, expV (-v), by simp only [transmittance, hv]; rfl⟩

/-- C44 fails: with a step size of zero or less ray marching never returns. -/
theorem march_stuck_refuted (step_size tMax samp : ℝ) (hs : step_size ≤ 0) (ext : ℝ → V3 ℝ) (n : ℕ) (t : ℝ)
    (ht : t < tMax) (od : V3 ℝ) : marchLoop step_size tMax samp ext n t od = none := by
  induction n generalizing t od with
  | zero => rfl
  | succ n ih =>
    rw [marchLoop, if_pos ht]
    exact ih _ (by linarith) _

example : ∃ fuel v, transmittance (.rayMarching 1) (fun _ => grey 2) (grey 1) 0 3 [1 / 2] fuel = .ok (some v) :=
  march_returns 1 one_pos _ _ _ _ _ _

/-! ## C46 -/

/-- The homogeneous estimator in a medium of constant density. -/
noncomputable def homoTr (density sigma_t : V3 ℝ) (tMin tMax : ℝ) : V3 ℝ :=
  expV ((density * sigma_t).smul (-(tMax - tMin)))

theorem homo_eq (density sigma_t : V3 ℝ) (point : ℝ → V3 ℝ) (tMin tMax : ℝ) (us : List ℝ) (fuel : ℕ) :
    transmittance .homogenous (fun t => (Density.constant density).D sigma_t (point t)) sigma_t tMin tMax us fuel =
      .ok (some (homoTr density sigma_t tMin tMax)) := rfl

/-- C46: in a medium of constant density the homogeneous estimator follows the Beer–Lambert law with extinction
`density * sigma_t`; it multiplies along a segment and does not grow with length. -/
theorem homogeneous (density sigma_t : V3 ℝ) (point : ℝ → V3 ℝ) :
    ∃ tr : ℝ → ℝ → V3 ℝ,
      (∀ a b us fuel, transmittance .homogenous (fun t => (Density.constant density).D sigma_t (point t)) sigma_t
        a b us fuel = .ok (some (tr a b))) ∧
      (∀ a b, tr a b = ⟨Real.exp (-(density.x * sigma_t.x * (b - a))), Real.exp (-(density.y * sigma_t.y * (b - a))),
        Real.exp (-(density.z * sigma_t.z * (b - a)))⟩) ∧
      (∀ a b c, tr a c = tr a b * tr b c) ∧
      (All (fun c => 0 ≤ c) density → All (fun c => 0 ≤ c) sigma_t → ∀ a b c, b ≤ c → (tr a c).le (tr a b)) := by
  refine ⟨homoTr density sigma_t, fun a b us fuel => rfl, ?_, ?_, ?_⟩
  · intro a b
    ext <;> simp [homoTr, expV] <;> ring
  · intro a b c
    ext <;> simp only [homoTr, expV, V3.mul_x, V3.mul_y, V3.mul_z, V3.smul_x, V3.smul_y, V3.smul_z, ← Real.exp_add] <;>
      congr 1 <;> ring
  · intro hd hs a b c hbc
    have key : ∀ k : ℝ, 0 ≤ k → Real.exp (k * -(c - a)) ≤ Real.exp (k * -(b - a)) := by
      intro k hk
      apply Real.exp_le_exp.2
      nlinarith
    exact ⟨key _ (mul_nonneg hd.1 hs.1), key _ (mul_nonneg hd.2.1 hs.2.1), key _ (mul_nonneg hd.2.2 hs.2.2)⟩

/-- What ray marching computes for a constant density: the number of steps times the extinction, without the length
of a step, and with `sigma_t` squared. -/
theorem marchLoop_constant (step_size tMax samp : ℝ) (e : V3 ℝ) (n : ℕ) (t : ℝ) (od : V3 ℝ)
    (h1 : t + n * step_size ≥ tMax) (h0 : ∀ k : ℕ, k < n → t + k * step_size < tMax) :
    marchLoop step_size tMax samp (fun _ => e) (n + 1) t od = some (od + e.smul n) := by
  induction n generalizing t od with
  | zero =>
    rw [marchLoop, if_neg (by simp at h1; linarith)]
    congr 1
    ext <;> simp
  | succ n ih =>
    rw [marchLoop, if_pos (by simpa using h0 0 (by omega))]
    rw [ih _ _ (by push_cast at h1; linarith) (fun k hk => by
      have := h0 (k + 1) (by omega)
      push_cast at this; linarith)]
    congr 1
    ext <;> simp <;> ring

/-- C46 fails for ray marching: through one unit of a grey medium of extinction 1 it computes `exp(-1)` with one step
and `exp(-2)` with two. -/
theorem march_step_refuted :
    (∃ fuel, transmittance (.rayMarching 1) (fun _ => grey 1) (grey 1) 0 1 [0] fuel =
      .ok (some (grey (Real.exp (-1))))) ∧
    ∃ fuel, transmittance (.rayMarching (1 / 2)) (fun _ => grey 1) (grey 1) 0 1 [0] fuel =
      .ok (some (grey (Real.exp (-2)))) := by
  have hg : (fun _ : ℝ => grey 1 * grey 1) = fun _ => grey 1 := by
    funext t; ext <;> simp [grey]
  constructor
  · refine ⟨2, ?_⟩
    simp only [transmittance, hg]
    rw [marchLoop_constant 1 1 0 (grey 1) 1 0 _ (by norm_num) (by
      intro k hk; interval_cases k; norm_num)]
    simp [expV, grey]
  · refine ⟨3, ?_⟩
    simp only [transmittance, hg]
    rw [marchLoop_constant (1 / 2) 1 0 (grey 1) 2 0 _ (by norm_num) (by
      intro k hk; interval_cases k <;> norm_num)]
    simp [expV, grey]

/-- C46 fails for ratio tracking and ray marching: in a medium of density 1 and extinction coefficient 2 they walk
through an extinction of 4, where the homogeneous estimator uses 2. -/
theorem sigma_squared_refuted :
    (fun t : ℝ => (Density.constant (grey 1)).D (grey 2) (grey t) * grey 2) = (fun _ => grey 4) ∧
    (∃ fuel, transmittance (.rayMarching 1) (fun t => (Density.constant (grey 1)).D (grey 2) (grey t)) (grey 2) 0 1 [0]
      fuel = .ok (some (grey (Real.exp (-4))))) ∧
    transmittance .homogenous (fun t => (Density.constant (grey 1)).D (grey 2) (grey t)) (grey 2) 0 1 [] 0 =
      .ok (some (grey (Real.exp (-2)))) := by
  have hg : (fun t : ℝ => (Density.constant (grey 1)).D (grey 2) (grey t) * grey 2) = (fun _ => grey 4) := by
    funext t; ext <;> simp [grey, Density.D] <;> norm_num
  refine ⟨hg, ⟨2, ?_⟩, ?_⟩
  · simp only [transmittance, hg]
    rw [marchLoop_constant 1 1 0 (grey 4) 1 0 _ (by norm_num) (by
      intro k hk; interval_cases k; norm_num)]
    simp [expV, grey]
  · simp only [transmittance, Density.D]
    norm_num [expV, grey]

end Feign.Media
