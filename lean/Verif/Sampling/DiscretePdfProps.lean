import Verif.Sampling.DiscretePdfLemmas
import Mathlib.Data.Rat.Floor
import Mathlib.Tactic.NormNum

/-!
# C06 (area-weighted triangle selection), C07 (overloads agree), C08 (reused random numbers)

The table built from the triangle areas is right (`area_table_correct`). The search on it is not: line 76
of `src/math/discrete_pdf.cpp` returns the table entry converted to `int` instead of the index, and every
overload goes through that line. So every random number selects triangle 0.
-/

set_option linter.unusedSectionVars false

set_option linter.unusedSimpArgs false

namespace Feign.Sampling

variable {K : Type} [Field K] [LinearOrder K] [IsStrictOrderedRing K] [FloorRing K]

/-- **C06, table.** For non-negative areas with positive sum the table goes from 0 to 1 monotonically,
entry `i` has probability `area i / total`, and every `u ∈ [0,1)` lies in the interval of exactly one
entry, which has positive probability. -/
theorem area_table_correct (areas : List K) (hnn : ∀ a ∈ areas, 0 ≤ a) (hs : 0 < areas.sum) :
    ∃ cdf, areaTable areas = .ok cdf ∧ ∃ hlen : cdf.length = areas.length + 1,
      cdf[0]'(by omega) = 0 ∧ cdf[areas.length]'(by omega) = 1 ∧
      (∀ i j (hij : i ≤ j) (hj : j < cdf.length), cdf[i] ≤ cdf[j]) ∧
      (∀ i (hi : i < areas.length), pmfAt cdf i = .ok (areas[i] / areas.sum)) ∧
      (∀ u, 0 ≤ u → u < 1 → ∃ i, ∃ hi : i < areas.length,
        (cdf[i] ≤ u ∧ u < cdf[i + 1] ∧ 0 < areas[i] / areas.sum) ∧
        ∀ j, ∀ hj : j < areas.length, cdf[j] ≤ u → u < cdf[j + 1] → j = i) := by
  have hne : areas.sum ≠ 0 := ne_of_gt hs
  refine ⟨_, areaTable_eq areas hne, by simp [runningSums_length], ?_, ?_, ?_, ?_, ?_⟩
  · simp [runningSums_getElem]
  · simp only [List.getElem_map, runningSums_getElem, zero_add, List.take_length]
    field_simp
  · intro i j hij hj
    simp only [List.getElem_map, runningSums_getElem, zero_add]
    apply mul_le_mul_of_nonneg_right (sum_take_le areas hnn i j hij)
    exact le_of_lt (one_div_pos.mpr hs)
  · intro i hi
    unfold pmfAt
    have e : ((i : Int) + 1) = ((i + 1 : Nat) : Int) := by push_cast; rfl
    rw [e, getAt_nat _ _ (by simp [runningSums_length]; omega),
      getAt_nat _ _ (by simp [runningSums_length]; omega)]
    simp only [Res.bind_ok, List.getElem_map, runningSums_getElem, zero_add, sum_take_succ _ _ hi]
    simp only [Res.pure_eq, Res.ok.injEq]
    field_simp
    ring
  · intro u hu0 hu1
    -- first index whose right end exceeds `u`
    have hex : ∃ i, u * areas.sum < (areas.take (i + 1)).sum := by
      refine ⟨areas.length, ?_⟩
      rw [List.take_of_length_le (by omega)]
      nlinarith
    classical
    let i := Nat.find hex
    have hi := Nat.find_spec hex
    have hmin : ∀ m < Nat.find hex, ¬ u * areas.sum < (areas.take (m + 1)).sum :=
      fun m hm => Nat.find_min hex hm
    have hil : Nat.find hex < areas.length := by
      by_contra hc
      have hc : areas.length ≤ Nat.find hex := not_lt.mp hc
      cases hn : areas.length with
      | zero =>
        have : areas = [] := List.length_eq_zero_iff.mp hn
        rw [this] at hs; simp at hs
      | succ n =>
        have := hmin n (by omega)
        rw [show n + 1 = areas.length by omega, List.take_length] at this
        exact this (by nlinarith)
    have hle : (areas.take (Nat.find hex)).sum ≤ u * areas.sum := by
      rcases Nat.eq_zero_or_pos (Nat.find hex) with h0 | h0
      · rw [h0]; simp; exact mul_nonneg hu0 hs.le
      · have := hmin (Nat.find hex - 1) (by omega)
        rw [show Nat.find hex - 1 + 1 = Nat.find hex by omega] at this
        exact not_lt.mp this
    refine ⟨Nat.find hex, hil, ⟨?_, ?_, ?_⟩, ?_⟩
    · simp only [List.getElem_map, runningSums_getElem, zero_add, mul_one_div]
      rw [div_le_iff₀ hs]; exact hle
    · simp only [List.getElem_map, runningSums_getElem, zero_add, mul_one_div]
      rw [lt_div_iff₀ hs]; exact hi
    · apply div_pos _ hs
      rw [sum_take_succ _ _ hil] at hi
      linarith
    · intro j hj h1 h2
      simp only [List.getElem_map, runningSums_getElem, zero_add, mul_one_div] at h1 h2
      rw [div_le_iff₀ hs] at h1
      rw [lt_div_iff₀ hs] at h2
      by_contra hne'
      rcases lt_or_gt_of_ne hne' with hlt | hgt
      · exact hmin j hlt h2
      · have := sum_take_le areas hnn (Nat.find hex + 1) j (by omega)
        linarith

/-- The property as listed: for every random number the selected triangle is one of the mesh, its
interval contains the number and its reported probability is positive. -/
def SelectsByArea (areas : List K) : Prop :=
  ∀ cdf, areaTable areas = .ok cdf → ∀ u, 0 ≤ u → u < 1 →
    ∃ (i : Nat) (v p : K), sampleReusePdf cdf u = .ok ((i : Int), v, p) ∧ 0 < p ∧
      ∃ h : i + 1 < cdf.length, cdf[i] ≤ u ∧ u ≤ cdf[i + 1]

/-- Every random number in `[0,1]` selects entry 0, whatever the areas are. -/
theorem area_selection_always_first (areas : List K) (hnn : ∀ a ∈ areas, 0 ≤ a) (hs : 0 < areas.sum)
    (cdf : List K) (hc : areaTable areas = .ok cdf) (u : K) (hu : u ≤ 1) :
    sample cdf u = .ok 0 := by
  obtain ⟨cdf', e, hlen, h0, h1, hmono, -⟩ := area_table_correct areas hnn hs
  rw [hc] at e
  obtain rfl := Res.ok.inj e
  have hpos : 0 < cdf.length := by omega
  refine sample_eq_zero cdf (List.length_pos_iff.mp hpos) ?_ (fun _ => by rw [h0]; norm_num) u hu
  intro x hx
  obtain ⟨i, hi, rfl⟩ := List.getElem_of_mem hx
  rw [← h0]
  exact hmono 0 i (by omega) hi

private theorem areas_ne_nil (areas : List K) (hs : 0 < areas.sum) : 0 < areas.length := by
  cases areas with
  | nil => simp at hs
  | cons => simp

/-- **C06, what the code does.** With a first triangle of positive area, selection returns triangle 0,
the probability of triangle 0, and the number divided by that probability, for every `u`. -/
theorem area_selection_eq (areas : List K) (hnn : ∀ a ∈ areas, 0 ≤ a) (hs : 0 < areas.sum)
    (hl : 0 < areas.length) (h0 : (0 : K) < areas[0])
    (cdf : List K) (hc : areaTable areas = .ok cdf) (u : K) (hu : u ≤ 1) :
    sampleReusePdf cdf u = .ok (0, u / (areas[0] / areas.sum), areas[0] / areas.sum) := by
  have e := area_selection_always_first areas hnn hs cdf hc u hu
  obtain ⟨cdf', e', hlen, hz, -, -, hp, -⟩ := area_table_correct areas hnn hs
  rw [hc] at e'
  obtain rfl := Res.ok.inj e'
  have hp0 := hp 0 hl
  have hg : getAt cdf 0 = .ok (0 : K) := by
    have := getAt_nat cdf 0 (by omega)
    rw [hz] at this
    exact this
  unfold sampleReusePdf samplePdf
  simp only [e, Res.bind_ok]
  simp only [Nat.cast_zero] at hp0
  rw [hp0]
  simp only [Res.bind_ok, Res.pure_eq, hg]
  rw [if_neg (ne_of_gt (div_pos h0 hs)), sub_zero]

/-- **C06, exactly when the listed property holds**: only if the first triangle carries the whole
area. -/
theorem selects_by_area_iff (areas : List K) (hnn : ∀ a ∈ areas, 0 ≤ a) (hs : 0 < areas.sum) :
    SelectsByArea areas ↔ areas[0]'(areas_ne_nil areas hs) = areas.sum := by
  have hl := areas_ne_nil areas hs
  obtain ⟨cdf, e, hlen, hz, hone, hmono, hp, -⟩ := area_table_correct areas hnn hs
  have hc1 : cdf[1]'(by omega) = areas[0] / areas.sum := by
    have := hp 0 hl
    unfold pmfAt at this
    rw [show ((0 : Nat) : Int) + 1 = ((1 : Nat) : Int) by rfl, getAt_nat _ _ (by omega),
      getAt_nat _ _ (by omega)] at this
    simp only [Res.bind_ok, Res.pure_eq, Res.ok.injEq, hz, sub_zero] at this
    exact this
  have hle : areas[0] ≤ areas.sum := by
    have := sum_take_le areas hnn 1 areas.length (by omega)
    rw [List.take_length] at this
    rw [sum_take_succ areas 0 hl] at this
    simpa using this
  constructor
  · intro h
    by_contra hne
    have hlt : areas[0] / areas.sum < 1 := by
      rw [div_lt_one hs]; exact lt_of_le_of_ne hle hne
    have hnn0 : (0 : K) ≤ areas[0] / areas.sum := div_nonneg (hnn _ (by simp)) hs.le
    obtain ⟨i, v, p, e1, hp0, hi, -, h2⟩ := h cdf e ((areas[0] / areas.sum + 1) / 2)
      (by linarith) (by linarith)
    have hfirst := area_selection_always_first areas hnn hs cdf e ((areas[0] / areas.sum + 1) / 2)
      (by linarith)
    have : i = 0 := by
      unfold sampleReusePdf samplePdf at e1
      rw [hfirst] at e1
      simp only [Res.bind_ok] at e1
      rw [Res.bind_eq_ok] at e1
      obtain ⟨⟨a, b⟩, ea, e2⟩ := e1
      rw [Res.bind_eq_ok] at ea
      obtain ⟨q, eq, ea⟩ := ea
      simp only [Res.pure_eq, Res.ok.injEq, Prod.mk.injEq] at ea
      obtain ⟨rfl, rfl⟩ := ea
      simp only [Res.bind_eq_ok] at e2
      obtain ⟨c, -, e3⟩ := e2
      split at e3
      · cases e3
      · simp only [Res.pure_eq, Res.ok.injEq, Prod.mk.injEq] at e3
        omega
    subst this
    simp only [zero_add] at h2
    rw [hc1] at h2
    linarith
  · intro h cdf' e' u hu0 hu1
    rw [e] at e'
    obtain rfl := Res.ok.inj e'
    have h0 : (0 : K) < areas[0] := by rw [h]; exact hs
    refine ⟨0, _, _, area_selection_eq areas hnn hs hl h0 cdf e u hu1.le, div_pos h0 hs, by omega, ?_, ?_⟩
    · rw [hz]; exact hu0
    · simp only [zero_add]
      rw [hc1, h, div_self (ne_of_gt hs)]; exact hu1.le

/-- **C06 refuted**: a light made of two equal triangles. -/
theorem selects_by_area_refuted : ¬ SelectsByArea ([1, 1] : List ℚ) := by
  rw [selects_by_area_iff _ (by simp) (by norm_num)]
  norm_num

/-- **C06 (partial)**: the listed property, for lights in which the first triangle has all the area
(in particular lights of one triangle). Missing: all other lights, where it is false. -/
theorem selects_by_area_partial (a : K) (rest : List K) (ha : 0 < a) (hr : ∀ x ∈ rest, x = 0) :
    SelectsByArea (a :: rest) := by
  have h0 : rest.sum = 0 := List.sum_eq_zero hr
  rw [selects_by_area_iff]
  · simp [h0]
  · intro x hx
    rcases List.mem_cons.mp hx with rfl | hx
    · exact ha.le
    · exact (hr x hx).ge
  · simp [h0, ha]

/-- A light whose first triangle is degenerate cannot be sampled at all: the pdf of entry 0 is zero and
the reuse divides by it. -/
theorem area_selection_degenerate_first (areas : List K) (hnn : ∀ a ∈ areas, 0 ≤ a)
    (hs : 0 < areas.sum) (hl : 0 < areas.length) (h0 : areas[0] = 0)
    (cdf : List K) (hc : areaTable areas = .ok cdf) (u : K) (hu : u ≤ 1) :
    (sampleReusePdf cdf u).isUb = true := by
  have e := area_selection_always_first areas hnn hs cdf hc u hu
  obtain ⟨cdf', e', hlen, hz, -, -, hp, -⟩ := area_table_correct areas hnn hs
  rw [hc] at e'
  obtain rfl := Res.ok.inj e'
  have hp0 := hp 0 hl
  have hg : getAt cdf 0 = .ok (0 : K) := by
    have := getAt_nat cdf 0 (by omega)
    rw [hz] at this
    exact this
  unfold sampleReusePdf samplePdf
  simp only [e, Res.bind_ok]
  simp only [Nat.cast_zero] at hp0
  rw [hp0]
  simp [hg, h0, Res.isUb]

/-! ### C07 -/

/-- **C07, agreement.** All overloads select the same entry: whenever one of the longer forms returns,
the index-only form returns the same index, and the reported pdf is the table difference at it. -/
theorem overloads_agree (cdf : List K) (u : K) :
    (∀ i p, samplePdf cdf u = .ok (i, p) → sample cdf u = .ok i ∧ pmfAt cdf i = .ok p) ∧
    (∀ i v, sampleReuse cdf u = .ok (i, v) → sample cdf u = .ok i) ∧
    (∀ i v p, sampleReusePdf cdf u = .ok (i, v, p) → samplePdf cdf u = .ok (i, p)) := by
  refine ⟨?_, ?_, ?_⟩
  · intro i p h
    unfold samplePdf at h
    rw [Res.bind_eq_ok] at h
    obtain ⟨a, ha, h⟩ := h
    rw [Res.bind_eq_ok] at h
    obtain ⟨b, hb, h⟩ := h
    simp only [Res.pure_eq, Res.ok.injEq, Prod.mk.injEq] at h
    obtain ⟨rfl, rfl⟩ := h
    exact ⟨ha, hb⟩
  · intro i v h
    unfold sampleReuse at h
    rw [Res.bind_eq_ok] at h
    obtain ⟨a, ha, h⟩ := h
    rw [Res.bind_eq_ok] at h
    obtain ⟨b, hb, h⟩ := h
    rw [Res.bind_eq_ok] at h
    obtain ⟨c, hc, h⟩ := h
    split at h
    · cases h
    · simp only [Res.pure_eq, Res.ok.injEq, Prod.mk.injEq] at h
      obtain ⟨rfl, rfl⟩ := h
      exact ha
  · intro i v p h
    unfold sampleReusePdf at h
    rw [Res.bind_eq_ok] at h
    obtain ⟨⟨a, b⟩, ha, h⟩ := h
    simp only [Res.bind_eq_ok] at h
    obtain ⟨c, hc, h⟩ := h
    split at h
    · cases h
    · simp only [Res.pure_eq, Res.ok.injEq, Prod.mk.injEq] at h
      obtain ⟨rfl, rfl, rfl⟩ := h
      exact ha

/-- **C07, agreement of the two forms that reuse the number**: they return for the same numbers, and the same index and
remapped number. -/
theorem reuse_agree (cdf : List K) (u : K) (i : Int) (v : K) :
    sampleReuse cdf u = .ok (i, v) ↔ ∃ p, sampleReusePdf cdf u = .ok (i, v, p) := by
  unfold sampleReuse sampleReusePdf samplePdf
  cases hs : sample cdf u with
  | «throw» m => simp [hs, Res.bind]
  | ub w => simp [hs, Res.bind]
  | ok a =>
    cases hc : getAt cdf a with
    | «throw» m => cases hp : pmfAt cdf a <;> simp [hs, hc, hp, Res.bind]
    | ub w => cases hp : pmfAt cdf a <;> simp [hs, hc, hp, Res.bind]
    | ok c =>
      cases hp : pmfAt cdf a with
      | «throw» m => simp [hs, hc, hp, Res.bind]
      | ub w => simp [hs, hc, hp, Res.bind]
      | ok p =>
        by_cases h0 : p = 0
        · simp [hs, hc, hp, h0]
        · simp [hs, hc, hp, h0]

example : sampleReuse ([0, 1] : List ℚ) (1 / 3) = .ok (0, 1 / 3) := by decide +kernel

/-- **C07 refuted**: the returned integer is not the index at which the search stopped. On the table
`0, 1/4, 1/2, 1` the number `3/4` lies in the third interval, the code returns 0. -/
theorem index_is_table_entry_refuted :
    sample ([0, 1 / 4, 1 / 2, 1] : List ℚ) (3 / 4) = .ok 0 ∧
    ([0, 1 / 4, 1 / 2, 1] : List ℚ)[2] ≤ 3 / 4 ∧ (3 / 4 : ℚ) < ([0, 1 / 4, 1 / 2, 1] : List ℚ)[3] := by
  refine ⟨?_, by norm_num, by norm_num⟩
  apply sample_eq_zero
  · simp
  · intro x hx; simp at hx; rcases hx with rfl | rfl | rfl | rfl <;> norm_num
  · intro _; norm_num
  · norm_num

/-- **C07 (partial)**: the search itself stops at the right place: the position it reaches is the right
end of the interval that contains `u`. Only the final conversion is wrong. -/
theorem search_position_partial (cdf : List K) (hne : 1 < cdf.length)
    (h0 : cdf[0] = 0) (hlast : cdf[cdf.length - 1] = 1) (u : K) (hu0 : 0 < u) (hu1 : u ≤ 1) :
    ∃ i, scan u cdf 0 = i + 1 ∧ ∃ h : i + 1 < cdf.length, cdf[i] < u ∧ u ≤ cdf[i + 1] := by
  have hn : cdf ≠ [] := by intro h; subst h; simp at hne
  obtain ⟨-, h2, h3, h4⟩ := scan_spec u cdf 0 hn
  have hpos : 0 < scan u cdf 0 := by
    by_contra hc
    have hz : scan u cdf 0 = 0 := by omega
    have := h4 (by omega) (by omega)
    simp only [hz, Nat.sub_zero, h0] at this
    exact this hu0
  refine ⟨scan u cdf 0 - 1, by omega, by omega, h3 _ (by omega) (by omega), ?_⟩
  have e : scan u cdf 0 - 1 + 1 = scan u cdf 0 := by omega
  simp only [e]
  by_cases hl : scan u cdf 0 < cdf.length - 1
  · have := h4 (by omega) (by omega)
    simp only [Nat.sub_zero] at this
    exact not_lt.mp this
  · have : scan u cdf 0 = cdf.length - 1 := by omega
    simp only [this, hlast]
    exact hu1

/-! ### C08 -/

/-- The property as listed. -/
def ReuseInRange (areas : List K) : Prop :=
  ∀ cdf, areaTable areas = .ok cdf → ∀ u, 0 ≤ u → u < 1 →
    ∃ i v p, sampleReusePdf cdf u = .ok (i, v, p) ∧ 0 ≤ v ∧ v < 1

/-- **C08 refuted**: on a light of two equal triangles the number `3/4` is "rescaled" to `3/2`. -/
theorem reuse_in_range_refuted :
    ¬ ReuseInRange ([1, 1] : List ℚ) := by
  intro h
  have ht : areaTable ([1, 1] : List ℚ) = .ok _ := areaTable_eq _ (by norm_num)
  obtain ⟨i, v, p, e, h0, h1⟩ := h _ ht (3 / 4) (by norm_num) (by norm_num)
  rw [area_selection_eq [1, 1] (by simp) (by norm_num) (by simp) (by norm_num) _ ht (3 / 4)
    (by norm_num)] at e
  simp only [Res.ok.injEq, Prod.mk.injEq] at e
  obtain ⟨-, rfl, -⟩ := e
  norm_num at h1

/-- **C08 (partial)**: the reused number is in `[0,1)` exactly for numbers below the share of the first
triangle, and it preserves order. Missing: the other numbers, where the property is false. -/
theorem reuse_in_range_partial (areas : List K) (hnn : ∀ a ∈ areas, 0 ≤ a) (hs : 0 < areas.sum)
    (hl : 0 < areas.length) (h0 : (0 : K) < areas[0])
    (cdf : List K) (hc : areaTable areas = .ok cdf) :
    ∃ f : K → K, (∀ u, u ≤ 1 → sampleReusePdf cdf u = .ok (0, f u, areas[0] / areas.sum)) ∧
      (∀ u, 0 ≤ u → (f u < 1 ↔ u < areas[0] / areas.sum)) ∧ (∀ u, 0 ≤ u → 0 ≤ f u) ∧
      StrictMono f := by
  have hp : (0 : K) < areas[0] / areas.sum := div_pos h0 hs
  refine ⟨fun u => u / (areas[0] / areas.sum),
    fun u hu => area_selection_eq areas hnn hs hl h0 cdf hc u hu, ?_, ?_, ?_⟩
  · intro u _; simp only; rw [div_lt_one hp]
  · intro u hu; exact div_nonneg hu hp.le
  · intro a b hab
    simp only
    rw [div_lt_div_iff_of_pos_right hp]; exact hab

/-- Non-vacuity: a table with a zero-area triangle in the middle. -/
example : areaTable ([1, 0, 3] : List ℚ) = .ok [0, 1 / 4, 1 / 4, 1] := by
  rw [areaTable_eq _ (by norm_num)]
  norm_num [runningSums]

end Feign.Sampling
