import Verif.Sampling.LightSelect
import Verif.Sampling.DiscretePdfLemmas
import Mathlib.MeasureTheory.Measure.Lebesgue.Basic
import Mathlib.Data.Rat.Floor
import Mathlib.Tactic.FieldSimp
import Mathlib.Tactic.Linarith
import Mathlib.Tactic.NormNum
import Mathlib.Tactic.Positivity

/-!
# C09 (uniform light selection), C10 (spatial light selection)
-/

set_option linter.unusedSectionVars false

namespace Feign.Sampling

variable {K : Type} [Field K] [LinearOrder K] [IsStrictOrderedRing K] [FloorRing K]

/-! ### C09 -/

theorem naiveSelect_index (n : Nat) (hn : 0 < n) (u : K) (hu0 : 0 ≤ u) (i : Nat) :
    (naiveSelect n u).1 = i ↔ (i : K) / n ≤ u ∧ u < ((i : K) + 1) / n := by
  have hn' : (0 : K) < n := by exact_mod_cast hn
  unfold naiveSelect truncInt
  simp only
  rw [if_pos (mul_nonneg hu0 hn'.le), Int.floor_eq_iff, div_le_iff₀ hn', lt_div_iff₀ hn']
  simp

theorem naiveSelect_range (n : Nat) (hn : 0 < n) (u : K) (hu0 : 0 ≤ u) (hu1 : u < 1) :
    ∃ i : Nat, i < n ∧ (naiveSelect n u).1 = i := by
  have hn' : (0 : K) < n := by exact_mod_cast hn
  have h0 : 0 ≤ ⌊u * (n : K)⌋ := Int.floor_nonneg.mpr (mul_nonneg hu0 hn'.le)
  have h1 : ⌊u * (n : K)⌋ < n := by
    rw [Int.floor_lt]
    push_cast
    nlinarith
  refine ⟨⌊u * (n : K)⌋.toNat, by omega, ?_⟩
  unfold naiveSelect truncInt
  simp only
  rw [if_pos (mul_nonneg hu0 hn'.le)]
  omega

/-- **C09, selection.** With `n > 0` lights every number in `[0,1)` selects an existing light with a
positive probability, the probabilities add up to one, and light `i` is selected exactly by the numbers in
`[i/n, (i+1)/n)`. -/
theorem naive_selection (n : Nat) (hn : 0 < n) :
    (∀ u : K, 0 ≤ u → u < 1 → ∃ i : Nat, i < n ∧ (naiveSelect n u).1 = i ∧ 0 < (naiveSelect n u).2) ∧
    (∀ us : Nat → K, ((List.range n).map fun i => (naiveSelect n (us i)).2).sum = 1) ∧
    (∀ u : K, 0 ≤ u → u < 1 → ∀ i : Nat, ((naiveSelect n u).1 = i ↔
      (i : K) / n ≤ u ∧ u < ((i : K) + 1) / n)) := by
  have hn' : (0 : K) < n := by exact_mod_cast hn
  refine ⟨?_, ?_, ?_⟩
  · intro u h0 h1
    obtain ⟨i, hi, e⟩ := naiveSelect_range n hn u h0 h1
    exact ⟨i, hi, e, by unfold naiveSelect; positivity⟩
  · intro us
    simp only [naiveSelect]
    rw [List.map_const', List.sum_replicate, List.length_range, nsmul_eq_mul]
    field_simp
  · intro u h0 _ i
    exact naiveSelect_index n hn u h0 i

/-- **C09, measure.** The numbers in `[0,1)` that select light `i` have exactly the measure that is
reported as the probability. -/
theorem naive_selection_measure (n : Nat) (i : Nat) (hi : i < n) :
    MeasureTheory.volume {u : ℝ | u ∈ Set.Ico 0 1 ∧ (naiveSelect n u).1 = i} =
      ENNReal.ofReal (naiveSelect n (0 : ℝ)).2 := by
  have hn : 0 < n := by omega
  have hn' : (0 : ℝ) < n := by exact_mod_cast hn
  have hset : {u : ℝ | u ∈ Set.Ico 0 1 ∧ (naiveSelect n u).1 = i} =
      Set.Ico ((i : ℝ) / n) (((i : ℝ) + 1) / n) := by
    ext u
    simp only [Set.mem_ofPred_eq, Set.mem_Ico]
    constructor
    · rintro ⟨⟨h0, h1⟩, e⟩
      exact (naiveSelect_index n hn u h0 i).mp e
    · rintro ⟨h0, h1⟩
      have hu0 : 0 ≤ u := le_trans (by positivity) h0
      refine ⟨⟨hu0, lt_of_lt_of_le h1 ?_⟩, (naiveSelect_index n hn u hu0 i).mpr ⟨h0, h1⟩⟩
      rw [div_le_one hn']
      exact_mod_cast hi
  rw [hset, Real.volume_Ico]
  congr 1
  unfold naiveSelect
  simp only
  field_simp
  ring

/-- **C09, in a scene.** `choose_emitter` never leaves the list of lights. It returns the selected light
and its probability, or nothing if there is no light or the selected light is the surface being shaded. -/
theorem choose_emitter_correct (lights : List LightInfo) (hit : Nat) (u : K) (hu0 : 0 ≤ u) (hu1 : u < 1) :
    (lights = [] ∧ chooseEmitter lights hit u = .ok (none, none)) ∨
    ∃ i, ∃ h : i < lights.length, ((i : K) / lights.length ≤ u ∧ u < ((i : K) + 1) / lights.length) ∧
      chooseEmitter lights hit u =
        .ok (if lights[i].meshInst = some hit then none else some i, some (1 / (lights.length : K))) := by
  by_cases hl : lights.length = 0
  · left
    refine ⟨List.length_eq_zero_iff.mp hl, ?_⟩
    unfold chooseEmitter; rw [if_pos hl]
  · right
    obtain ⟨i, hi, e⟩ := naiveSelect_range lights.length (by omega) u hu0 hu1
    refine ⟨i, hi, (naiveSelect_index _ (by omega) u hu0 i).mp e, ?_⟩
    unfold chooseEmitter
    rw [if_neg hl]
    have e2 : naiveSelect lights.length u = ((i : Int), 1 / (lights.length : K)) := by
      rw [← e]; rfl
    rw [e2]
    simp only [getAt_nat _ _ hi, Res.bind_ok, Int.toNat_natCast]
    cases hm : lights[i].meshInst with
    | none => simp
    | some inst =>
      simp only [Option.some.injEq]
      split_ifs <;> rfl

/-- The overload used by photon emission: defined exactly when the scene has a light. -/
theorem choose_emitter_any (lights : List LightInfo) (u : K) (hu0 : 0 ≤ u) (hu1 : u < 1) :
    (lights = [] → (chooseEmitterAny lights u).isUb = true) ∧
    (lights ≠ [] → ∃ i, i < lights.length ∧
      chooseEmitterAny lights u = .ok (i, 1 / (lights.length : K))) := by
  constructor
  · rintro rfl
    simp [chooseEmitterAny, truncInt, getAt, Res.isUb]
  · intro h
    have hl : 0 < lights.length := List.length_pos_iff.mpr h
    obtain ⟨i, hi, e⟩ := naiveSelect_range lights.length hl u hu0 hu1
    refine ⟨i, hi, ?_⟩
    unfold chooseEmitterAny
    have e' : truncInt (u * (lights.length : K)) = (i : Int) := e
    rw [e']
    simp only [getAt_nat _ _ hi, Res.bind_ok, Int.toNat_natCast]
    rw [if_neg (by omega)]
    rfl

/-- **C09 under rounding.** If the product is rounded by any monotone `fl`, the index is still that of an
existing light, provided some value `p < n` is exactly representable and `u * n ≤ p`. (With 24-bit
significands and `u ≤ 1 - 2⁻²³` the predecessor of `n` is such a `p`.) -/
theorem naive_selection_rounded (fl : K → K) (hmono : Monotone fl) (h0 : fl 0 = 0) (n : Nat) (u p : K)
    (hu0 : 0 ≤ u) (hp : fl p = p) (hpn : p < n) (hup : u * n ≤ p) :
    0 ≤ truncInt (fl (u * n)) ∧ truncInt (fl (u * n)) < n := by
  have hn : (0 : K) ≤ n := Nat.cast_nonneg n
  have h1 : 0 ≤ fl (u * n) := by rw [← h0]; exact hmono (mul_nonneg hu0 hn)
  have h2 : fl (u * n) < n := lt_of_le_of_lt (by rw [← hp]; exact hmono hup) hpn
  unfold truncInt
  rw [if_pos h1]
  exact ⟨Int.floor_nonneg.mpr h1, by rw [Int.floor_lt]; exact_mod_cast h2⟩

/-- Non-vacuity: three lights, one of them the shaded surface. -/
example : chooseEmitter [⟨none⟩, ⟨some 7⟩, ⟨some 9⟩] 7 (1 / 2 : ℚ) = .ok (none, some (1 / 3)) ∧
    chooseEmitter [⟨none⟩, ⟨some 7⟩, ⟨some 9⟩] 7 (3 / 4 : ℚ) = .ok (some 2, some (1 / 3)) := by
  have f1 : ⌊(1 / 2 : ℚ) * 3⌋ = 1 := by rw [Int.floor_eq_iff]; norm_num
  have f2 : ⌊(3 / 4 : ℚ) * 3⌋ = 2 := by rw [Int.floor_eq_iff]; norm_num
  constructor
  · simp [chooseEmitter, naiveSelect, truncInt, getAt] at *
    norm_num [f1] at *
  · simp [chooseEmitter, naiveSelect, truncInt, getAt] at *
    norm_num [f2] at *
    simp

/-! ### C10 -/

/-- Whatever the shading point is (and whatever a division by zero yields), the clamp chain ends in the
cell at the origin of the grid. -/
theorem used_cell_is_zero (div : K → K → K) (b : B3 K) (g : GridDims) (p : V3 K) :
    usedCell div b g p = (0, 0, 0) := by
  have key : ∀ x : K, (if (if x < 0 then x else 0) > 0 then (if x < 0 then x else 0) else 0) = (0 : K) := by
    intro x
    by_cases h : x < 0
    · simp only [if_pos h]; rw [if_neg (not_lt.mpr h.le)]
    · simp [h]
  unfold usedCell V3.minS V3.maxS
  simp only [key]
  simp

theorem cellWeight_pos (pmfMin : K) (hp : 0 < pmfMin) (cell : B3 K) (c : V3 K) :
    0 < cellWeight pmfMin cell c := by
  unfold cellWeight
  simp only
  split_ifs with h1 h2
  · norm_num
  · exact hp
  · refine lt_min (one_div_pos.mpr (lt_of_le_of_ne ?_ (Ne.symm h2))) hp
    unfold V3.sqrNorm
    have := mul_self_nonneg (cell.center - c).x
    have := mul_self_nonneg (cell.center - c).y
    have := mul_self_nonneg (cell.center - c).z
    linarith

/-- **C10, weights.** A light inside the cell has weight one. Outside, the weight falls off with the square of the
distance to the centre of the cell and is never above `pmfMin`; one of the two limits is attained. -/
theorem cell_weight_law (pmfMin : K) (cell : B3 K) (c : V3 K) :
    (cell.contains c → cellWeight pmfMin cell c = 1) ∧
    (¬ cell.contains c →
      cellWeight pmfMin cell c ≤ pmfMin ∧ cellWeight pmfMin cell c * (cell.center - c).sqrNorm ≤ 1 ∧
      (cellWeight pmfMin cell c = pmfMin ∨ cellWeight pmfMin cell c * (cell.center - c).sqrNorm = 1)) := by
  unfold cellWeight
  refine ⟨fun h => by rw [if_pos h], fun h => ?_⟩
  rw [if_neg h]
  dsimp only
  have hn : 0 ≤ (cell.center - c).sqrNorm := by
    unfold V3.sqrNorm
    have := mul_self_nonneg (cell.center - c).x
    have := mul_self_nonneg (cell.center - c).y
    have := mul_self_nonneg (cell.center - c).z
    linarith
  by_cases h0 : (cell.center - c).sqrNorm = 0
  · rw [if_pos h0, h0, mul_zero]
    exact ⟨le_rfl, zero_le_one, Or.inl rfl⟩
  · rw [if_neg h0]
    have hpos : 0 < (cell.center - c).sqrNorm := lt_of_le_of_ne hn (Ne.symm h0)
    refine ⟨min_le_right _ _, ?_, ?_⟩
    · calc min (1 / (cell.center - c).sqrNorm) pmfMin * (cell.center - c).sqrNorm
          ≤ 1 / (cell.center - c).sqrNorm * (cell.center - c).sqrNorm :=
            mul_le_mul_of_nonneg_right (min_le_left _ _) hn
        _ = 1 := one_div_mul_cancel h0
    · rcases min_choice (1 / (cell.center - c).sqrNorm) pmfMin with h | h
      · right; rw [h]; exact one_div_mul_cancel h0
      · left; exact h

theorem sum_pos_of_pos (l : List K) (hl : l ≠ []) (h : ∀ x ∈ l, 0 < x) : 0 < l.sum := by
  induction l with
  | nil => exact absurd rfl hl
  | cons x xs ih =>
    rw [List.sum_cons]
    have hx : 0 < x := h x (by simp)
    by_cases hxs : xs = []
    · simp [hxs, hx]
    · have := ih hxs (fun y hy => h y (by simp [hy]))
      linarith

/-- Total weight of a cell. -/
def cellTotal (pmfMin : K) (cell : B3 K) (centres : List (V3 K)) : K :=
  (centres.map (cellWeight pmfMin cell)).sum

/-- **C10, tables.** The table of every cell exists, gives light `l` the probability
`weight l / total weight`, which is positive, and these probabilities add up to one. -/
theorem cell_table_correct (eps pmfMin : K) (heps : 0 < eps) (hp : 0 < pmfMin) (cell : B3 K)
    (centres : List (V3 K)) (hne : centres ≠ []) :
    ∃ t, cellTable eps pmfMin cell centres = .ok t ∧ t.length = centres.length + 2 ∧
      (∀ x ∈ t, 0 ≤ x) ∧ (∀ h : 0 < t.length, t[0] = 0) ∧
      (∀ l (h : l < centres.length),
        pmfAt t l = .ok (cellWeight pmfMin cell centres[l] / cellTotal pmfMin cell centres) ∧
        0 < cellWeight pmfMin cell centres[l] / cellTotal pmfMin cell centres) ∧
      (centres.map fun c => cellWeight pmfMin cell c / cellTotal pmfMin cell centres).sum = 1 := by
  have hwpos : ∀ x ∈ centres.map (cellWeight pmfMin cell), 0 < x := by
    intro x hx
    obtain ⟨c, -, rfl⟩ := List.mem_map.mp hx
    exact cellWeight_pos pmfMin hp cell c
  have htot : 0 < cellTotal pmfMin cell centres := sum_pos_of_pos _ (by simpa using hne) hwpos
  have hdiv : ∀ (l : List K) (s : K), (l.map (· / s)).sum = l.sum / s := by
    intro l s
    induction l with
    | nil => simp
    | cons x xs ih => simp only [List.map_cons, List.sum_cons, ih]; ring
  have hsum : (centres.map (cellWeight pmfMin cell) ++ [0]).sum = cellTotal pmfMin cell centres := by
    simp [cellTotal]
  unfold cellTable convertPdfToCdf
  simp only [hsum, hdiv]
  rw [if_neg (ne_of_gt htot), div_self (ne_of_gt htot), sub_self, abs_zero, if_pos heps]
  set pdf := (centres.map (cellWeight pmfMin cell) ++ [0]).map (· / cellTotal pmfMin cell centres)
    with hpdf
  have hpnn : ∀ x ∈ pdf, 0 ≤ x := by
    intro x hx
    rw [hpdf] at hx
    obtain ⟨y, hy, rfl⟩ := List.mem_map.mp hx
    refine div_nonneg ?_ htot.le
    rcases List.mem_append.mp hy with h | h
    · exact (hwpos y h).le
    · simp at h; rw [h]
  have hplen : pdf.length = centres.length + 1 := by simp [hpdf]
  refine ⟨_, rfl, by rw [runningSums_length, hplen], ?_, ?_, ?_, ?_⟩
  · intro x hx
    obtain ⟨i, hi, rfl⟩ := List.getElem_of_mem hx
    rw [runningSums_getElem, zero_add]
    apply List.sum_nonneg
    intro y hy
    exact hpnn y (List.mem_of_mem_take hy)
  · intro _; rw [runningSums_getElem]; simp
  · intro l h
    refine ⟨?_, div_pos (cellWeight_pos pmfMin hp cell _) htot⟩
    unfold pmfAt
    have e : ((l : Int) + 1) = ((l + 1 : Nat) : Int) := by push_cast; rfl
    rw [e, getAt_nat _ _ (by rw [runningSums_length]; omega),
      getAt_nat _ _ (by rw [runningSums_length]; omega)]
    simp only [Res.bind_ok, Res.pure_eq, Res.ok.injEq, runningSums_getElem, zero_add]
    rw [sum_take_succ _ _ (by omega)]
    have : pdf[l]'(by omega) = cellWeight pmfMin cell centres[l] / cellTotal pmfMin cell centres := by
      simp [hpdf, h]
    rw [this]; ring
  · have := hdiv (centres.map (cellWeight pmfMin cell)) (cellTotal pmfMin cell centres)
    rw [List.map_map] at this
    rw [show (centres.map fun c => cellWeight pmfMin cell c / cellTotal pmfMin cell centres) =
      centres.map ((· / cellTotal pmfMin cell centres) ∘ cellWeight pmfMin cell) from rfl, this]
    exact div_self (ne_of_gt htot)

/-- **C10, what the code does.** For every shading point and every random number the first light is
selected, with its probability in the cell at the origin of the grid. -/
theorem spatial_always_first (div : K → K → K) (eps pmfMin : K) (heps : 0 < eps) (hp : 0 < pmfMin)
    (b : B3 K) (g : GridDims) (hw : 0 < g.width) (hh : 0 < g.height) (hd : 0 < g.depth)
    (c : V3 K) (cs : List (V3 K)) (p : V3 K) (u : K) (hu : u ≤ 1) :
    spatialSelect div eps pmfMin b g (c :: cs) p u =
      .ok (0, cellWeight pmfMin (cellBox b g 0 0 0) c / cellTotal pmfMin (cellBox b g 0 0 0) (c :: cs)) := by
  unfold spatialSelect
  rw [used_cell_is_zero]
  simp only [zero_mul, zero_add]
  rw [if_neg (by
    have : (0 : Int) < g.width * g.height * g.depth := by positivity
    omega)]
  simp only [Int.toNat_zero, Nat.zero_mod, Nat.zero_div]
  obtain ⟨t, ht, hlen, hnn, h0, hpm, -⟩ := cell_table_correct eps pmfMin heps hp (cellBox b g 0 0 0)
    (c :: cs) (by simp)
  unfold tableAt
  rw [ht]
  simp only [Res.bind_ok]
  have hz : sample t u = .ok 0 := by
    apply sample_eq_zero t _ hnn _ u hu
    · intro h; rw [h] at hlen; simp at hlen
    · intro h; rw [h0 h]; norm_num
  unfold samplePdf
  rw [hz]
  have := (hpm 0 (by simp)).1
  simp only [Nat.cast_zero] at this
  simp only [Res.bind_ok, this, List.getElem_cons_zero, Res.pure_eq]

/-- The grid cell that contains a point of the scene bounds (specification): cell `j` of `n` along an
axis covers the fractions `[j/n, (j+1)/n)`. -/
def InCell (b : B3 K) (g : GridDims) (p : V3 K) (j i k : Nat) : Prop :=
  (j < g.width ∧ i < g.height ∧ k < g.depth) ∧
  (b.min.x + (b.max.x - b.min.x) * (j / g.width) ≤ p.x ∧
    p.x < b.min.x + (b.max.x - b.min.x) * ((j + 1) / g.width)) ∧
  (b.min.y + (b.max.y - b.min.y) * (i / g.height) ≤ p.y ∧
    p.y < b.min.y + (b.max.y - b.min.y) * ((i + 1) / g.height)) ∧
  (b.min.z + (b.max.z - b.min.z) * (k / g.depth) ≤ p.z ∧
    p.z < b.min.z + (b.max.z - b.min.z) * ((k + 1) / g.depth))

/-- The property as listed: at a point of cell `(j,i,k)` the numbers select lights by the table of that
cell. -/
def UsesContainingCell (div : K → K → K) (eps pmfMin : K) (b : B3 K) (g : GridDims)
    (centres : List (V3 K)) : Prop :=
  ∀ p j i k, InCell b g p j i k → ∀ u, 0 ≤ u → u < 1 → ∀ t, tableAt eps pmfMin b g centres j i k = .ok t →
    spatialSelect div eps pmfMin b g centres p u = samplePdf t u

/-- **C10 refuted**: two cells along x in the unit cube, one light in the middle of the left cell and one
in the middle of the right cell. -/
theorem spatial_uses_containing_cell_refuted :
    ¬ UsesContainingCell (· / ·) (1 / 1000 : ℚ) (1 / 100) ⟨⟨0, 0, 0⟩, ⟨1, 1, 1⟩⟩ ⟨2, 1, 1⟩
      [⟨1 / 4, 1 / 2, 1 / 2⟩, ⟨3 / 4, 1 / 2, 1 / 2⟩] := by
  intro h
  have h' := h ⟨3 / 4, 1 / 2, 1 / 2⟩ 1 0 0 ⟨by decide, by norm_num, by norm_num, by norm_num⟩ 0
    (by norm_num) (by norm_num)
  obtain ⟨t, ht, hlen, hnn, h0, hpm, -⟩ := cell_table_correct (1 / 1000 : ℚ) (1 / 100) (by norm_num)
    (by norm_num) (cellBox ⟨⟨0, 0, 0⟩, ⟨1, 1, 1⟩⟩ ⟨2, 1, 1⟩ 1 0 0)
    [⟨1 / 4, 1 / 2, 1 / 2⟩, ⟨3 / 4, 1 / 2, 1 / 2⟩] (by simp)
  have h2 := h' t ht
  rw [spatial_always_first _ _ _ (by norm_num) (by norm_num) _ _ (by decide) (by decide) (by decide) _ _
    _ _ (by norm_num)] at h2
  have hz : sample t 0 = .ok 0 := by
    apply sample_eq_zero t _ hnn _ 0 (by norm_num)
    · intro h; rw [h] at hlen; simp at hlen
    · intro h; rw [h0 h]; norm_num
  unfold samplePdf at h2
  rw [hz] at h2
  have hp0 := (hpm 0 (by simp)).1
  simp only [Nat.cast_zero] at hp0
  simp only [Res.bind_ok, hp0, Res.pure_eq, Res.ok.injEq, Prod.mk.injEq, true_and] at h2
  norm_num [cellWeight, cellTotal, cellBox, B3.contains, V3.lt, B3.sampleX, B3.sampleY, B3.sampleZ,
    B3.center, V3.sqrNorm] at h2

/-- **C10 (partial)**: a grid of a single cell does use the table of that cell. Missing: every larger
grid, where the cell at the origin is used for all points. -/
theorem spatial_single_cell_partial (div : K → K → K) (eps pmfMin : K) (b : B3 K)
    (centres : List (V3 K)) : UsesContainingCell div eps pmfMin b ⟨1, 1, 1⟩ centres := by
  intro p j i k hin u _ _ t ht
  obtain ⟨⟨hj, hi, hk⟩, -⟩ := hin
  have hj : j = 0 := by simp at hj; omega
  have hi : i = 0 := by simp at hi; omega
  have hk : k = 0 := by simp at hk; omega
  subst hj hi hk
  unfold spatialSelect
  rw [used_cell_is_zero]
  simp [ht]

/-- The cells do not tile the scene bounds either: for a scene away from the origin every cell misses
it, because cell boxes start at the origin and use the x extent on all axes. -/
theorem cells_cover_scene_refuted :
    ∃ (b : B3 ℚ) (g : GridDims) (p : V3 ℚ), b.contains p ∧ 0 < g.width ∧ 0 < g.height ∧ 0 < g.depth ∧
      ∀ j i k, j < g.width → i < g.height → k < g.depth → ¬ (cellBox b g j i k).containsB p := by
  refine ⟨⟨⟨10, 10, 10⟩, ⟨11, 11, 11⟩⟩, ⟨1, 1, 1⟩, ⟨21 / 2, 21 / 2, 21 / 2⟩, ?_, by decide, by decide,
    by decide, ?_⟩
  · norm_num [B3.contains, V3.lt]
  · intro j i k hj hi hk
    simp at hj hi hk
    subst hj hi hk
    norm_num [cellBox, B3.containsB, V3.le, B3.sampleX, B3.sampleY, B3.sampleZ]

/-- What the cells do cover: exactly the cube from the origin whose side is the x extent of the scene. -/
theorem cells_cover_cube (b : B3 K) (g : GridDims) (hw : 0 < g.width) (hh : 0 < g.height)
    (hd : 0 < g.depth) (hx : b.min.x < b.max.x) (p : V3 K) :
    (∃ j i k, j < g.width ∧ i < g.height ∧ k < g.depth ∧ (cellBox b g j i k).containsB p) ↔
      (0 ≤ p.x ∧ p.x ≤ b.max.x - b.min.x) ∧ (0 ≤ p.y ∧ p.y ≤ b.max.x - b.min.x) ∧
      (0 ≤ p.z ∧ p.z ≤ b.max.x - b.min.x) := by
  set e := b.max.x - b.min.x with he
  have hepos : 0 < e := by rw [he]; linarith
  -- one axis
  have axis : ∀ (n : Nat) (hn : 0 < n) (x : K),
      (∃ j, j < n ∧ e * ((j : K) / n) ≤ x ∧ x ≤ e * (((j + 1 : Nat) : K) / n)) ↔ 0 ≤ x ∧ x ≤ e := by
    intro n hn x
    have hn' : (0 : K) < n := by exact_mod_cast hn
    constructor
    · rintro ⟨j, hj, h1, h2⟩
      refine ⟨le_trans (by positivity) h1, le_trans h2 ?_⟩
      have : ((j + 1 : Nat) : K) / n ≤ 1 := by rw [div_le_one hn']; exact_mod_cast hj
      nlinarith
    · rintro ⟨h0, h1⟩
      by_cases hlast : x = e
      · refine ⟨n - 1, by omega, ?_, ?_⟩
        · rw [hlast]
          have : ((n - 1 : Nat) : K) / n ≤ 1 := by
            rw [div_le_one hn']; exact_mod_cast Nat.sub_le n 1
          nlinarith
        · rw [hlast, show n - 1 + 1 = n by omega, div_self (ne_of_gt hn'), mul_one]
      · have hlt : x < e := lt_of_le_of_ne h1 hlast
        obtain ⟨j, hj, ej⟩ := naiveSelect_range n hn (x / e) (div_nonneg h0 hepos.le)
          ((div_lt_one hepos).mpr hlt)
        obtain ⟨a1, a2⟩ := (naiveSelect_index n hn (x / e) (div_nonneg h0 hepos.le) j).mp ej
        refine ⟨j, hj, ?_, ?_⟩
        · rw [le_div_iff₀ hepos] at a1; linarith
        · rw [div_lt_iff₀ hepos] at a2
          push_cast; linarith
  constructor
  · rintro ⟨j, i, k, hj, hi, hk, ⟨a1, a2, a3⟩, b1, b2, b3⟩
    exact ⟨(axis _ hw _).mp ⟨j, hj, a1, b1⟩, (axis _ hh _).mp ⟨i, hi, a2, b2⟩,
      (axis _ hd _).mp ⟨k, hk, a3, b3⟩⟩
  · rintro ⟨h1, h2, h3⟩
    obtain ⟨j, hj, a1, b1⟩ := (axis _ hw _).mpr h1
    obtain ⟨i, hi, a2, b2⟩ := (axis _ hh _).mpr h2
    obtain ⟨k, hk, a3, b3⟩ := (axis _ hd _).mpr h3
    exact ⟨j, i, k, hj, hi, hk, ⟨a1, a2, a3⟩, b1, b2, b3⟩

/-- The array positions of distinct cells are distinct and inside the array. -/
theorem cellIndex_injective (g : GridDims) (j i k j' i' k' : Nat) (hj : j < g.width)
    (hi : i < g.height) (hk : k < g.depth) (hj' : j' < g.width) (hi' : i' < g.height) :
    cellIndex g j i k < g.width * g.height * g.depth ∧
    (cellIndex g j i k = cellIndex g j' i' k' → j = j' ∧ i = i' ∧ k = k') := by
  unfold cellIndex
  constructor
  · have h1 : k * g.height + i + 1 ≤ g.depth * g.height := by nlinarith
    nlinarith
  · intro h
    have e1 := congrArg (· % g.width) h
    have e2 := congrArg (· / g.width) h
    simp only [Nat.mul_add_mod_self_right, Nat.mod_eq_of_lt hj, Nat.mod_eq_of_lt hj'] at e1
    have hw : 0 < g.width := by omega
    simp only [Nat.mul_comm _ g.width, Nat.mul_add_div hw, Nat.div_eq_of_lt hj, Nat.div_eq_of_lt hj',
      Nat.add_zero] at e2
    have hh : 0 < g.height := by omega
    have e3 := congrArg (· % g.height) e2
    have e4 := congrArg (· / g.height) e2
    simp only [Nat.mul_add_mod_self_right, Nat.mod_eq_of_lt hi, Nat.mod_eq_of_lt hi'] at e3
    simp only [Nat.mul_comm _ g.height, Nat.mul_add_div hh, Nat.div_eq_of_lt hi, Nat.div_eq_of_lt hi',
      Nat.add_zero] at e4
    exact ⟨e1, e3, e4⟩

end Feign.Sampling
