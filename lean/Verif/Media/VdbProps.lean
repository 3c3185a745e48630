import Verif.Media.Vdb
import Mathlib.Topology.LocallyFinite
import Mathlib.Topology.Order.AtTopBotIxx
import Mathlib.Topology.Algebra.Order.Floor
import Mathlib.Topology.Algebra.Order.LiminfLimsup
import Mathlib.Topology.Instances.Real.Lemmas
import Mathlib.Algebra.BigOperators.Fin
import Mathlib.Tactic.Linarith
import Mathlib.Tactic.Ring
import Mathlib.Tactic.NormNum

/-!
# C124: smoke from a volume file
-/

set_option linter.unusedSectionVars false
set_option linter.unusedVariables false

namespace Feign.Media

/-! ## Specification -/

/-- The file has a grid of this name, and the first one is this grid of floats. -/
def Holds (file : List (String × VdbGrid)) (name : String) (g : FloatGrid) : Prop :=
  ∃ before after, file = before ++ (name, .floats g) :: after ∧ ∀ e ∈ before, e.1 ≠ name

/-- The weight of a voxel at distance `w` along one axis: one at the voxel, zero from the next voxel on. -/
noncomputable def hat (w : ℝ) : ℝ := max 0 (1 - |w|)

/-- The weighted mean of the eight voxels around a point: the weights fall linearly with the distance along each
axis. -/
noncomputable def weighted (v : Int → Int → Int → ℝ) (x y z : ℝ) : ℝ :=
  ∑ a : Fin 2, ∑ b : Fin 2, ∑ c : Fin 2,
    hat (x - (⌊x⌋ + a.val : Int)) * hat (y - (⌊y⌋ + b.val : Int)) * hat (z - (⌊z⌋ + c.val : Int)) *
      v (⌊x⌋ + a.val) (⌊y⌋ + b.val) (⌊z⌋ + c.val)

/-! ## Lemmas -/

theorem readGrid_holds {file : List (String × VdbGrid)} {name : String} {g : FloatGrid} (h : Holds file name g) :
    readGrid name file = some (.floats g) := by
  obtain ⟨before, after, rfl, hb⟩ := h
  induction before with
  | nil => simp [readGrid]
  | cons e t ih =>
    obtain ⟨n, x⟩ := e
    have hn : n ≠ name := hb (n, x) (by simp)
    simp only [List.cons_append, readGrid, if_neg hn]
    exact ih fun e he => hb e (by simp [he])

theorem findDensity_absent (all rest : List (String × VdbGrid)) (base : Option VdbGrid)
    (h : ∀ e ∈ rest, e.1 ≠ "density") : findDensity all rest base = base := by
  induction rest generalizing base with
  | nil => rfl
  | cons e t ih =>
    obtain ⟨n, x⟩ := e
    have hn : n ≠ "density" := h (n, x) (by simp)
    simp only [findDensity, if_neg hn]
    exact ih base fun e he => h e (by simp [he])

theorem findDensity_present (all rest : List (String × VdbGrid)) (base : Option VdbGrid)
    (h : ∃ e ∈ rest, e.1 = "density") : findDensity all rest base = readGrid "density" all := by
  induction rest generalizing base with
  | nil => simp at h
  | cons e t ih =>
    obtain ⟨n, x⟩ := e
    by_cases ht : ∃ e ∈ t, e.1 = "density"
    · simp only [findDensity]
      exact ih _ ht
    · push Not at ht
      simp only [findDensity]
      rw [findDensity_absent all t _ ht]
      obtain ⟨e, he, hn⟩ := h
      rcases List.mem_cons.1 he with rfl | he
      · simp only at hn
        subst hn
        simp
      · exact absurd hn (ht e he)

theorem new_holds {file : List (String × VdbGrid)} {g : FloatGrid} (h : Holds file "density" g) :
    Vdb.new (some file) = .ok ⟨some g, none⟩ := by
  have hp : ∃ e ∈ file, e.1 = "density" := by
    obtain ⟨b, a, rfl, _⟩ := h
    exact ⟨("density", .floats g), by simp, rfl⟩
  simp only [Vdb.new, findDensity_present file file none hp, readGrid_holds h, castGrid]

theorem hat_zero_one {t : ℝ} (h0 : 0 ≤ t) (h1 : t ≤ 1) : hat t = 1 - t ∧ hat (t - 1) = t := by
  constructor
  · rw [hat, abs_of_nonneg h0, max_eq_right (by linarith)]
  · rw [hat, abs_of_nonpos (by linarith), max_eq_right (by linarith)]
    ring

theorem mixTo_between {a b t lo hi : ℝ} (h0 : 0 ≤ t) (h1 : t ≤ 1) (ha : lo ≤ a ∧ a ≤ hi) (hb : lo ≤ b ∧ b ≤ hi) :
    lo ≤ mixTo a b t ∧ mixTo a b t ≤ hi := by
  have e : mixTo a b t = (1 - t) * a + t * b := by rw [mixTo]; ring
  rw [e]
  constructor
  · nlinarith [mul_le_mul_of_nonneg_left ha.1 (sub_nonneg.2 h1), mul_le_mul_of_nonneg_left hb.1 h0]
  · nlinarith [mul_le_mul_of_nonneg_left ha.2 (sub_nonneg.2 h1), mul_le_mul_of_nonneg_left hb.2 h0]

theorem sub_floor_range (x : ℝ) : 0 ≤ x - ⌊x⌋ ∧ x - ⌊x⌋ ≤ 1 :=
  ⟨sub_nonneg.2 (Int.floor_le x), by linarith [Int.lt_floor_add_one x]⟩

/-- Mixing neighbours by the position between them is continuous in the position and in everything the neighbours
depend on. -/
theorem mix_continuous {X : Type*} [TopologicalSpace X] (a : Int → X → ℝ) (ha : ∀ n, Continuous (a n)) :
    Continuous fun q : X × ℝ => mixTo (a ⌊q.2⌋ q.1) (a (⌊q.2⌋ + 1) q.1) (q.2 - ⌊q.2⌋) := by
  have hlf : LocallyFinite fun n : Int => Set.Icc (n : ℝ) (n + 1) := by
    intro x
    refine ⟨Set.Ioo (x - 1) (x + 1), Ioo_mem_nhds (by linarith) (by linarith), ?_⟩
    refine (Set.finite_Icc (⌊x - 2⌋) (⌈x + 1⌉)).subset ?_
    rintro n ⟨y, ⟨h1, h2⟩, h3, h4⟩
    constructor
    · have : ((⌊x - 2⌋ : Int) : ℝ) ≤ n := by linarith [Int.floor_le (x - 2)]
      exact_mod_cast this
    · have : (n : ℝ) ≤ (⌈x + 1⌉ : Int) := by linarith [Int.le_ceil (x + 1)]
      exact_mod_cast this
  have hlf2 : LocallyFinite fun n : Int => (Prod.snd : X × ℝ → ℝ) ⁻¹' Set.Icc (n : ℝ) (n + 1) :=
    hlf.preimage_continuous continuous_snd
  refine hlf2.continuous ?_ (fun n => isClosed_Icc.preimage continuous_snd) ?_
  · refine Set.eq_univ_of_forall fun q => Set.mem_iUnion.2 ⟨⌊q.2⌋, ?_⟩
    exact ⟨Int.floor_le q.2, (Int.lt_floor_add_one q.2).le⟩
  · intro n
    have hc : Continuous fun q : X × ℝ => mixTo (a n q.1) (a (n + 1) q.1) (q.2 - n) := by
      unfold mixTo
      have h1 := (ha n).comp (continuous_fst (X := X) (Y := ℝ))
      have h2 := (ha (n + 1)).comp (continuous_fst (X := X) (Y := ℝ))
      exact h1.add ((h2.sub h1).mul (continuous_snd.sub continuous_const))
    refine hc.continuousOn.congr fun q hq => ?_
    rcases eq_or_lt_of_le hq.2 with h | h
    · have e : q.2 = ((n + 1 : Int) : ℝ) := by push_cast; exact h
      simp only [e, Int.floor_intCast, mixTo]
      push_cast
      ring
    · have e : ⌊q.2⌋ = n := Int.floor_eq_iff.2 ⟨hq.1, h⟩
      simp only [e]

/-! ## Properties -/

/-- C124: a file that has a grid of floats called "density" (the first of that name) can be used: the density at a point
is the weighted mean of the eight voxels around the point's place in that grid, the same in all three channels. The
other grids of the file do not matter. -/
theorem file_density (file : List (String × VdbGrid)) (g : FloatGrid) (h : Holds file "density" g) (p : V3 ℝ) :
    let q := g.toIndex p
    Vdb.density (some file) p = .ok (grey (weighted g.voxel q.x q.y q.z)) := by
  intro q
  simp only [Vdb.density, new_holds h, Res.bind_ok, Vdb.preProcess, Vdb.D]
  congr 2
  have hx := sub_floor_range q.x
  have hy := sub_floor_range q.y
  have hz := sub_floor_range q.z
  have ex := hat_zero_one hx.1 hx.2
  have ey := hat_zero_one hy.1 hy.2
  have ez := hat_zero_one hz.1 hz.2
  simp only [weighted, Fin.sum_univ_two, Fin.val_zero, Fin.val_one, Nat.cast_zero, Nat.cast_one, add_zero,
    Int.cast_add, Int.cast_one, Int.cast_zero, ← sub_sub, sub_zero]
  rw [ex.1, ex.2, ey.1, ey.2, ez.1, ez.2]
  simp only [boxSample, mixTo, q]
  ring

/-- C124: densities never leave the range of the voxels' values. -/
theorem file_range (file : List (String × VdbGrid)) (g : FloatGrid) (h : Holds file "density" g) (lo hi : ℝ)
    (hv : ∀ i j k, lo ≤ g.voxel i j k ∧ g.voxel i j k ≤ hi) (p : V3 ℝ) :
    ∃ c, Vdb.density (some file) p = .ok (grey c) ∧ lo ≤ c ∧ c ≤ hi := by
  refine ⟨boxSample g.voxel (g.toIndex p).x (g.toIndex p).y (g.toIndex p).z, ?_, ?_⟩
  · simp only [Vdb.density, new_holds h, Res.bind_ok, Vdb.preProcess, Vdb.D]
  · have hx := sub_floor_range (g.toIndex p).x
    have hy := sub_floor_range (g.toIndex p).y
    have hz := sub_floor_range (g.toIndex p).z
    unfold boxSample
    exact mixTo_between hx.1 hx.2
      (mixTo_between hy.1 hy.2 (mixTo_between hz.1 hz.2 (hv _ _ _) (hv _ _ _))
        (mixTo_between hz.1 hz.2 (hv _ _ _) (hv _ _ _)))
      (mixTo_between hy.1 hy.2 (mixTo_between hz.1 hz.2 (hv _ _ _) (hv _ _ _))
        (mixTo_between hz.1 hz.2 (hv _ _ _) (hv _ _ _)))

/-- C124: at the place of a voxel the density is that voxel's value. -/
theorem file_voxel (file : List (String × VdbGrid)) (g : FloatGrid) (h : Holds file "density" g) (i j k : Int)
    (p : V3 ℝ) (hp : g.toIndex p = ⟨i, j, k⟩) : Vdb.density (some file) p = .ok (grey (g.voxel i j k)) := by
  simp only [Vdb.density, new_holds h, Res.bind_ok, Vdb.preProcess, Vdb.D, hp, boxSample, mixTo, Int.floor_intCast,
    sub_self, mul_zero, add_zero]

/-- C124: the density has no jumps: it is continuous in the index coordinates, across the boundaries between voxels
too. -/
theorem file_continuous (v : Int → Int → Int → ℝ) :
    Continuous fun q : (ℝ × ℝ) × ℝ => boxSample v q.2 q.1.2 q.1.1 := by
  have h1 : ∀ i j : Int, Continuous fun q : Unit × ℝ => mixTo (v i j ⌊q.2⌋) (v i j (⌊q.2⌋ + 1)) (q.2 - ⌊q.2⌋) :=
    fun i j => mix_continuous (fun k _ => v i j k) fun _ => continuous_const
  have h1' : ∀ i j : Int, Continuous fun z : ℝ => mixTo (v i j ⌊z⌋) (v i j (⌊z⌋ + 1)) (z - ⌊z⌋) := fun i j =>
    (h1 i j).comp (continuous_const (y := ()) |>.prodMk continuous_id)
  have h2 : ∀ i : Int, Continuous fun q : ℝ × ℝ =>
      mixTo (mixTo (v i ⌊q.2⌋ ⌊q.1⌋) (v i ⌊q.2⌋ (⌊q.1⌋ + 1)) (q.1 - ⌊q.1⌋))
        (mixTo (v i (⌊q.2⌋ + 1) ⌊q.1⌋) (v i (⌊q.2⌋ + 1) (⌊q.1⌋ + 1)) (q.1 - ⌊q.1⌋)) (q.2 - ⌊q.2⌋) := fun i =>
    mix_continuous (fun j z => mixTo (v i j ⌊z⌋) (v i j (⌊z⌋ + 1)) (z - ⌊z⌋)) fun j => h1' i j
  exact mix_continuous (fun i (q : ℝ × ℝ) =>
      mixTo (mixTo (v i ⌊q.2⌋ ⌊q.1⌋) (v i ⌊q.2⌋ (⌊q.1⌋ + 1)) (q.1 - ⌊q.1⌋))
        (mixTo (v i (⌊q.2⌋ + 1) ⌊q.1⌋) (v i (⌊q.2⌋ + 1) (⌊q.1⌋ + 1)) (q.1 - ⌊q.1⌋)) (q.2 - ⌊q.2⌋)) h2

/-- C124, thicker smoke: values that are nowhere smaller give densities that are nowhere smaller. -/
theorem file_monotone (f₁ f₂ : List (String × VdbGrid)) (g₁ g₂ : FloatGrid) (h₁ : Holds f₁ "density" g₁)
    (h₂ : Holds f₂ "density" g₂) (hm : g₁.toIndex = g₂.toIndex)
    (hv : ∀ i j k, g₁.voxel i j k ≤ g₂.voxel i j k) (p : V3 ℝ) :
    ∃ c₁ c₂, Vdb.density (some f₁) p = .ok (grey c₁) ∧ Vdb.density (some f₂) p = .ok (grey c₂) ∧ c₁ ≤ c₂ := by
  refine ⟨_, _, file_density f₁ g₁ h₁ p, file_density f₂ g₂ h₂ p, ?_⟩
  rw [hm]
  refine Finset.sum_le_sum fun a _ => Finset.sum_le_sum fun b _ => Finset.sum_le_sum fun c _ => ?_
  have hn : ∀ w, 0 ≤ hat w := fun w => le_max_left _ _
  exact mul_le_mul_of_nonneg_left (hv _ _ _) (mul_nonneg (mul_nonneg (hn _) (hn _)) (hn _))

/-- C124: a file that cannot be opened is reported. -/
theorem missing_file (p : V3 ℝ) : (Vdb.density none p).isThrow = true := rfl

/-- C124 fails for files that can be opened but have nothing called "density": nothing is reported, and preparing the
medium follows a null pointer. So does a file whose first grid of that name does not hold floats. -/
theorem no_density_grid_refuted :
    (∀ file : List (String × VdbGrid), (∀ e ∈ file, e.1 ≠ "density") → ∀ p,
      (Vdb.new (some file)).isOk = true ∧ (Vdb.density (some file) p).isUb = true) ∧
    ∀ (file : List (String × VdbGrid)) p, (Vdb.density (some (("density", .other) :: file)) p).isUb = true := by
  constructor
  · intro file h p
    refine ⟨rfl, ?_⟩
    simp [Vdb.density, Vdb.new, findDensity_absent file file none h, castGrid, Vdb.preProcess, Res.isUb]
  · intro file p
    have hp : ∃ e ∈ (("density", VdbGrid.other) :: file), e.1 = "density" := ⟨("density", .other), by simp, rfl⟩
    simp [Vdb.density, Vdb.new, findDensity_present _ _ none hp, readGrid, castGrid, Vdb.preProcess, Res.isUb]

/-- C43 and C124 fail for the maximum: no file makes the density report one, since the member it is read from is never
written. -/
theorem vdb_maximum_refuted (file : List (String × VdbGrid)) : (Vdb.reported (some file)).isUb = true := by
  simp only [Vdb.reported, Vdb.new, Res.bind_ok, Vdb.preProcess]
  cases castGrid (findDensity file file none) <;> rfl

/-! ## A concrete file -/

/-- One voxel of smoke in clear air. -/
noncomputable def puff : FloatGrid := ⟨fun i j k => if i = 0 ∧ j = 0 ∧ k = 0 then 4 else 0, fun p => p⟩

/-- A temperature, of which nothing is known, and the puff. -/
noncomputable def puffFile : List (String × VdbGrid) := [("temperature", .other), ("density", .floats puff)]

theorem puff_holds : Holds puffFile "density" puff :=
  ⟨[("temperature", .other)], [], rfl, by simp⟩

/-- C124 on the puff: the density falls from 4 at the voxel to 2 half-way to the next one, and to zero there. -/
theorem puff_density :
    Vdb.density (some puffFile) ⟨0, 0, 0⟩ = .ok (grey 4) ∧
    Vdb.density (some puffFile) ⟨1 / 2, 0, 0⟩ = .ok (grey 2) ∧
    Vdb.density (some puffFile) ⟨1, 0, 0⟩ = .ok (grey 0) := by
  refine ⟨?_, ?_, ?_⟩
  · rw [file_voxel puffFile puff puff_holds 0 0 0 _ (by simp [puff])]
    simp [puff]
  · have hf : ⌊(1 / 2 : ℝ)⌋ = 0 := by norm_num
    simp only [Vdb.density, new_holds puff_holds, Res.bind_ok, Vdb.preProcess, Vdb.D, puff, boxSample, hf,
      Int.floor_zero, mixTo]
    norm_num
  · rw [file_voxel puffFile puff puff_holds 1 0 0 _ (by simp [puff])]
    simp [puff]

example : ∃ c, Vdb.density (some puffFile) ⟨1 / 3, 1 / 3, 0⟩ = .ok (grey c) ∧ 0 ≤ c ∧ c ≤ 4 :=
  file_range puffFile puff puff_holds 0 4 (by intro i j k; simp only [puff]; split_ifs <;> norm_num) _

example : (Vdb.density (some [("temperature", .other)]) 0).isUb = true :=
  (no_density_grid_refuted.1 _ (by simp) 0).2

end Feign.Media
