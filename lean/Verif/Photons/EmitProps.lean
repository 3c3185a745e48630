import Verif.Photons.Emit
import Verif.Sampling.LightSelectProps
import Verif.Sampling.WarpProps
import Mathlib.MeasureTheory.Integral.IntervalIntegral.Basic

/-!
# Photon paths start with the power of the lights (C93, first half)
-/

set_option linter.unusedSectionVars false
set_option linter.unusedSimpArgs false
set_option linter.unusedVariables false

namespace Feign.Photons

open Feign.Lights Feign.Sampling Feign.Warp

/-- A colour channel. -/
inductive Chan where
  | r | g | b

/-- The value of a channel. -/
def Chan.of (c : Chan) (v : V3 ℝ) : ℝ :=
  match c with
  | .r => v.x
  | .g => v.y
  | .b => v.z

/-- The total power of a list of point lights. -/
def totalPower (c : Chan) (ls : List (V3 ℝ × V3 ℝ)) : ℝ := (ls.map fun l => c.of l.1).sum

/-- The lights of a list of powers and positions. -/
def pointLights (ls : List (V3 ℝ × V3 ℝ)) : List Light := ls.map fun l => .point l.1 l.2

theorem launch_eq (ls : List (V3 ℝ × V3 ℝ)) (u : ℝ) (d : V2 ℝ) (hu0 : 0 ≤ u) (hu1 : u < 1) (k : ℕ)
    (hk : k < ls.length) (hku : ((k : ℕ) : ℝ) ≤ u * ls.length) (hku' : u * ls.length < k + 1) :
    launch (pointLights ls) u d = .ok ⟨ls[k].2, uniSph d, ls[k].1.smul (ls.length : ℝ)⟩ := by
  have hl : (0 : ℝ) < ls.length := by exact_mod_cast (by omega : 0 < ls.length)
  have hfl : truncInt (u * (ls.length : ℝ)) = (k : Int) := by
    unfold truncInt
    rw [if_pos (by positivity)]
    rw [Int.floor_eq_iff]
    exact ⟨by exact_mod_cast hku, by exact_mod_cast hku'⟩
  have hlen : ((pointLights ls).map fun l => (⟨l.meshNode⟩ : LightInfo)).length = ls.length := by simp [pointLights]
  have hc : chooseEmitterAny ((pointLights ls).map fun l => (⟨l.meshNode⟩ : LightInfo)) u =
      .ok (k, 1 / (ls.length : ℝ)) := by
    unfold chooseEmitterAny
    rw [hlen, hfl]
    simp only [getAt_nat _ _ (by rw [hlen]; exact hk), Res.bind_ok, Int.toNat_natCast]
    rw [if_neg (by omega)]
    rfl
  have hg : getAt (pointLights ls) (k : Int) = .ok (.point ls[k].1 ls[k].2) := by
    rw [getAt_nat _ _ (by simpa [pointLights] using hk)]
    simp [pointLights]
  have hpi : (Real.pi : ℝ) ≠ 0 := Real.pi_ne_zero
  unfold launch
  rw [hc]
  simp only [Res.bind_ok]
  rw [hg]
  simp only [Res.bind_ok, sampleRay, uniSphPdf]
  rw [if_neg (by positivity)]
  rw [Res.pure_eq]
  congr 2
  ext <;> simp only [V3.smul_x, V3.smul_y, V3.smul_z] <;> field_simp

/-- **C93, start of a path.** In a scene of point lights every path starts at one of the lights, in a unit direction,
with that light's power times the number of lights (the reciprocal of the probability of choosing it); light `k` is
chosen exactly by the numbers in the `k`-th of equally long intervals. -/
theorem launch_point (ls : List (V3 ℝ × V3 ℝ)) (hne : ls ≠ []) (u : ℝ) (d : V2 ℝ) (hu0 : 0 ≤ u) (hu1 : u < 1)
    (hd : InSquare d) :
    ∃ (k : ℕ) (hk : k < ls.length) (s : Start), launch (pointLights ls) u d = .ok s ∧
      (k : ℝ) / ls.length ≤ u ∧ u < (k + 1 : ℝ) / ls.length ∧
      s.pos = ls[k].2 ∧ s.dir.sqrNorm = 1 ∧ s.power = ls[k].1.smul (ls.length : ℝ) := by
  have hl : (0 : ℝ) < ls.length := by exact_mod_cast List.length_pos_iff.mpr hne
  obtain ⟨k, hk, e⟩ := naiveSelect_range ls.length (List.length_pos_iff.mpr hne) u hu0 hu1
  have e' : truncInt (u * (ls.length : ℝ)) = (k : Int) := e
  unfold truncInt at e'
  rw [if_pos (by positivity), Int.floor_eq_iff] at e'
  have h1 : (k : ℝ) ≤ u * ls.length := by exact_mod_cast e'.1
  have h2 : u * ls.length < (k : ℝ) + 1 := by exact_mod_cast e'.2
  exact ⟨k, hk, _, launch_eq ls u d hu0 hu1 k hk h1 h2, (div_le_iff₀ hl).2 h1, (lt_div_iff₀ hl).2 h2, rfl,
    (uniSph_domain d hd).1, rfl⟩

/-- Integral of a function of the chosen index. -/
theorem integral_index (n : ℕ) (hn : 0 < n) (f : ℝ → ℝ) (c : ℕ → ℝ)
    (hf : ∀ k < n, ∀ u, (k : ℝ) / n < u → u < (k + 1 : ℝ) / n → f u = c k) :
    IntervalIntegrable f MeasureTheory.volume 0 1 ∧ ∫ u in (0 : ℝ)..1, f u = (∑ k ∈ Finset.range n, c k) / n := by
  have hn' : (0 : ℝ) < n := by exact_mod_cast hn
  have hle : ∀ k : ℕ, (k : ℝ) / n ≤ ((k + 1 : ℕ) : ℝ) / n := fun k =>
    div_le_div_of_nonneg_right (by push_cast; linarith) hn'.le
  have hae : ∀ k < n, ∀ᵐ u ∂MeasureTheory.volume, u ∈ Set.uIoc ((k : ℝ) / n) (((k + 1 : ℕ) : ℝ) / n) → f u = c k := by
    intro k hk
    have hz : MeasureTheory.volume ({((k + 1 : ℕ) : ℝ) / n} : Set ℝ) = 0 := Real.volume_singleton
    filter_upwards [MeasureTheory.compl_mem_ae_iff.2 hz] with u hu hmem
    rw [Set.uIoc_of_le (hle k)] at hmem
    refine hf k hk u hmem.1 ?_
    have := lt_of_le_of_ne hmem.2 (fun h => hu h)
    push_cast at this
    exact this
  have hint : ∀ k < n, IntervalIntegrable f MeasureTheory.volume ((k : ℝ) / n) (((k + 1 : ℕ) : ℝ) / n) := by
    intro k hk
    refine (intervalIntegrable_const (c := c k)).congr_ae ?_
    rw [Filter.EventuallyEq, MeasureTheory.ae_restrict_iff' measurableSet_uIoc]
    filter_upwards [hae k hk] with u hu hm
    exact (hu hm).symm
  have hval : ∀ k < n, ∫ u in ((k : ℝ) / n)..(((k + 1 : ℕ) : ℝ) / n), f u = c k / n := by
    intro k hk
    rw [intervalIntegral.integral_congr_ae (hae k hk), intervalIntegral.integral_const, smul_eq_mul]
    push_cast
    field_simp
    ring
  have h0 : ((0 : ℕ) : ℝ) / n = 0 := by simp
  have h1 : ((n : ℕ) : ℝ) / n = 1 := div_self hn'.ne'
  constructor
  · have := IntervalIntegrable.trans_iterate (a := fun k : ℕ => (k : ℝ) / n) (f := f) (n := n) (μ := MeasureTheory.volume)
      (fun k hk => hint k hk)
    simpa only [h0, h1] using this
  · have := intervalIntegral.sum_integral_adjacent_intervals (a := fun k : ℕ => (k : ℝ) / n) (f := f) (n := n)
      (μ := MeasureTheory.volume) (fun k hk => hint k hk)
    simp only [h0, h1] at this
    rw [← this, Finset.sum_div]
    exact Finset.sum_congr rfl fun k hk => hval k (Finset.mem_range.1 hk)

/-- **C93, emitted power.** The power of a path, averaged over the number that chooses the light, is the total power of
the lights, in every channel: every light contributes its own power. -/
theorem launch_mean (ls : List (V3 ℝ × V3 ℝ)) (hne : ls ≠ []) (d : V2 ℝ) :
    ∃ start : ℝ → Start, (∀ u, 0 ≤ u → u < 1 → launch (pointLights ls) u d = .ok (start u)) ∧
      ∀ c : Chan, IntervalIntegrable (fun u => c.of (start u).power) MeasureTheory.volume 0 1 ∧
        ∫ u in (0 : ℝ)..1, c.of (start u).power = totalPower c ls := by
  have hn : 0 < ls.length := List.length_pos_iff.mpr hne
  have hl : (0 : ℝ) < ls.length := by exact_mod_cast hn
  let start : ℝ → Start := fun u =>
    match launch (pointLights ls) u d with
    | .ok s => s
    | _ => ⟨0, 0, 0⟩
  have hs : ∀ (u : ℝ) (k : ℕ) (hk : k < ls.length), 0 ≤ u → u < 1 → (k : ℝ) ≤ u * ls.length → u * ls.length < k + 1 →
      start u = ⟨ls[k].2, uniSph d, ls[k].1.smul (ls.length : ℝ)⟩ := by
    intro u k hk h0 h1 h2 h3
    simp only [start]
    rw [launch_eq ls u d h0 h1 k hk h2 h3]
  refine ⟨start, ?_, fun c => ?_⟩
  · intro u h0 h1
    obtain ⟨k, hk, e⟩ := naiveSelect_range ls.length hn u h0 h1
    have e' : truncInt (u * (ls.length : ℝ)) = (k : Int) := e
    unfold truncInt at e'
    rw [if_pos (by positivity), Int.floor_eq_iff] at e'
    have h2 : (k : ℝ) ≤ u * ls.length := by exact_mod_cast e'.1
    have h3 : u * ls.length < (k : ℝ) + 1 := by exact_mod_cast e'.2
    rw [hs u k hk h0 h1 h2 h3]
    exact launch_eq ls u d h0 h1 k hk h2 h3
  · have key := integral_index ls.length hn (fun u => c.of (start u).power)
      (fun k => if hk : k < ls.length then c.of ls[k].1 * ls.length else 0) ?_
    · refine ⟨key.1, key.2.trans ?_⟩
      rw [totalPower, div_eq_iff hl.ne', ← List.sum_map_mul_right, Finset.sum_range]
      rw [← List.sum_ofFn]
      congr 1
      refine List.ext_getElem (by simp) ?_
      intro i h1 h2
      simp at h1
      simp [h1]
    · intro k hk u h2 h3
      have h2' := ((div_lt_iff₀ hl).1 h2).le
      have h3' := (lt_div_iff₀ hl).1 h3
      have h0 : 0 ≤ u := le_trans (by positivity) h2.le
      have h1 : u < 1 := by
        have : ((k : ℝ) + 1) / ls.length ≤ 1 := by
          rw [div_le_one hl]
          exact_mod_cast hk
        linarith
      simp only [hs u k hk h0 h1 h2' h3', dif_pos hk]
      cases c <;> simp [Chan.of]

/-- **C93 refuted for other lights.** Photon tracing throws as soon as the number drawn chooses a light that is not a
point light. -/
theorem launch_other_refuted (ls : List Light) (u : ℝ) (d : V2 ℝ) (hu0 : 0 ≤ u) (hu1 : u < 1) (k : ℕ)
    (hk : k < ls.length) (hku : (k : ℝ) ≤ u * ls.length) (hku' : u * ls.length < k + 1)
    (hl : ∀ I pos, ls[k] ≠ .point I pos) : ∃ msg, launch ls u d = .throw msg := by
  have hl0 : (0 : ℝ) < ls.length := by exact_mod_cast (by omega : 0 < ls.length)
  have hfl : truncInt (u * (ls.length : ℝ)) = (k : Int) := by
    unfold truncInt
    rw [if_pos (by positivity), Int.floor_eq_iff]
    exact ⟨by exact_mod_cast hku, by exact_mod_cast hku'⟩
  have hlen : (ls.map fun l => (⟨l.meshNode⟩ : LightInfo)).length = ls.length := by simp
  have hc : chooseEmitterAny (ls.map fun l => (⟨l.meshNode⟩ : LightInfo)) u = .ok (k, 1 / (ls.length : ℝ)) := by
    unfold chooseEmitterAny
    rw [hlen, hfl]
    simp only [getAt_nat _ _ (by rw [hlen]; exact hk), Res.bind_ok, Int.toNat_natCast]
    rw [if_neg (by omega)]
    rfl
  unfold launch
  rw [hc]
  simp only [Res.bind_ok, getAt_nat _ _ hk]
  cases h : ls[k] with
  | point I pos => exact absurd h (hl I pos)
  | spot => exact ⟨_, rfl⟩
  | directional => exact ⟨_, rfl⟩
  | mesh => exact ⟨_, rfl⟩
  | dirMesh => exact ⟨_, rfl⟩
  | environment => exact ⟨_, rfl⟩

/-- Two point lights of different power: their powers add up. -/
example : totalPower .g [(⟨1, 2, 3⟩, ⟨0, 5, 0⟩), (⟨4, 4, 4⟩, ⟨1, 1, 1⟩)] = 6 := by
  norm_num [totalPower, Chan.of]

/-- A scene with a point light and a spot light: every number from one half on makes photon tracing throw. -/
example (u : ℝ) (h0 : 1 / 2 ≤ u) (h1 : u < 1) (d : V2 ℝ) :
    ∃ msg, launch [.point ⟨1, 1, 1⟩ ⟨0, 0, 0⟩, .spot ⟨0, 0, 0⟩ ⟨0, 0, 1⟩ ⟨1, 1, 1⟩ 0] u d = .throw msg :=
  launch_other_refuted _ u d (by linarith) h1 1 (by simp) (by norm_num; linarith) (by norm_num; linarith)
    (fun _ _ h => by cases h)

end Feign.Photons
