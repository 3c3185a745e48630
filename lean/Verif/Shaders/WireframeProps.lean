import Verif.Shaders.Wireframe
import Verif.Shapes.Mesh
import Verif.Math.VecRealLemmas
import Mathlib.Tactic.Linarith
import Mathlib.Tactic.FieldSimp
import Mathlib.Tactic.LinearCombination

/-!
# C91: the wireframe material draws the edges

Specification: a point of a triangle is drawn as wire exactly if its distance to one of the three edges is less than the
threshold times the height of the triangle over that edge.
-/

set_option linter.unusedSectionVars false

namespace Feign.Shaders

open Feign.Shapes

/-- `d` is the distance of `q` from the line through `a` and `b`. -/
def IsLineDist (a b q : V3 ℝ) (d : ℝ) : Prop :=
  (∀ s : ℝ, d ≤ (q - (a + (b - a).smul s)).norm) ∧ ∃ s : ℝ, d = (q - (a + (b - a).smul s)).norm

theorem norm_smul_nonneg (v : V3 ℝ) (c : ℝ) (hc : 0 ≤ c) : (v.smul c).norm = c * v.norm := by
  unfold V3.norm
  rw [show (v.smul c).x * (v.smul c).x + (v.smul c).y * (v.smul c).y + (v.smul c).z * (v.smul c).z =
    c ^ 2 * (v.x * v.x + v.y * v.y + v.z * v.z) by simp only [V3.smul_x, V3.smul_y, V3.smul_z]; ring,
    Real.sqrt_mul (sq_nonneg c), Real.sqrt_sq hc]

theorem lineDist_unique {a b q : V3 ℝ} {d e : ℝ} (hd : IsLineDist a b q d) (he : IsLineDist a b q e) : d = e := by
  obtain ⟨s, hs⟩ := hd.2
  obtain ⟨t, ht⟩ := he.2
  exact le_antisymm (ht ▸ hd.1 t) (hs ▸ he.1 s)

/-- Every point has a distance from every line. -/
theorem lineDist_exists (a b q : V3 ℝ) (hab : a ≠ b) : ∃ d, IsLineDist a b q d := by
  have hn : (b - a).sqrNorm ≠ 0 := by
    rw [Ne, V3.sqrNorm_eq_zero]
    intro h
    apply hab
    have hx := congrArg V3.x h
    have hy := congrArg V3.y h
    have hz := congrArg V3.z h
    simp only [V3.sub_x, V3.sub_y, V3.sub_z, V3.zero_x, V3.zero_y, V3.zero_z] at hx hy hz
    ext <;> linarith
  have hpos : 0 < (b - a).sqrNorm := lt_of_le_of_ne (V3.sqrNorm_nonneg _) (Ne.symm hn)
  let s0 := (q - a).dot (b - a) / (b - a).sqrNorm
  have h0 : s0 * (b - a).sqrNorm = (q - a).dot (b - a) := div_mul_cancel₀ _ hn
  refine ⟨(q - (a + (b - a).smul s0)).norm, fun s => ?_, s0, rfl⟩
  unfold V3.norm
  apply Real.sqrt_le_sqrt
  have key : (q - (a + (b - a).smul s)).sqrNorm - (q - (a + (b - a).smul s0)).sqrNorm =
      (s - s0) ^ 2 * (b - a).sqrNorm := by
    have : (q - (a + (b - a).smul s)).sqrNorm - (q - (a + (b - a).smul s0)).sqrNorm =
        (s ^ 2 - s0 ^ 2) * (b - a).sqrNorm - 2 * (s - s0) * (q - a).dot (b - a) := by
      simp only [V3.sqrNorm, V3.dot, V3.sub_x, V3.sub_y, V3.sub_z, V3.add_x, V3.add_y, V3.add_z, V3.smul_x, V3.smul_y,
        V3.smul_z]
      ring
    rw [this, ← h0]
    ring
  have : 0 ≤ (s - s0) ^ 2 * (b - a).sqrNorm := mul_nonneg (sq_nonneg _) hpos.le
  have e : ∀ v : V3 ℝ, v.x * v.x + v.y * v.y + v.z * v.z = v.sqrNorm := fun v => rfl
  rw [e, e]
  linarith

/-- Distances from an edge grow linearly with the weight of the opposite corner. -/
theorem lineDist_weight {a b c : V3 ℝ} {h : ℝ} (hh : IsLineDist a b c h) (α β γ : ℝ) (hs : α + β + γ = 1)
    (hγ : 0 ≤ γ) : IsLineDist a b (a.smul α + b.smul β + c.smul γ) (γ * h) := by
  have hα : α = 1 - β - γ := by linarith
  subst hα
  have key : ∀ s : ℝ, (a.smul (1 - β - γ) + b.smul β + c.smul γ) - (a + (b - a).smul (β + γ * s)) =
      (c - (a + (b - a).smul s)).smul γ := by
    intro s
    ext <;> simp only [V3.sub_x, V3.sub_y, V3.sub_z, V3.add_x, V3.add_y, V3.add_z, V3.smul_x, V3.smul_y, V3.smul_z] <;>
      ring
  constructor
  · intro s
    rcases hγ.eq_or_lt with h0 | hpos
    · rw [← h0, zero_mul]
      exact V3.norm_nonneg _
    · have := key ((s - β) / γ)
      rw [show β + γ * ((s - β) / γ) = s by field_simp; ring] at this
      rw [this, norm_smul_nonneg _ _ hγ]
      exact mul_le_mul_of_nonneg_left (hh.1 _) hγ
  · obtain ⟨s, hs⟩ := hh.2
    exact ⟨β + γ * s, by rw [key, norm_smul_nonneg _ _ hγ, ← hs]⟩

theorem lineDist_pos {a b c : V3 ℝ} {h : ℝ} (hh : IsLineDist a b c h) (hc : (b - a).cross (c - a) ≠ 0) : 0 < h := by
  obtain ⟨s, hs⟩ := hh.2
  rcases (V3.norm_nonneg (c - (a + (b - a).smul s))).eq_or_lt with h0 | h0
  · exfalso
    apply hc
    have hz := (V3.norm_eq_zero _).1 h0.symm
    have ex : c.x = a.x + (b.x - a.x) * s := by
      have := congrArg V3.x hz
      simp only [V3.sub_x, V3.add_x, V3.smul_x, V3.zero_x] at this
      linear_combination this
    have ey : c.y = a.y + (b.y - a.y) * s := by
      have := congrArg V3.y hz
      simp only [V3.sub_y, V3.add_y, V3.smul_y, V3.zero_y] at this
      linear_combination this
    have ez : c.z = a.z + (b.z - a.z) * s := by
      have := congrArg V3.z hz
      simp only [V3.sub_z, V3.add_z, V3.smul_z, V3.zero_z] at this
      linear_combination this
    ext <;> simp only [V3.cross, V3.sub_x, V3.sub_y, V3.sub_z, V3.zero_x, V3.zero_y, V3.zero_z, ex, ey, ez] <;> ring
  · rw [hs]; exact h0

section field
variable {K α : Type} [Field K] [LinearOrder K] [IsStrictOrderedRing K]

theorem choose_iff (threshold : K) (wire mesh : α) (b : V3 K) :
    chooseBsdf threshold wire mesh b =
      if b.x < threshold ∨ b.y < threshold ∨ b.z < threshold then wire else mesh := by
  unfold chooseBsdf
  dsimp only
  congr 1
  apply propext
  split_ifs with h1 h2 h2
  · constructor
    · intro h; exact Or.inr (Or.inr h)
    · rintro (h | h | h)
      · exact (h2.trans h1).trans h
      · exact h2.trans h
      · exact h
  · constructor
    · intro h; exact Or.inr (Or.inl h)
    · rintro (h | h | h)
      · exact h1.trans h
      · exact h
      · exact (not_lt.1 h2).trans_lt h
  · constructor
    · intro h; exact Or.inr (Or.inr h)
    · rintro (h | h | h)
      · exact h2.trans h
      · exact (h2.trans_le (not_lt.1 h1)).trans h
      · exact h
  · constructor
    · intro h; exact Or.inl h
    · rintro (h | h | h)
      · exact h
      · exact (not_lt.1 h1).trans_lt h
      · exact (not_lt.1 h2).trans_lt h

/-- C91. The threshold at which no mesh material is left is one third: above it the whole triangle is wire, up to it the
centre is not; and with a threshold that is not positive no point of a triangle is wire. -/
theorem wire_thresholds (threshold : K) :
    ((∀ u v : K, 0 ≤ u → 0 ≤ v → u + v ≤ 1 → chooseBsdf threshold true false (meshBary u v) = true) ↔
      1 / 3 < threshold) ∧
    ((∀ u v : K, 0 ≤ u → 0 ≤ v → u + v ≤ 1 → chooseBsdf threshold true false (meshBary u v) = false) ↔
      threshold ≤ 0) := by
  constructor
  · constructor
    · intro h
      have := h (1 / 3) (1 / 3) (by norm_num) (by norm_num) (by norm_num)
      rw [choose_iff] at this
      have h3 : (1 : K) - 1 / 3 - 1 / 3 = 1 / 3 := by norm_num
      simp only [meshBary, h3, or_self] at this
      by_contra hn
      rw [if_neg hn] at this
      cases this
    · intro h u v hu hv huv
      rw [choose_iff, if_pos]
      by_contra hn
      simp only [meshBary, not_or, not_lt] at hn
      linarith [hn.1, hn.2.1, hn.2.2]
  · constructor
    · intro h
      have := h 0 0 le_rfl le_rfl (by norm_num)
      rw [choose_iff] at this
      by_contra hn
      rw [if_pos (show _ ∨ (meshBary (0 : K) 0).y < threshold ∨ _ from Or.inr (Or.inl (not_le.1 hn)))] at this
      cases this
    · intro h u v hu hv huv
      rw [choose_iff, if_neg]
      simp only [meshBary, not_or, not_lt]
      refine ⟨?_, ?_, ?_⟩ <;> linarith

/-- C91 fails for distance functions: whatever the shape and the point, everything is wire for a positive threshold
and nothing is otherwise. -/
theorem wire_sdf_refuted (threshold : K) (wire mesh : α) :
    chooseBsdf threshold wire mesh sdfBary = if 0 < threshold then wire else mesh := by
  rw [choose_iff]
  simp only [sdfBary, or_self]

end field

/-- C91 for meshes. `h` are the heights of the triangle, `d` the distances of the hit point from the edges. -/
theorem wire_near_edges {α : Type} (p0 p1 p2 : V3 ℝ) (hnd : (p1 - p0).cross (p2 - p0) ≠ 0) (u v : ℝ) (hu : 0 ≤ u)
    (hv : 0 ≤ v) (huv : u + v ≤ 1) (h0 h1 h2 d0 d1 d2 : ℝ) (hh0 : IsLineDist p1 p2 p0 h0) (hh1 : IsLineDist p2 p0 p1 h1)
    (hh2 : IsLineDist p0 p1 p2 h2) (hd0 : IsLineDist p1 p2 (hitPoint p0 p1 p2 u v) d0)
    (hd1 : IsLineDist p2 p0 (hitPoint p0 p1 p2 u v) d1) (hd2 : IsLineDist p0 p1 (hitPoint p0 p1 p2 u v) d2)
    (threshold : ℝ) (wire mesh : α) :
    chooseBsdf threshold wire mesh (meshBary u v) =
      if d0 < threshold * h0 ∨ d1 < threshold * h1 ∨ d2 < threshold * h2 then wire else mesh := by
  have e0 : d0 = (1 - u - v) * h0 := by
    refine lineDist_unique hd0 ?_
    have := lineDist_weight hh0 u v (1 - u - v) (by ring) (by linarith)
    rwa [show p1.smul u + p2.smul v + p0.smul (1 - u - v) = hitPoint p0 p1 p2 u v by
      ext <;> simp only [hitPoint, V3.add_x, V3.add_y, V3.add_z] <;> ring] at this
  have e1 : d1 = u * h1 := by
    refine lineDist_unique hd1 ?_
    have := lineDist_weight hh1 v (1 - u - v) u (by ring) hu
    rwa [show p2.smul v + p0.smul (1 - u - v) + p1.smul u = hitPoint p0 p1 p2 u v by
      ext <;> simp only [hitPoint, V3.add_x, V3.add_y, V3.add_z] <;> ring] at this
  have e2 : d2 = v * h2 := by
    refine lineDist_unique hd2 ?_
    exact lineDist_weight hh2 (1 - u - v) u v (by ring) hv
  have c1 : (p2 - p1).cross (p0 - p1) = (p1 - p0).cross (p2 - p0) := by
    ext <;> simp only [V3.cross, V3.sub_x, V3.sub_y, V3.sub_z] <;> ring
  have c2 : (p0 - p2).cross (p1 - p2) = (p1 - p0).cross (p2 - p0) := by
    ext <;> simp only [V3.cross, V3.sub_x, V3.sub_y, V3.sub_z] <;> ring
  have q0 := lineDist_pos hh0 (by rwa [c1])
  have q1 := lineDist_pos hh1 (by rwa [c2])
  have q2 := lineDist_pos hh2 hnd
  rw [choose_iff, e0, e1, e2]
  have f : ∀ {h : ℝ}, 0 < h → ∀ a : ℝ, (a * h < threshold * h) = (a < threshold) := fun hp a =>
    propext (mul_lt_mul_iff_of_pos_right hp)
  exact if_congr (by simp only [meshBary, f q0, f q1, f q2]) rfl rfl

/-- A right triangle meets the hypotheses of `wire_near_edges`: it is not degenerate, and all six distances exist. -/
example : ((⟨1, 0, 0⟩ : V3 ℝ) - ⟨0, 0, 0⟩).cross (⟨0, 1, 0⟩ - ⟨0, 0, 0⟩) ≠ 0 ∧
    (∃ h, IsLineDist ⟨1, 0, 0⟩ ⟨0, 1, 0⟩ ⟨0, 0, 0⟩ h) ∧ (∃ h, IsLineDist ⟨0, 1, 0⟩ ⟨0, 0, 0⟩ ⟨1, 0, 0⟩ h) ∧
    (∃ h, IsLineDist ⟨0, 0, 0⟩ ⟨1, 0, 0⟩ ⟨0, 1, 0⟩ h) := by
  refine ⟨fun h => ?_, lineDist_exists _ _ _ fun h => ?_, lineDist_exists _ _ _ fun h => ?_,
    lineDist_exists _ _ _ fun h => ?_⟩
  · have := congrArg V3.z h
    simp [V3.cross] at this
  · have := congrArg V3.x h
    norm_num at this
  · have := congrArg V3.y h
    norm_num at this
  · have := congrArg V3.x h
    norm_num at this

/-- With threshold one tenth, the middle of an edge is wire and the centre of the triangle is not. -/
example : chooseBsdf (1 / 10 : ℚ) true false (meshBary (1 / 2) (1 / 2)) = true ∧
    chooseBsdf (1 / 10 : ℚ) true false (meshBary (1 / 3) (1 / 3)) = false := by decide +kernel

end Feign.Shaders
