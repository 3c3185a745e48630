import Verif.Lights.Emitters
import Verif.Math.VecRealLemmas
import Verif.Sampling.DiscretePdfProps

/-! # Helper lemmas for emitters -/

set_option linter.unusedSectionVars false

namespace Feign.Lights

open Feign.Sampling Feign.Shapes Feign.Warp

theorem eps_pos : 0 < eps := by unfold eps; norm_num

theorem sub_ne_zero' {a b : V3 ℝ} (h : a ≠ b) : a - b ≠ 0 := by
  intro e
  apply h
  have h1 := congrArg V3.x e
  have h2 := congrArg V3.y e
  have h3 := congrArg V3.z e
  simp only [V3.sub_x, V3.sub_y, V3.sub_z] at h1 h2 h3
  ext
  · exact sub_eq_zero.mp h1
  · exact sub_eq_zero.mp h2
  · exact sub_eq_zero.mp h3

/-- The direction from `p` to `q`, written out. -/
theorem normalized_sub (p q : V3 ℝ) (h : q ≠ p) :
    0 < (q - p).norm ∧ (q - p).normalized = some ((q - p).smul (1 / (q - p).norm)) ∧
      ((q - p).smul (1 / (q - p).norm)).sqrNorm = 1 ∧ (q - p).sqrNorm = (q - p).norm ^ 2 := by
  have hn := V3.norm_pos _ (sub_ne_zero' h)
  have hs := V3.norm_sq (q - p)
  refine ⟨hn, ?_, ?_, by rw [sq]; exact hs.symm⟩
  · unfold V3.normalized
    rw [if_neg hn.ne']
    congr 1
    ext <;> simp only [V3.smul_x, V3.smul_y, V3.smul_z] <;> ring
  · unfold V3.sqrNorm at hs ⊢
    simp only [V3.smul_x, V3.smul_y, V3.smul_z]
    field_simp
    linear_combination -hs

theorem readAt_of_get {α : Type} {l : List α} {i : ℕ} {a : α} (h : l[i]? = some a) : readAt l i = .ok a := by
  unfold readAt; rw [h]

theorem faceAreas_length (m : Mesh ℝ) : ∀ (fs : List Face) (as : List ℝ), faceAreas m fs = .ok as →
    as.length = fs.length
  | [], as, h => by
    simp only [faceAreas, Res.ok.injEq] at h
    subst h; rfl
  | f :: fs, as, h => by
    simp only [faceAreas] at h
    obtain ⟨⟨p0, p1, p2⟩, hc, h⟩ := Res.bind_eq_ok.mp h
    obtain ⟨rest, hr, h⟩ := Res.bind_eq_ok.mp h
    simp only [Res.pure_eq, Res.ok.injEq] at h
    subst h
    simp [faceAreas_length m fs rest hr]

theorem faceAreas_nonneg (m : Mesh ℝ) : ∀ (fs : List Face) (as : List ℝ), faceAreas m fs = .ok as →
    ∀ a ∈ as, 0 ≤ a
  | [], as, h => by
    simp only [faceAreas, Res.ok.injEq] at h
    subst h; simp
  | f :: fs, as, h => by
    simp only [faceAreas] at h
    obtain ⟨⟨p0, p1, p2⟩, hc, h⟩ := Res.bind_eq_ok.mp h
    obtain ⟨rest, hr, h⟩ := Res.bind_eq_ok.mp h
    simp only [Res.pure_eq, Res.ok.injEq] at h
    subst h
    intro a ha
    rcases List.mem_cons.mp ha with rfl | ha
    · unfold triArea
      have := V3.norm_nonneg ((p1 - p0).cross (p2 - p0))
      positivity
    · exact faceAreas_nonneg m fs rest hr a ha

end Feign.Lights
