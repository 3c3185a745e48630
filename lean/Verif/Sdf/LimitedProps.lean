import Verif.Sdf.PictureProps

/-!
# C134: pictures of scenes that absorb nothing

White glass and perfect mirrors: the light need not die out, so the picture is compared with the light of paths of the allowed
length.
-/

set_option linter.unusedSectionVars false
set_option linter.unusedVariables false

namespace Feign.Integrators

open Sampling MeasureTheory
open scoped ENNReal

/-- Where nothing is amplified, `n` segments find at most `n` times what one finds. -/
theorem carried_linear {R : Type} [MeasurableSpace R] (W : World R) (h : W.Lawful) {i : Fin 3} {ρ B : ℝ} (hρ : 0 ≤ ρ) (hρ1 : ρ ≤ 1) (hB0 : 0 ≤ B)
    (hs : W.SendsAtMost i ρ) (hB : W.FindsAtMost i B) (n : ℕ) : ∀ look r, W.carried i n look r ≤ ENNReal.ofReal (n * B) := by
  induction n with
  | zero => intro look r; exact zero_le
  | succ n ih =>
    intro look r
    rw [World.carried]
    refine (finds_succ W hB (fun r => ∫⁻ ω, ENNReal.ofReal (factor (W.delta r) i (W.scatter r ω).1) *
        W.carried i n (W.delta r) (W.scatter r ω).1.ray ∂uniform) look r).trans ?_
    have := step_error W h hρ hs r (f := W.carried i n) (g := fun _ _ => 0) (e := ENNReal.ofReal (n * B))
      (by simpa using ih)
    simp only [mul_zero, lintegral_zero, zero_add] at this
    refine (add_le_add le_rfl this).trans ?_
    have hn : (0 : ℝ) ≤ n * B := by positivity
    rw [← ENNReal.ofReal_mul hρ, ← ENNReal.ofReal_add hB0 (by positivity)]
    refine ENNReal.ofReal_le_ofReal ?_
    push_cast
    nlinarith [mul_le_mul_of_nonneg_right hρ1 hn]

end Feign.Integrators

namespace Feign.Sdf

open Integrators Sampling MeasureTheory Camera Image Filter
open scoped ENNReal Topology

variable {ss : List Shape} {looks : ℕ → Look} {env : V3 ℝ → V3 ℝ} {lamps : List Lamp} {ρ E I δ : ℝ}

/-- **C134, the picture without absorption.** As `sdf_picture`, but colours may be white. Each pixel tends to the light that
paths of at most `n` segments carry back, averaged over the lens and the filter, less at most what the cut of faint paths leaves
out. -/
theorem sdf_picture_limited (h : Setting ss looks env lamps ρ E I δ) (hρ : 0 ≤ ρ) (hρ1 : ρ ≤ 1) (hE : 0 ≤ E) (hI : 0 ≤ I)
    (hδ : 0 < δ) {bs : List (B3 ℝ)} (hbs : ss.mapM Shape.boundingBox = some bs) {c : Persp} (hc : c.Ok) (hf : 0 < c.focal)
    {t : Xf ℝ} (ht : t.Aff) {ray : ℝ × ℝ → ℝ × ℝ → Integrators.Ray} (hray : c.Shows t (fun s => (s.1, s.2.1)) ray)
    {quot : ℝ → ℝ → ℝ} (hq : IsQuot quot) (n : ℕ) {L : Integrators.Ray → Stream → V3 ℝ × Stream}
    (hL : (litRoom (evals ss) (sceneBox bs) looks env lamps).world.Traces quot n L) :
    ∀ᵐ ω ∂uniform, ∃ img : ℕ → Int → Int → Fin 3 → ℝ,
      (∀ spp, renderWith apiDefaultFilter c.width c.height spp ray L ω = .ok (img spp)) ∧
      ∀ (x y : ℕ) (k : Fin 3), x < c.width → y < c.height → ∃ p : ℝ,
        Tendsto (fun spp => img spp x y k) atTop (𝓝 p) ∧
        let T := (filtered apiDefaultFilter c.width c.height x y (c.throughLens t fun s =>
          (litRoom (evals ss) (sceneBox bs) looks env lamps).world.carried k n true (s.1, s.2.1))).toReal
        p ≤ T ∧ T ≤ p + n * found lamps.length ρ E I δ / 10000 := by
  have hpi := Real.pi_pos
  have hB : 0 ≤ found lamps.length ρ E I δ := by unfold found; positivity
  have hl := (litRoom_lawful h (sceneBox bs)).2
  have hW := room_lawful _ hl
  have hsee : Measurable fun s : Sight => ((s.1, s.2.1) : Integrators.Ray) := by fun_prop
  have hM : ∀ i, ∀ k ≤ n, ∀ look r, (litRoom (evals ss) (sceneBox bs) looks env lamps).world.carried i k look r ≤
      ENNReal.ofReal (n * found lamps.length ρ E I δ) := by
    intro i k hk look r
    refine (carried_linear _ hW hρ hρ1 hB (room_sends _ hl i ρ fun r => room_albedo_le h hρ (sceneBox bs) r i)
      (finds h hρ hE hI hδ (sceneBox bs) i) k look r).trans (ENNReal.ofReal_le_ofReal ?_)
    exact mul_le_mul_of_nonneg_right (by exact_mod_cast hk) hB
  filter_upwards [path_image (ray := ray) hW hq n hL _ (by positivity) hM
    (persp_measurable hc hf ht hsee hray) c.width c.height] with ω ⟨img, h1, h2⟩
  refine ⟨img, h1, fun x y k hx hy => ?_⟩
  obtain ⟨p, hp, h3, h4⟩ := h2 x y k hx hy
  have hm : Measurable ((litRoom (evals ss) (sceneBox bs) looks env lamps).world.carried k n true) :=
    (measurable_carried _ hW k n).comp (measurable_const.prodMk measurable_id)
  rw [lens_light hc hf ht hsee hray _ hm] at h3 h4
  exact ⟨p, hp, h3, h4⟩

end Feign.Sdf
