import Verif.Sdf.ViewsProps
import Verif.Integrators.SeenLemmas
import Verif.Integrators.WhittedPicture

/-!
# C137: Whitted's integrator and distance functions
-/

set_option linter.unusedSectionVars false
set_option linter.unusedVariables false
set_option linter.unusedSimpArgs false

namespace Feign.Sdf

open Integrators Sampling MeasureTheory Camera Image
open _root_.Filter Topology
open scoped ENNReal

/-- Mirrors and glass are black or reflect at least a ten-thousandth in some channel. -/
def Polished (looks : ℕ → Look) : Prop :=
  ∀ i, (looks i).material ≠ .diffuse → (looks i).albedo = 0 ∨ 1 / 10000 ≤ (looks i).albedo.maxValue

variable {ss : List Shape} {looks : ℕ → Look} {env : V3 ℝ → V3 ℝ} {lamps : List Lamp} {ρ E I δ : ℝ}

theorem room_bright (hb : Polished looks) (box : Option (B3 ℝ)) : (litRoom (evals ss) box looks env lamps).world.Bright := by
  intro r ω hd
  have hd' : ((room (evals ss) box looks env).material r).isDelta = true := hd
  rcases delta_albedo (room (evals ss) box looks env) r ω hd' with h | h
  · exact Or.inl h
  · have e : (room (evals ss) box looks env).albedo r = 0 ∨ 1 / 10000 ≤ ((room (evals ss) box looks env).albedo r).maxValue := by
      change (((hitOf (evals ss) box r).map fun h => (looks h.shape).material).getD .diffuse).isDelta = true at hd'
      show ((hitOf (evals ss) box r).map fun h => (looks h.shape).albedo).getD 0 = 0 ∨
        _ ≤ (((hitOf (evals ss) box r).map fun h => (looks h.shape).albedo).getD 0).maxValue
      cases hh : hitOf (evals ss) box r with
      | none => left; rfl
      | some a =>
        rw [hh, Option.map_some, Option.getD_some] at hd'
        rw [Option.map_some, Option.getD_some]
        refine hb a.shape fun hc => ?_
        rw [hc] at hd'
        exact absurd hd' (by simp [Material.isDelta])
    rw [← h] at e
    exact e

theorem room_dark (hdark : ∀ i d, (looks i).emitted d = 0) (box : Option (B3 ℝ)) (r : Integrators.Ray) :
    (litRoom (evals ss) box looks env lamps).world.emitted r = 0 := by
  show ((hitOf (evals ss) box r).map fun h => (looks h.shape).emitted ((frameOf h.normal).toLocal r.2)).getD 0 = 0
  cases hitOf (evals ss) box r with
  | none => rfl
  | some a => exact hdark _ _

/-- What is seen is bounded, even in white mirrors and glass. -/
theorem seen_le (h : Setting ss looks env lamps ρ E I δ) (hρ : 0 ≤ ρ) (hρ1 : ρ ≤ 1) (hE : 0 ≤ E) (hI : 0 ≤ I) (hδ : 0 < δ)
    (hdark : ∀ i d, (looks i).emitted d = 0) (box : Option (B3 ℝ)) (k : Fin 3) (r : Integrators.Ray) :
    (litRoom (evals ss) box looks env lamps).world.seenLight k r ≤ ENNReal.ofReal (found lamps.length ρ E I δ) := by
  refine seenLight_le _ k (finds h hρ hE hI hδ box k) (room_dark hdark box) (fun r ω hd => ?_) r
  rcases delta_albedo (room (evals ss) box looks env) r ω hd with e | e
  · have e' : ((litRoom (evals ss) box looks env lamps).world.scatter r ω).1.albedo = 0 := e
    rw [e', get_zero]; exact zero_le_one
  · have e' : ((litRoom (evals ss) box looks env lamps).world.scatter r ω).1.albedo = (room (evals ss) box looks env).albedo r := e
    rw [e']; exact (room_albedo_le h hρ box r k).trans hρ1

/-- **C137, the picture.** Well-formed shapes that do not glow, of colours up to white, mirrors and glass black or reflecting at
least a ten-thousandth, drawn with Whitted's integrator: each pixel tends, with probability one, to the light seen through
specular surfaces, averaged over the lens and the filter. There is no limit of bounces and nothing is left out. The full claim,
for shapes that glow and for darker mirrors too, is refuted in C104. -/
theorem sdf_whitted_partial (h : Setting ss looks env lamps ρ E I δ) (hρ : 0 ≤ ρ) (hρ1 : ρ ≤ 1) (hE : 0 ≤ E) (hI : 0 ≤ I) (hδ : 0 < δ)
    (hdark : ∀ i d, (looks i).emitted d = 0) (hb : Polished looks) (box : Option (B3 ℝ)) {c : Persp} (hc : c.Ok)
    (hf : 0 < c.focal) {t : Xf ℝ} (ht : t.Aff) {ray : ℝ × ℝ → ℝ × ℝ → Integrators.Ray}
    (hray : c.Shows t (fun s => (s.1, s.2.1)) ray) {L : Integrators.Ray → Stream → V3 ℝ × Stream}
    (hL : (litRoom (evals ss) box looks env lamps).world.TracesWhitted L)
    (hm : Measurable fun p : Integrators.Ray × Stream => L p.1 p.2) (hnn : ∀ r ω, NonNeg (L r ω).1) :
    TendsTo c t ray L fun k => (litRoom (evals ss) box looks env lamps).world.seenLight k := by
  have hW := room_lawful _ (litRoom_lawful h box).2
  have hsee : Measurable fun s : Sight => ((s.1, s.2.1) : Integrators.Ray) := by fun_prop
  filter_upwards [whitted_image_partial hW (room_bright hb box) (room_dark hdark box) hL hm hnn _
    (seen_le h hρ hρ1 hE hI hδ hdark box) (persp_measurable hc hf ht hsee hray) c.width c.height] with ω ⟨img, h1, h2⟩
  refine ⟨img, h1, fun x y k hx hy => ?_⟩
  have := h2 x y k hx hy
  rwa [lens_light hc hf ht hsee hray _ (measurable_seenLight _ hW k)] at this

/-- **C137, what is seen.** Where nothing is hit, the sky. A diffuse surface shows what the lamps that are not hidden send there, and no
light from elsewhere; a mirror what is seen along the reflected ray; glass what is seen along the reflected ray and along one
that follows Snell's law, in the proportion of the reflectance. -/
theorem sdf_seen (h : Setting ss looks env lamps ρ E I δ) (hδ : 0 < δ) (box : Option (B3 ℝ)) (k : Fin 3) (r : Integrators.Ray) :
    let W := (litRoom (evals ss) box looks env lamps).world
    (hitOf (evals ss) box r = none → W.seenLight k r = ENNReal.ofReal ((env r.2).get k)) ∧
    ∀ a, hitOf (evals ss) box r = some a →
      let glow := ENNReal.ofReal (((looks a.shape).emitted ((frameOf a.normal).toLocal r.2)).get k)
      ((looks a.shape).material = .diffuse → W.seenLight k r = glow + ENNReal.ofReal ((lamps.map
        ((room (evals ss) box looks env).lampAt (fun p d _ => (hitOf (evals ss) box (p, d)).isSome) k r)).sum)) ∧
      ((looks a.shape).material = .mirror → W.seenLight k r = glow + open Classical in if 0 < (-r.2).dot a.normal then
        ENNReal.ofReal ((looks a.shape).albedo.get k) * W.seenLight k (a.p, mirrorImage a.normal r.2) else 0) ∧
      ((looks a.shape).material = .glass → r.2.sqrNorm = 1 → 0 < (looks a.shape).extIor → 0 < (looks a.shape).intIor →
        (0 < (-r.2).dot a.normal ∨ (-r.2).dot a.normal < -eps) → ∀ p,
        Bsdf.fresnel ((-r.2).dot a.normal) (looks a.shape).extIor (looks a.shape).intIor = some p →
        0 ≤ p ∧ p ≤ 1 ∧ ∃ v : V3 ℝ,
          (p < 1 → Bsdf.Refracts (looks a.shape).extIor (looks a.shape).intIor ((frameOf a.normal).toLocal (-r.2))
            ((frameOf a.normal).toLocal v)) ∧
          W.seenLight k r = glow + ENNReal.ofReal ((looks a.shape).albedo.get k) *
            (ENNReal.ofReal p * W.seenLight k (a.p, mirrorImage a.normal r.2) +
              ENNReal.ofReal (1 - p) * W.seenLight k (a.p, v))) := by
  intro W
  classical
  obtain ⟨hl, hl'⟩ := litRoom_lawful h box
  have hW : W.Lawful := room_lawful _ hl'
  have step := seenLight_eq W hW k r
  constructor
  · intro hn
    have he : W.escapes r = true := by
      show (!(hitOf (evals ss) box r).isSome) = true
      rw [hn]; rfl
    rw [step, if_pos he]
    rfl
  intro a ha glow
  set S := room (evals ss) box looks env with hS
  have hs : S.seen r = true := by show (hitOf (evals ss) box r).isSome = true; rw [ha]; rfl
  have he : ¬ W.escapes r = true := by
    show ¬ (!(hitOf (evals ss) box r).isSome) = true
    rw [ha]; simp
  have hmat : S.material r = (looks a.shape).material := by
    show ((hitOf (evals ss) box r).map fun h => (looks h.shape).material).getD .diffuse = _
    rw [ha]; rfl
  have hemi : W.emitted r = (looks a.shape).emitted ((frameOf a.normal).toLocal r.2) := by
    show ((hitOf (evals ss) box r).map fun h => (looks h.shape).emitted ((frameOf h.normal).toLocal r.2)).getD 0 = _
    rw [ha]; rfl
  have hpt : S.point r = a.p := by
    show ((hitOf (evals ss) box r).map (·.p)).getD r.1 = _
    rw [ha]; rfl
  have hfr0 : S.frame r = frameOf a.normal := by
    show ((hitOf (evals ss) box r).map fun h => frameOf h.normal).getD _ = _
    rw [ha]; rfl
  have hfr : (S.frame r).n = a.normal := by rw [hfr0]; exact (frameOf_parts _).2.2
  have halb : S.albedo r = (looks a.shape).albedo := by
    show ((hitOf (evals ss) box r).map fun h => (looks h.shape).albedo).getD 0 = _
    rw [ha]; rfl
  have hint : S.intIor r = (looks a.shape).intIor := by
    show ((hitOf (evals ss) box r).map fun h => (looks h.shape).intIor).getD 1 = _
    rw [ha]; rfl
  have hext : S.extIor r = (looks a.shape).extIor := by
    show ((hitOf (evals ss) box r).map fun h => (looks h.shape).extIor).getD 1 = _
    rw [ha]; rfl
  have hfront : S.Front r ↔ 0 < (-r.2).dot a.normal := by unfold Room.Front; rw [hfr]
  rw [if_neg he, hemi] at step
  -- the mean over the bounces of a specular surface
  have spec : S.material r ≠ .diffuse → W.seenLight k r = glow +
      ∫⁻ ω, ENNReal.ofReal (factor true k (S.scatter r ω).1) * W.seenLight k (S.scatter r ω).1.ray ∂uniform := by
    intro hm
    have hd : (S.material r).isDelta = true := by
      cases hmm : S.material r with
      | diffuse => exact absurd hmm hm
      | mirror => rfl
      | glass => rfl
    have hd' : W.delta r = true := hd
    rw [if_pos hd'] at step
    refine step.trans (congrArg (glow + ·) (lintegral_congr fun ω => ?_))
    show ENNReal.ofReal ((S.scatter r ω).1.albedo.get k) * W.seenLight k (S.scatter r ω).1.ray = _
    rw [delta_factor S k r ω hd]
  refine ⟨fun hm => ?_, fun hm => ?_, fun hm h1 h2 h3 h4 p hp => ?_⟩
  · have hd : ¬ W.delta r = true := by
      show ¬ (S.material r).isDelta = true
      rw [hmat, hm]; simp [Material.isDelta]
    rw [if_neg hd] at step
    have hp : ∀ l ∈ lamps, l.2 ≠ S.point r := by
      intro l hl2 e
      have := lamp_far h.shapes (box := box) (looks := looks) (env := env) hδ.le (h.apart l hl2) hs
      rw [← e] at this
      have h0 : (l.2 - l.2).sqrNorm = 0 := by simp [V3.sqrNorm]
      rw [h0] at this
      nlinarith
    have e : W.direct k r = _ := lamps_direct S hl lamps h.lamps_nonneg (blockedBy (evals ss) box) k r (hmat.trans hm) hp
    rw [step, e]
    rfl
  · rw [spec (by rw [hmat, hm]; simp), scatter_mirror S hl k r (hmat.trans hm)]
    simp only [hfront]
    unfold Room.specular
    rw [halb, hpt, hfr]
  · obtain ⟨g0, g1, v, -, g2, g3⟩ := scatter_glass S hl eps_pos k r (hmat.trans hm) h1 (by rw [hext]; exact h2) (by rw [hint]; exact h3)
      (by unfold Room.Front; rw [hfr]; exact h4) p (by rw [hfr, hext, hint]; exact hp)
    rw [hext, hint, hfr0] at g2
    refine ⟨g0, g1, v, g2, ?_⟩
    rw [spec (by rw [hmat, hm]; simp), g3, halb, hpt, hfr]

end Feign.Sdf
