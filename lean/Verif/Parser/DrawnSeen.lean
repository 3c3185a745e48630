import Verif.Parser.DrawnPicture

/-!
# C135: the light in a drawn scene
-/

set_option linter.unusedSectionVars false
set_option linter.unusedSimpArgs false
set_option linter.unusedVariables false

namespace Feign.Parser

open Integrators Sampling MeasureTheory Camera Image Filter
open scoped ENNReal Topology

variable {T : Type}

/-- What a lamp adds at a hit, by the description. -/
theorem lampAt_share {hit : Integrators.Ray → Option Sdf.Hit} {S : Room} {r : Integrators.Ray} {p n c : V3 ℝ} {k : Fin 3} {x : Lamp}
    (e1 : S.point r = p) (e2 : (S.frame r).n = n) (e3 : S.albedo r = c) :
    S.lampAt (fun p d _ => (hit (p, d)).isSome) k r x = lampShare (fun p v => ∃ b, hit (p, v) = some b) p n r.2 (c.get k) k x := by
  unfold Room.lampAt lampShare
  simp only [e1, e2, e3]
  split_ifs with h1 h2 h2
  · rfl
  · exact absurd (h1.imp_left Option.isSome_iff_exists.1) h2
  · exact absurd (h2.imp_left Option.isSome_iff_exists.2) h1
  · rfl

/-- **C135 (what the light in the picture is).** The light of the scene found behind the pointers, in terms of what was declared. Along a
ray on which tracing finds nothing it is the sum of the skies. A hit is near the solid of one of the declared things, and
the light is what that thing's material makes of it: Lambert's integral and the lamps' shares for a diffuse one, the light
from the mirror direction for a mirror, the light from the mirror and Snell's directions in the proportion of the reflectance for
glass. -/
theorem drawn_light {l : List (Entry ℝ T)} {d d' : Drawn T} (hd : Shows l d) (hs : d'.Same d) {ρ E I δ : ℝ} (hρ : 0 ≤ ρ)
    (hE : 0 ≤ E) (hδ : 0 < δ) (hg : d.Good ρ E I δ) (box : Option (B3 ℝ)) (k : Fin 3) (look : Bool) (r : Integrators.Ray) :
    let hit := Sdf.hitOf (Sdf.evals (d'.things.map (·.1))) box
    let L := (d'.room box).world.light k
    (hit r = none → L look r = ENNReal.ofReal ((d.skies.map fun c => c.get k).sum)) ∧
    ∀ a, hit r = some a → ∃ t ∈ d.things, (∃ q ∈ t.1.solid, Sdf.dist a.p q ≤ 2 * Sdf.eps) ∧
      (t.2.material = .diffuse → L look r =
        ENNReal.ofReal ((d.lamps.map (lampShare (fun p v => ∃ b, hit (p, v) = some b) a.p a.normal r.2
          (t.2.albedo.get k) k)).sum) +
        open Classical in if 0 < (-r.2).dot a.normal then
          ∫⁻ v, ENNReal.ofReal (t.2.albedo.get k / Real.pi) * ENNReal.ofReal (a.normal.dot v) * L false (a.p, v) ∂Warp.solidAngle
        else 0) ∧
      (t.2.material = .mirror → L look r =
        open Classical in if 0 < (-r.2).dot a.normal then
          ENNReal.ofReal (t.2.albedo.get k) * L true (a.p, mirrorImage a.normal r.2) else 0) ∧
      (t.2.material = .glass → r.2.sqrNorm = 1 → 0 < t.2.extIor → 0 < t.2.intIor →
        (0 < (-r.2).dot a.normal ∨ (-r.2).dot a.normal < -Sdf.eps) → ∀ p,
        Bsdf.fresnel ((-r.2).dot a.normal) t.2.extIor t.2.intIor = some p →
        0 ≤ p ∧ p ≤ 1 ∧ ∃ v : V3 ℝ,
          (p < 1 → Bsdf.Refracts t.2.extIor t.2.intIor ((Sdf.frameOf a.normal).toLocal (-r.2))
            ((Sdf.frameOf a.normal).toLocal v)) ∧
          L look r = ENNReal.ofReal (t.2.albedo.get k) *
            (ENNReal.ofReal p * L true (a.p, mirrorImage a.normal r.2) + ENNReal.ofReal (1 - p) * L true (a.p, v))) := by
  intro hit L
  have hset := good_setting hd hs hρ hE hg
  have hl : d'.lamps = d.lamps := by have := congrArg Drawn.lamps hs.2; exact this
  have hk : d'.skies = d.skies := by have := congrArg Drawn.skies hs.2; exact this
  have hlaw := (Sdf.litRoom_lawful hset box)
  constructor
  · intro hn
    have := (light_least _ (room_lawful _ hlaw.2) k).1 look r
    have he : (d'.room box).world.escapes r = true := by
      show (!(hit r).isSome) = true
      rw [hn]; rfl
    refine this.trans ((if_pos he).trans ?_)
    show ENNReal.ofReal ((d'.skies.foldl (· + ·) 0).get k) = _
    rw [hk, foldl_get, get_zero, zero_add]
  · intro a ha
    obtain ⟨s, hsi, hq⟩ := Sdf.hit_near hset.shapes ha
    obtain ⟨t, ht, rfl⟩ : ∃ t, d'.things[a.shape]? = some t ∧ t.1 = s := by
      rw [List.getElem?_map] at hsi
      exact Option.map_eq_some_iff.1 hsi
    have hlk : looksOf d'.things a.shape = t.2 := by unfold looksOf; rw [ht]; rfl
    have htd : t ∈ d.things := hs.1.mem_iff.1 (List.mem_of_getElem? ht)
    have hdark : t.2.emitted = fun _ => 0 := by
      obtain ⟨c, -, hm⟩ := forall₂_right hd.things t htd
      obtain ⟨-, -, -, -, -, -, bp, -, -, -, -, -, -, hb⟩ := hm
      exact look_dark (look_of hb)
    have hz : ∀ b : Bool, (if b = true then ENNReal.ofReal ((0 : V3 ℝ).get k) else 0) = 0 := by
      intro b; rw [get_zero, ENNReal.ofReal_zero, ite_self]
    obtain ⟨g1, g2⟩ := Sdf.sdf_surfaces hset hδ box k look r a ha
    refine ⟨t, htd, hq, fun hm => ?_, fun hm => ?_, fun hm h1 h2 h3 h4 p hp => ?_⟩
    · have := g1 (hlk ▸ hm)
      rw [hlk, hdark] at this
      refine this.trans ?_
      rw [hz, zero_add, ← hl]
      refine congrArg₂ (· + ·) (congrArg (fun l => ENNReal.ofReal l.sum) (List.map_congr_left fun x hx => ?_)) rfl
      have hpt : (Sdf.room (Sdf.evals (d'.things.map (·.1))) box (looksOf d'.things) fun _ => d'.skies.foldl (· + ·) 0).point r = a.p := by
        show ((hit r).map (·.p)).getD r.1 = _
        rw [ha]; rfl
      have hfr : ((Sdf.room (Sdf.evals (d'.things.map (·.1))) box (looksOf d'.things) fun _ => d'.skies.foldl (· + ·) 0).frame r).n = a.normal := by
        show (((hit r).map fun h => Sdf.frameOf h.normal).getD _).n = _
        rw [ha]; exact (Sdf.frameOf_parts _).2.2
      have hal : (Sdf.room (Sdf.evals (d'.things.map (·.1))) box (looksOf d'.things) fun _ => d'.skies.foldl (· + ·) 0).albedo r = t.2.albedo := by
        show ((hit r).map fun h => (looksOf d'.things h.shape).albedo).getD 0 = _
        rw [ha, ← hlk]; rfl
      exact lampAt_share hpt hfr hal
    · have := g2 (hlk ▸ hm)
      rw [hlk, hdark] at this
      refine this.trans ?_
      rw [hz, zero_add]
      rfl
    · have := Sdf.sdf_glass hset box k look r a ha (hlk ▸ hm) h1 (hlk ▸ h2) (hlk ▸ h3) h4 p (hlk ▸ hp)
      rw [hlk, hdark] at this
      obtain ⟨p0, p1, v, hv, he⟩ := this
      refine ⟨p0, p1, v, hv, he.trans ?_⟩
      rw [hz, zero_add]
      rfl

/-- **C135 (the camera).** With a closed aperture, the ray through the middle of the film of the declared size starts at the
declared eye and goes through the declared target. -/
theorem drawn_camera {d : Drawn T} {ρ E I δ : ℝ} (hg : d.Good ρ E I δ) (h0 : d.camera.appRadius = 0) (app : V2 ℝ) :
    ∃ t r s, cameraToWorld Feign.Xf.one d.camera.origin d.camera.target d.camera.up = some t ∧
      d.camera.persp.sampleRay t ⟨d.camera.imageRes.1 / 2, d.camera.imageRes.2 / 2⟩ app = some r ∧
      r.origin = d.camera.origin ∧ 0 < s ∧ r.point s = d.camera.target := by
  obtain ⟨t, r, s, h1, h2, h3, h4⟩ := centre_ray_hits_target d.camera.persp hg.camera hg.focus h0 d.camera.origin
    d.camera.target d.camera.up hg.view app
  have hw : ((d.camera.persp.width : ℕ) : ℝ) = d.camera.imageRes.1 := by
    have : 0 ≤ d.camera.imageRes.1 := by
      by_contra hc
      exact hg.camera.w (Int.toNat_of_nonpos (by omega))
    exact_mod_cast congrArg (fun z : ℤ => (z : ℝ)) (Int.toNat_of_nonneg this)
  have hh : ((d.camera.persp.height : ℕ) : ℝ) = d.camera.imageRes.2 := by
    have : 0 ≤ d.camera.imageRes.2 := by
      by_contra hc
      exact hg.camera.h (Int.toNat_of_nonpos (by omega))
    exact_mod_cast congrArg (fun z : ℤ => (z : ℝ)) (Int.toNat_of_nonneg this)
  rw [hw, hh] at h2
  obtain ⟨_, _, _, t', r', -, h1', h2', h5, -⟩ := pinhole_ray d.camera.persp hg.camera hg.focus h0 d.camera.origin
    d.camera.target d.camera.up hg.view ⟨d.camera.imageRes.1 / 2, d.camera.imageRes.2 / 2⟩ app
  rw [h1, Option.some.injEq] at h1'
  subst h1'
  rw [h2, Option.some.injEq] at h2'
  subst h2'
  exact ⟨t, r, s, h1, h2, h5, h3, h4⟩

end Feign.Parser
