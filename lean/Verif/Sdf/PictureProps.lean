import Verif.Sdf.RoomLemmas
import Verif.Camera.LensScenes
import Verif.Integrators.LinearProps

/-! # C134: pictures of distance function scenes -/

set_option linter.unusedSectionVars false
set_option linter.unusedVariables false
set_option linter.unusedSimpArgs false

namespace Feign.Sdf

open Integrators Sampling MeasureTheory Camera Image Filter
open scoped ENNReal Topology

variable {ss : List Shape} {looks : ℕ → Look} {env : V3 ℝ → V3 ℝ} {lamps : List Lamp} {ρ E I δ : ℝ}

/-- The scene satisfies what the theorems about path tracing ask for. -/
theorem litRoom_lawful (h : Setting ss looks env lamps ρ E I δ) (box : Option (B3 ℝ)) :
    (room (evals ss) box looks env).Lawful ∧ (litRoom (evals ss) box looks env lamps).Lawful := by
  have h1 := sdf_room_lawful (om_evals ss) box h.fair h.sky h.sky_nonneg
  exact ⟨h1, lit_lawful _ h1 lamps h.lamps_nonneg _ (measurable_blockedBy (om_evals ss) box)⟩

theorem room_albedo_le (h : Setting ss looks env lamps ρ E I δ) (hρ : 0 ≤ ρ) (box : Option (B3 ℝ)) (r : Integrators.Ray) (k : Fin 3) :
    ((room (evals ss) box looks env).albedo r).get k ≤ ρ := by
  show (((hitOf (evals ss) box r).map fun h => (looks h.shape).albedo).getD 0).get k ≤ ρ
  cases hitOf (evals ss) box r with
  | none => rw [Option.map_none, Option.getD_none, get_zero]; exact hρ
  | some a => exact h.colour _ _

theorem room_emitted_le (h : Setting ss looks env lamps ρ E I δ) (hE : 0 ≤ E) (box : Option (B3 ℝ)) (r : Integrators.Ray) (k : Fin 3) :
    ((room (evals ss) box looks env).emitted r).get k ≤ E := by
  show (((hitOf (evals ss) box r).map fun h => (looks h.shape).emitted ((frameOf h.normal).toLocal r.2)).getD 0).get k ≤ E
  cases hitOf (evals ss) box r with
  | none => rw [Option.map_none, Option.getD_none, get_zero]; exact hE
  | some a => exact h.glow _ _ _

/-- What a ray finds where it arrives is bounded. -/
theorem finds (h : Setting ss looks env lamps ρ E I δ) (hρ : 0 ≤ ρ) (hE : 0 ≤ E) (hI : 0 ≤ I) (hδ : 0 < δ)
    (box : Option (B3 ℝ)) (k : Fin 3) :
    (litRoom (evals ss) box looks env lamps).world.FindsAtMost k (found lamps.length ρ E I δ) := by
  have hpi := Real.pi_pos
  have hpart : 0 ≤ (lamps.length : ℝ) * (ρ / Real.pi * (I / (4 * Real.pi * (δ * δ)))) := by positivity
  obtain ⟨hl, hl'⟩ := litRoom_lawful h box
  intro r
  split_ifs with he
  · refine ENNReal.ofReal_le_ofReal ?_
    have := h.sky_le r.2 k
    unfold found
    show (env r.2).get k ≤ _
    linarith
  · have hs : (room (evals ss) box looks env).seen r = true := by
      have : (!(room (evals ss) box looks env).seen r) ≠ true := he
      simpa using this
    have hem : ENNReal.ofReal (((litRoom (evals ss) box looks env lamps).world.emitted r).get k) ≤ ENNReal.ofReal E :=
      ENNReal.ofReal_le_ofReal (room_emitted_le h hE box r k)
    have hdir : (litRoom (evals ss) box looks env lamps).world.direct k r ≤
        ENNReal.ofReal ((lamps.length : ℝ) * (ρ / Real.pi * (I / (4 * Real.pi * (δ * δ))))) := by
      by_cases hm : (room (evals ss) box looks env).material r = .diffuse
      · have hp : ∀ l ∈ lamps, l.2 ≠ (room (evals ss) box looks env).point r := by
          intro l hl2 e
          have := lamp_far h.shapes (box := box) (looks := looks) (env := env) hδ.le (h.apart l hl2) hs
          rw [← e] at this
          have h0 : (l.2 - l.2).sqrNorm = 0 := by simp [V3.sqrNorm]
          rw [h0] at this
          nlinarith
        have e : (litRoom (evals ss) box looks env lamps).world.direct k r = _ :=
          lamps_direct _ hl lamps h.lamps_nonneg _ k r hm hp
        rw [e]
        refine ENNReal.ofReal_le_ofReal (sum_le_mul _ _ _ fun l hl2 => ?_)
        exact lampAt_le _ hl _ k r l hδ hρ hI (room_albedo_le h hρ box r k) (h.lamps_le l hl2 k) (h.lamps_nonneg l hl2)
          (lamp_far h.shapes hδ.le (h.apart l hl2) hs)
      · have hd : (litRoom (evals ss) box looks env lamps).world.delta r = true := by
          show ((room (evals ss) box looks env).material r).isDelta = true
          cases hmm : (room (evals ss) box looks env).material r with
          | diffuse => exact absurd hmm hm
          | mirror => rfl
          | glass => rfl
        rw [World.direct, if_pos hd]
        exact zero_le
    unfold found
    rw [ENNReal.ofReal_add hE hpart]
    exact add_le_add hem hdir

/-- **C134, one equation.** Scenes of well-formed spheres, planes, boxes, cylinders and cones of diffuse, mirror and glass
materials of colours below one, under a bounded sky and lamps that stand apart from the solids: the rendering equation
has exactly one bounded solution. -/
theorem sdf_equation (h : Setting ss looks env lamps ρ E I δ) (hρ : 0 ≤ ρ) (hρ1 : ρ < 1) (hE : 0 ≤ E) (hI : 0 ≤ I)
    (hδ : 0 < δ) (box : Option (B3 ℝ)) (k : Fin 3) :
    let W := (litRoom (evals ss) box looks env lamps).world
    W.Solves k (W.light k) ∧
      (∀ look r, W.light k look r ≤ ENNReal.ofReal (found lamps.length ρ E I δ / (1 - ρ))) ∧
      ∀ (L : Bool → Integrators.Ray → ℝ≥0∞) (M : ℝ), W.Solves k L → (∀ look r, L look r ≤ ENNReal.ofReal M) →
        L = W.light k := by
  intro W
  have hpi := Real.pi_pos
  have hB : 0 ≤ found lamps.length ρ E I δ := by unfold found; positivity
  have hW : W.Lawful := room_lawful _ (litRoom_lawful h box).2
  have hs : W.SendsAtMost k ρ := room_sends _ (litRoom_lawful h box).2 k ρ fun r => room_albedo_le h hρ box r k
  exact ⟨(light_least W hW k).1, fun look r => (missing_light W hW hρ hρ1 hB hs (finds h hρ hE hI hδ box k) 0 look r).1,
    fun L M hL hM => light_unique W hW hρ hρ1 hs L hL M hM⟩

/-- **C134, the surfaces.** At a diffuse hit the solution is emission, what the lamps that tracing does not find hidden
send there, and Lambert's integral of the light from elsewhere; at a mirror, what comes along the reflected ray. -/
theorem sdf_surfaces (h : Setting ss looks env lamps ρ E I δ) (hδ : 0 < δ) (box : Option (B3 ℝ)) (k : Fin 3) (look : Bool)
    (r : Integrators.Ray) (a : Hit) (ha : hitOf (evals ss) box r = some a) :
    let S := room (evals ss) box looks env
    let W := (litRoom (evals ss) box looks env lamps).world
    ((looks a.shape).material = .diffuse → W.light k look r =
      (if look then ENNReal.ofReal (((looks a.shape).emitted ((frameOf a.normal).toLocal r.2)).get k) else 0) +
      ENNReal.ofReal ((lamps.map (S.lampAt (fun p d _ => (hitOf (evals ss) box (p, d)).isSome) k r)).sum) +
      open Classical in if 0 < (-r.2).dot a.normal then
        ∫⁻ v, ENNReal.ofReal ((looks a.shape).albedo.get k / Real.pi) * ENNReal.ofReal (a.normal.dot v) *
          W.light k false (a.p, v) ∂Warp.solidAngle
      else 0) ∧
    ((looks a.shape).material = .mirror → W.light k look r =
      (if look then ENNReal.ofReal (((looks a.shape).emitted ((frameOf a.normal).toLocal r.2)).get k) else 0) +
      open Classical in if 0 < (-r.2).dot a.normal then
        ENNReal.ofReal ((looks a.shape).albedo.get k) * W.light k true (a.p, mirrorImage a.normal r.2) else 0) := by
  intro S W
  classical
  obtain ⟨hl, hl'⟩ := litRoom_lawful h box
  have hs : S.seen r = true := by show (hitOf (evals ss) box r).isSome = true; rw [ha]; rfl
  have hmat : S.material r = (looks a.shape).material := by
    show ((hitOf (evals ss) box r).map fun h => (looks h.shape).material).getD .diffuse = _
    rw [ha]; rfl
  have hemi : S.emitted r = (looks a.shape).emitted ((frameOf a.normal).toLocal r.2) := by
    show ((hitOf (evals ss) box r).map fun h => (looks h.shape).emitted ((frameOf h.normal).toLocal r.2)).getD 0 = _
    rw [ha]; rfl
  have hpt : S.point r = a.p := by
    show ((hitOf (evals ss) box r).map (·.p)).getD r.1 = _
    rw [ha]; rfl
  have hfr : (S.frame r).n = a.normal := by
    show (((hitOf (evals ss) box r).map fun h => frameOf h.normal).getD _).n = _
    rw [ha]; exact (frameOf_parts _).2.2
  have halb : S.albedo r = (looks a.shape).albedo := by
    show ((hitOf (evals ss) box r).map fun h => (looks h.shape).albedo).getD 0 = _
    rw [ha]; rfl
  have hfront : S.Front r ↔ 0 < (-r.2).dot a.normal := by unfold Room.Front; rw [hfr]
  refine ⟨fun hm => ?_, fun hm => ?_⟩
  · have hp : ∀ l ∈ lamps, l.2 ≠ S.point r := by
      intro l hl2 e
      have := lamp_far h.shapes (box := box) (looks := looks) (env := env) hδ.le (h.apart l hl2) hs
      rw [← e] at this
      have h0 : (l.2 - l.2).sqrNorm = 0 := by simp [V3.sqrNorm]
      rw [h0] at this
      nlinarith
    have := lamps_light S hl lamps h.lamps_nonneg (blockedBy (evals ss) box) (measurable_blockedBy (om_evals ss) box) k look r
      hs (hmat.trans hm) hp
    rw [hemi] at this
    simp only [hfront] at this
    unfold Room.lambert at this
    rw [halb, hpt, hfr] at this
    exact this
  · have := mirror_light (litRoom (evals ss) box looks env lamps) hl' k look r hs (hmat.trans hm)
    have e1 : (litRoom (evals ss) box looks env lamps).emitted r = S.emitted r := rfl
    have e2 : (litRoom (evals ss) box looks env lamps).Front r ↔ 0 < (-r.2).dot a.normal := hfront
    have e3 : ∀ L, (litRoom (evals ss) box looks env lamps).specular k r L = S.specular k r L := fun _ => rfl
    rw [e1, hemi, e3] at this
    simp only [e2] at this
    unfold Room.specular at this
    rw [halb, hpt, hfr] at this
    exact this

/-- **C134, glass.** Where the reflectance is a number `p`, glass sends on the light from the mirror direction and from a
direction that follows Snell's law in the proportion `p` to `1 - p`. -/
theorem sdf_glass (h : Setting ss looks env lamps ρ E I δ) (box : Option (B3 ℝ)) (k : Fin 3) (look : Bool)
    (r : Integrators.Ray) (a : Hit) (ha : hitOf (evals ss) box r = some a) (hm : (looks a.shape).material = .glass)
    (hd1 : r.2.sqrNorm = 1) (he : 0 < (looks a.shape).extIor) (hi : 0 < (looks a.shape).intIor)
    (hz : 0 < (-r.2).dot a.normal ∨ (-r.2).dot a.normal < -eps) (p : ℝ)
    (hp : Bsdf.fresnel ((-r.2).dot a.normal) (looks a.shape).extIor (looks a.shape).intIor = some p) :
    let W := (litRoom (evals ss) box looks env lamps).world
    0 ≤ p ∧ p ≤ 1 ∧ ∃ t : V3 ℝ,
      (p < 1 → Bsdf.Refracts (looks a.shape).extIor (looks a.shape).intIor ((frameOf a.normal).toLocal (-r.2))
        ((frameOf a.normal).toLocal t)) ∧
      W.light k look r =
        (if look then ENNReal.ofReal (((looks a.shape).emitted ((frameOf a.normal).toLocal r.2)).get k) else 0) +
        ENNReal.ofReal ((looks a.shape).albedo.get k) *
          (ENNReal.ofReal p * W.light k true (a.p, mirrorImage a.normal r.2) +
            ENNReal.ofReal (1 - p) * W.light k true (a.p, t)) := by
  intro W
  obtain ⟨hl, hl'⟩ := litRoom_lawful h box
  set S := litRoom (evals ss) box looks env lamps with hS
  have hs : S.seen r = true := by show (hitOf (evals ss) box r).isSome = true; rw [ha]; rfl
  have hmat : S.material r = (looks a.shape).material := by
    show ((hitOf (evals ss) box r).map fun h => (looks h.shape).material).getD .diffuse = _
    rw [ha]; rfl
  have hemi : S.emitted r = (looks a.shape).emitted ((frameOf a.normal).toLocal r.2) := by
    show ((hitOf (evals ss) box r).map fun h => (looks h.shape).emitted ((frameOf h.normal).toLocal r.2)).getD 0 = _
    rw [ha]; rfl
  have hpt : S.point r = a.p := by
    show ((hitOf (evals ss) box r).map (·.p)).getD r.1 = _
    rw [ha]; rfl
  have hfr0 : S.frame r = frameOf a.normal := by
    show ((hitOf (evals ss) box r).map fun h => frameOf h.normal).getD _ = _
    rw [ha]; rfl
  have hfr : (S.frame r).n = a.normal := by rw [hfr0]; exact (frameOf_parts _).2.2
  have halb : S.albedo r = (looks a.shape).albedo := by
    show ((hitOf (evals ss) box r).map fun h => (looks h.shape).albedo).getD 0 = _
    rw [ha]; rfl
  have hint : S.intIor r = (looks a.shape).intIor := by
    show ((hitOf (evals ss) box r).map fun h => (looks h.shape).intIor).getD 1 = _
    rw [ha]; rfl
  have hext : S.extIor r = (looks a.shape).extIor := by
    show ((hitOf (evals ss) box r).map fun h => (looks h.shape).extIor).getD 1 = _
    rw [ha]; rfl
  have := glass_light S hl' eps_pos k look r hs (hmat.trans hm) hd1 (by rw [hext]; exact he) (by rw [hint]; exact hi)
    (by unfold Room.Front; rw [hfr]; exact hz) p (by rw [hfr, hext, hint]; exact hp)
  rw [hfr, hext, hint, hfr0, hemi, halb, hpt] at this
  exact this

/-- **C134, the picture.** Such a scene seen through a perspective camera, with the default filter and at most `n` bounces.
For almost every sequence of random numbers the picture is defined for every number of samples, and as that number
grows each pixel tends to the solution of the rendering equation, averaged over the lens and the filter, less at most
the share that the bounce limit and the cut of faint paths leave out. -/
theorem sdf_picture (h : Setting ss looks env lamps ρ E I δ) (hρ : 0 ≤ ρ) (hρ1 : ρ < 1) (hE : 0 ≤ E) (hI : 0 ≤ I)
    (hδ : 0 < δ) {bs : List (B3 ℝ)} (hbs : ss.mapM Shape.boundingBox = some bs) {c : Persp} (hc : c.Ok) (hf : 0 < c.focal)
    {t : Xf ℝ} (ht : t.Aff) {ray : ℝ × ℝ → ℝ × ℝ → Integrators.Ray} (hray : c.Shows t (fun s => (s.1, s.2.1)) ray)
    {quot : ℝ → ℝ → ℝ} (hq : IsQuot quot) (n : ℕ) {L : Integrators.Ray → Stream → V3 ℝ × Stream}
    (hL : (litRoom (evals ss) (sceneBox bs) looks env lamps).world.Traces quot n L) :
    ∀ᵐ ω ∂uniform, ∃ img : ℕ → Int → Int → Fin 3 → ℝ,
      (∀ spp, renderWith apiDefaultFilter c.width c.height spp ray L ω = .ok (img spp)) ∧
      ∀ (x y : ℕ) (k : Fin 3), x < c.width → y < c.height → ∃ p : ℝ,
        Tendsto (fun spp => img spp x y k) atTop (𝓝 p) ∧
        let T := (filtered apiDefaultFilter c.width c.height x y (c.throughLens t fun s =>
          (litRoom (evals ss) (sceneBox bs) looks env lamps).world.light k true (s.1, s.2.1))).toReal
        p ≤ T ∧ T ≤ p + (ρ ^ n + 1 / 10000) * (found lamps.length ρ E I δ / (1 - ρ)) := by
  have hpi := Real.pi_pos
  have hB : 0 ≤ found lamps.length ρ E I δ := by unfold found; positivity
  have hl := (litRoom_lawful h (sceneBox bs)).2
  have hW := room_lawful _ hl
  have hsee : Measurable fun s : Sight => ((s.1, s.2.1) : Integrators.Ray) := by fun_prop
  filter_upwards [missing_in_picture hW hq n hρ hρ1 hB
    (fun k => room_sends _ hl k ρ fun r => room_albedo_le h hρ (sceneBox bs) r k)
    (fun k => finds h hρ hE hI hδ (sceneBox bs) k) hL (persp_measurable hc hf ht hsee hray) c.width c.height]
    with ω ⟨img, h1, h2⟩
  refine ⟨img, h1, fun x y k hx hy => ?_⟩
  obtain ⟨p, hp, h3, h4⟩ := h2 x y k hx hy
  have hm : Measurable ((litRoom (evals ss) (sceneBox bs) looks env lamps).world.light k true) :=
    Measurable.iSup fun m => (measurable_carried _ hW k m).comp (measurable_const.prodMk measurable_id)
  rw [lens_light hc hf ht hsee hray _ hm] at h3 h4
  exact ⟨p, hp, h3, h4⟩

/-! ## A case that meets the hypotheses -/

theorem norm_ge_y (v : V3 ℝ) : |v.y| ≤ v.norm := (abs_comp_le v).2.1

/-- A glass ball and a diffuse floor under an even sky, with a lamp at height five. -/
theorem ball_setting : Setting [.sphere 0 1, .plane ⟨0, -1, 0⟩ ⟨0, 1, 0⟩]
    (fun i => ⟨if i = 0 then .glass else .diffuse, ⟨1 / 2, 1 / 2, 1 / 2⟩, 3 / 2, 1, fun _ => 0⟩) (fun _ => ⟨1, 1, 1⟩)
    [(⟨9, 9, 9⟩, ⟨0, 5, 0⟩)] (1 / 2) 1 9 1 := by
  have hconst : ∀ (c : ℝ) (k : Fin 3), (⟨c, c, c⟩ : V3 ℝ).get k = c := by
    intro c k; fin_cases k <;> rfl
  refine ⟨?_, ?_, ?_, ?_, measurable_const, ?_, ?_, ?_, ?_, ?_⟩
  · intro s hs
    simp only [List.mem_cons, List.not_mem_nil, or_false] at hs
    rcases hs with rfl | rfl
    · exact zero_le_one
    · show (⟨0, 1, 0⟩ : V3 ℝ).sqrNorm = 1
      norm_num [V3.sqrNorm]
  · intro i
    exact ⟨⟨by norm_num, by norm_num, by norm_num⟩, fun d => NonNeg.zero, measurable_const⟩
  · intro i k
    exact (hconst _ k).le
  · intro i d k
    rw [get_zero]; exact zero_le_one
  · intro d
    exact ⟨zero_le_one, zero_le_one, zero_le_one⟩
  · intro d k
    exact (hconst _ k).le
  · intro l hl
    simp only [List.mem_cons, List.not_mem_nil, or_false] at hl
    subst hl
    exact ⟨by norm_num, by norm_num, by norm_num⟩
  · intro l hl k
    simp only [List.mem_cons, List.not_mem_nil, or_false] at hl
    subst hl
    exact (hconst _ k).le
  · intro l hl s hs q hq
    simp only [List.mem_cons, List.not_mem_nil, or_false] at hl hs
    subst hl
    have h1 := norm_ge_y ((⟨0, 5, 0⟩ : V3 ℝ) - q)
    have h2 := le_abs_self ((⟨0, 5, 0⟩ : V3 ℝ) - q).y
    have h3 : ((⟨0, 5, 0⟩ : V3 ℝ) - q).y = 5 - q.y := rfl
    have he : eps = 1 / 1000 := rfl
    unfold dist
    rcases hs with rfl | rfl
    · have hq' : (q - 0).norm ≤ 1 := hq
      have h4 := norm_ge_y (q - 0)
      have h5 := le_abs_self (q - 0).y
      have h6 : (q - 0).y = q.y - 0 := rfl
      rw [he]
      linarith
    · have hq' : (q - ⟨0, -1, 0⟩).dot ⟨0, 1, 0⟩ = 0 := hq
      have : q.y = -1 := by
        simp only [V3.dot, V3.sub_x, V3.sub_y, V3.sub_z] at hq'
        linarith
      rw [he]
      linarith

/-- The ball and the floor seen by a camera at distance five: all hypotheses of `sdf_picture` hold. -/
example : ∃ t ray bs L,
    [Shape.sphere 0 1, .plane ⟨0, -1, 0⟩ ⟨0, 1, 0⟩].mapM Shape.boundingBox = some bs ∧ t.Aff ∧
    cameraToWorld Xf.one ⟨0, 0, -5⟩ ⟨0, 0, 0⟩ ⟨0, 1, 0⟩ = some t ∧
    (⟨0, 10, 30, 1 / 10000, 10000, 512, 512⟩ : Persp).Shows t (fun s => ((s.1, s.2.1) : Integrators.Ray)) ray ∧
    (litRoom (evals [.sphere 0 1, .plane ⟨0, -1, 0⟩ ⟨0, 1, 0⟩]) (sceneBox bs)
      (fun i => ⟨if i = 0 then .glass else .diffuse, ⟨1 / 2, 1 / 2, 1 / 2⟩, 3 / 2, 1, fun _ => 0⟩) (fun _ => ⟨1, 1, 1⟩)
      [(⟨9, 9, 9⟩, ⟨0, 5, 0⟩)]).world.Traces (· / ·) 10 L ∧
    ∀ᵐ ω ∂uniform, ∃ img : ℕ → Int → Int → Fin 3 → ℝ, ∀ spp,
      renderWith apiDefaultFilter 512 512 spp ray L ω = .ok (img spp) := by
  have hview : GoodView ⟨0, 0, -5⟩ ⟨0, 0, 0⟩ ⟨0, 1, 0⟩ := by
    intro e
    have := congrArg V3.x e
    norm_num [V3.cross] at this
  have hok : (⟨0, 10, 30, 1 / 10000, 10000, 512, 512⟩ : Persp).Ok :=
    ⟨by norm_num, by norm_num, by norm_num, by norm_num, by norm_num, by norm_num⟩
  obtain ⟨-, -, -, -, t, ht, -, hta, -⟩ := cameraToWorld_spec Xf.one Xf.valid_one ⟨M4.Affine.one, M4.Affine.one⟩ _ _ _ hview
  obtain ⟨ray, hray⟩ := shows_exists hok (by norm_num) hta (fun s => ((s.1, s.2.1) : Integrators.Ray))
  have hbs : ∃ bs, [Shape.sphere 0 1, .plane ⟨0, -1, 0⟩ ⟨0, 1, 0⟩].mapM Shape.boundingBox = some bs := by
    have h2 : (2 * 1 : ℝ) ≥ 0 := by norm_num
    simp only [List.mapM_cons, List.mapM_nil, Shape.boundingBox, if_pos h2]
    exact ⟨_, rfl⟩
  obtain ⟨bs, hbs⟩ := hbs
  obtain ⟨L, hL⟩ := traces_exist (litRoom (evals [.sphere 0 1, .plane ⟨0, -1, 0⟩ ⟨0, 1, 0⟩]) (sceneBox bs)
      (fun i => ⟨if i = 0 then .glass else .diffuse, ⟨1 / 2, 1 / 2, 1 / 2⟩, 3 / 2, 1, fun _ => 0⟩) (fun _ => ⟨1, 1, 1⟩)
      [(⟨9, 9, 9⟩, ⟨0, 5, 0⟩)]).world (· / ·) 10
  refine ⟨t, ray, bs, L, hbs, hta, ht, hray, hL, ?_⟩
  have hq : IsQuot (fun a b : ℝ => a / b) := by
    first | exact isQuot_div | exact fun _ _ _ => rfl
  filter_upwards [sdf_picture ball_setting (by norm_num) (by norm_num) zero_le_one (by norm_num) one_pos hbs hok
    (by norm_num) hta hray hq 10 hL] with ω ⟨img, h1, _⟩
  exact ⟨img, h1⟩

end Feign.Sdf
