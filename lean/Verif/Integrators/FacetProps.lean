import Verif.Integrators.FacetDirect
import Verif.Integrators.BouncesProps

/-! # C132: sampling a lamp finds the same light as hitting it -/

set_option linter.unusedSectionVars false
set_option linter.unusedSimpArgs false
set_option linter.unusedVariables false

namespace Feign.Integrators

open Sampling MeasureTheory Warp Bsdf Lights Shapes Set
open scoped ENNReal Topology

/-- **C132, one bounce.** Lamps at least `Epsilon` away from other objects. On a diffuse surface the mean of the light
samples is Lambert's integral of the light that the lamps send along the rays that hit them. -/
theorem lamps_agree (fs : List Facet) (h : ∀ T ∈ fs, T.Proper) (hcl : LampsClear fs) (env : V3 ℝ → V3 ℝ)
    (he : Measurable env) (he0 : ∀ d, NonNeg (env d)) (i : Fin 3) (r : Ray) (hs : (facetRoom fs env).seen r = true)
    (hm : (facetRoom fs env).material r = .diffuse) :
    (facetRoom fs env).world.direct i r = open Classical in if (facetRoom fs env).Front r then
      (facetRoom fs env).lambert i r fun r' => ENNReal.ofReal (((facetRoom fs env).emitted r').get i) else 0 := by
  have hlaw := facets_lawful fs h env he he0
  obtain ⟨k, hw⟩ := Option.isSome_iff_exists.1 hs
  obtain ⟨-, ⟨T, hk, -, -⟩, -⟩ := winner_some.1 hw
  obtain ⟨hold, hplane⟩ := hit_holds fs h r k T hw hk
  rw [direct_shares fs h env i r k hw hm]
  have hback : (facetRoom fs env).Front r ↔ 0 < ((hitFrame fs r).toLocal (-r.2)).z := Iff.rfl
  by_cases hf : (facetRoom fs env).Front r
  · have hme : Measurable fun r' => ENNReal.ofReal (((facetRoom fs env).emitted r').get i) :=
      ((measurable_get i).comp hlaw.emitted).ennreal_ofReal
    rw [if_pos hf, lambert_mean _ hlaw i r _ hme]
    have e : ∀ g ∈ glowing fs, (if g.2.2 = k then 0 else
        ∫⁻ q, ENNReal.ofReal ((lampShare g.1 g.2.1 (shadowed fs) (hitPos fs r) (hitFrame fs r).n
          (atHit fs (fun T _ => T.albedo) 0 r) ((hitFrame fs r).toLocal (-r.2)).z
          (pair (uniTri ⟨q.1, q.2⟩))).get i) ∂square) =
        ENNReal.ofReal (((facetRoom fs env).albedo r).get i) *
          ∫⁻ q, lampSent fs i (hitPos fs r) g.1 g.2.2 ((hitFrame fs r).toWorld (cosHemi ⟨q.1, q.2⟩)) ∂square := by
      intro g hg
      obtain ⟨hg1, hg2⟩ := glowing_mem hg
      by_cases hgk : g.2.2 = k
      · rw [if_pos hgk]
        have hgT : g.1 = T := by
          rw [hgk, hk] at hg1
          exact (Option.some.inj hg1).symm
        simp only [lamp_plane fs h i (hitPos fs r) g.1 g.2.2 hg1 (by rw [hgT]; exact hplane), lintegral_zero, mul_zero]
      · rw [if_neg hgk]
        exact lamp_integral fs h hcl k g.2.2 g.1 T g.2.1 hg1 hk (Ne.symm hgk) hg2 (hitPos fs r) hold (hitFrame fs r)
          (hlaw.frame r) _ (hlaw.albedo_nonneg r) _ (hback.1 hf) i
    rw [List.map_congr_left e, List.sum_map_mul_left,
      lintegral_list_sum square (glowing fs) (fun g q => lampSent fs i (hitPos fs r) g.1 g.2.2
        ((hitFrame fs r).toWorld (cosHemi ⟨q.1, q.2⟩))) fun g => (measurable_lampSent fs i _ g.1 g.2.2).comp
          ((measurable_toWorld (hitFrame fs r)).comp measurable_cosHemi)]
    congr 1
    refine lintegral_congr fun q => ?_
    exact lamps_sum fs env i (hitPos fs r) _
  · rw [if_neg hf]
    have hb : ((hitFrame fs r).toLocal (-r.2)).z ≤ 0 := not_lt.1 fun hc => hf (hback.2 hc)
    have hz : ∀ (g : Facet × V3 ℝ × ℕ) (x : ℝ × ℝ), lampShare g.1 g.2.1 (shadowed fs) (hitPos fs r) (hitFrame fs r).n
        (atHit fs (fun T _ => T.albedo) 0 r) ((hitFrame fs r).toLocal (-r.2)).z x = 0 := by
      intro g x
      unfold lampShare shareAt
      dsimp only
      rw [if_pos (Or.inr (Or.inl hb))]
    simp only [hz, get_zero, ENNReal.ofReal_zero, lintegral_zero, ite_self]
    simp

/-- Light with and without what the first surface emits. -/
theorem light_split (fs : List Facet) (h : ∀ T ∈ fs, T.Proper) (env : V3 ℝ → V3 ℝ) (he : Measurable env)
    (he0 : ∀ d, NonNeg (env d)) (i : Fin 3) (r : Ray) :
    (facetRoom fs env).world.light i true r =
      ENNReal.ofReal (((facetRoom fs env).emitted r).get i) + (facetRoom fs env).world.light i false r := by
  have hlaw := room_lawful _ (facets_lawful fs h env he he0)
  rw [rendering_equation _ hlaw i true r, rendering_equation _ hlaw i false r]
  cases hs : (facetRoom fs env).seen r with
  | false =>
    have hesc : (facetRoom fs env).world.escapes r = true := by simp [Room.world, hs]
    have hw : winner fs r = none := by
      have : (winner fs r).isSome = false := hs
      simpa using this
    have hem : (facetRoom fs env).emitted r = 0 := atHit_none hw (fun T r => T.emitted r.2) 0
    rw [if_pos hesc, if_pos hesc, hem, get_zero, ENNReal.ofReal_zero, zero_add]
  | true =>
    have hesc : ¬ (facetRoom fs env).world.escapes r = true := by simp [Room.world, hs]
    rw [if_neg hesc, if_neg hesc]
    have hwe : (facetRoom fs env).world.emitted r = (facetRoom fs env).emitted r := rfl
    rw [hwe]
    simp only [Bool.false_eq_true, if_true, if_false, zero_add]
    rw [add_assoc]

/-- **C132.** Lamps at least `Epsilon` away from other objects. What the path integrator converges to satisfies the
rendering equation, which does not mention samples of lamps. (Glass: `glass_light`.) -/
theorem physical_light (fs : List Facet) (h : ∀ T ∈ fs, T.Proper) (hcl : LampsClear fs) (env : V3 ℝ → V3 ℝ)
    (he : Measurable env) (he0 : ∀ d, NonNeg (env d)) (i : Fin 3) :
    (facetRoom fs env).Physical i ((facetRoom fs env).world.light i true) := by
  classical
  set S := facetRoom fs env with hS
  set L := S.world.light i true with hLd
  have hlaw : S.Lawful := facets_lawful fs h env he he0
  refine ⟨fun r hs => ?_, fun r hs hm => ?_, fun r hs hm => ?_⟩
  · have hesc : S.world.escapes r = true := by simp [Room.world, hs]
    show S.world.light i true r = _
    rw [rendering_equation _ (room_lawful _ hlaw) i true r, if_pos hesc]
    rfl
  · show S.world.light i true r = _
    have hmf : Measurable (S.world.light i false) :=
      Measurable.iSup fun n => (measurable_carried S.world (room_lawful S hlaw) i n).comp
        (measurable_const.prodMk measurable_id)
    have hme : Measurable fun r' => ENNReal.ofReal ((S.emitted r').get i) :=
      ((measurable_get i).comp hlaw.emitted).ennreal_ofReal
    rw [diffuse_light S hlaw i true r hs hm, lamps_agree fs h hcl env he he0 i r hs hm, if_pos rfl, add_assoc]
    congr 1
    by_cases hf : S.Front r
    · have hf' : (facetRoom fs env).Front r := hf
      rw [if_pos hf, if_pos hf, if_pos hf]
      have hL : L = fun r' => ENNReal.ofReal ((S.emitted r').get i) + S.world.light i false r' :=
        funext fun r' => light_split fs h env he he0 i r'
      rw [hL]
      unfold Room.lambert
      have hA : Measurable fun v : V3 ℝ => ENNReal.ofReal ((S.albedo r).get i / Real.pi) *
          ENNReal.ofReal ((S.frame r).n.dot v) * ENNReal.ofReal ((S.emitted (S.point r, v)).get i) :=
        ((measurable_dot measurable_const measurable_id).ennreal_ofReal.const_mul _).mul
          (hme.comp (measurable_const.prodMk measurable_id))
      simp only [mul_add]
      rw [lintegral_add_left hA]
    · have hf' : ¬ (facetRoom fs env).Front r := hf
      rw [if_neg hf, if_neg hf, if_neg hf, add_zero]
  · show S.world.light i true r = _
    rw [mirror_light S hlaw i true r hs hm, if_pos rfl]

/-- Without emission of the first surface: what a solution of the rendering equation says of the light that a surface
sends on. -/
theorem physical_solves (fs : List Facet) (h : ∀ T ∈ fs, T.Proper) (hcl : LampsClear fs) (env : V3 ℝ → V3 ℝ)
    (he : Measurable env) (he0 : ∀ d, NonNeg (env d)) (hglass : ∀ T ∈ fs, T.material ≠ .glass) (i : Fin 3)
    (L : Ray → ℝ≥0∞) (hL : Measurable L) (hP : (facetRoom fs env).Physical i L) :
    ∃ M : Bool → Ray → ℝ≥0∞, (facetRoom fs env).world.Solves i M ∧ M true = L ∧ ∀ r, M false r ≤ L r := by
  classical
  set S := facetRoom fs env with hS
  have hlaw : S.Lawful := facets_lawful fs h env he he0
  have hme : Measurable fun r' => ENNReal.ofReal ((S.emitted r').get i) :=
    ((measurable_get i).comp hlaw.emitted).ennreal_ofReal
  let sent : Ray → ℝ≥0∞ := fun r =>
    if S.seen r = false then ENNReal.ofReal ((S.env r).get i)
    else if S.Front r then (if S.material r = .mirror then S.specular i r L else S.lambert i r L) else 0
  have hmat : ∀ r, S.material r = .diffuse ∨ S.material r = .mirror := by
    intro r
    have : S.material r ≠ .glass := atHit_all fs (fun T _ => T.material) .diffuse r (· ≠ .glass) hglass (by simp)
    cases hm : S.material r with
    | diffuse => exact Or.inl rfl
    | mirror => exact Or.inr rfl
    | glass => exact absurd hm this
  have hdark : ∀ r, S.seen r = false → S.emitted r = 0 := by
    intro r hs
    have hw : winner fs r = none := by
      have : (winner fs r).isSome = false := hs
      simpa using this
    exact atHit_none hw (fun T r => T.emitted r.2) 0
  -- the solution is emission and what is sent on
  have hsplit : ∀ r, L r = ENNReal.ofReal ((S.emitted r).get i) + sent r := by
    intro r
    cases hs : S.seen r with
    | false =>
      rw [hP.sky r hs, hdark r hs, get_zero, ENNReal.ofReal_zero, zero_add]
      exact (if_pos hs).symm
    | true =>
      have hs' : ¬ S.seen r = false := by simp [hs]
      rcases hmat r with hm | hm
      · rw [hP.diffuse r hs hm]
        simp only [sent]
        rw [if_neg hs', if_neg (show ¬ S.material r = .mirror by rw [hm]; simp)]
      · rw [hP.mirror r hs hm]
        simp only [sent]
        rw [if_neg hs', if_pos hm]
  refine ⟨fun look r => if look then L r else sent r, ?_, by funext r; simp, fun r => ?_⟩
  · intro look r
    cases hs : S.seen r with
    | false =>
      have hesc : S.world.escapes r = true := by simp [Room.world, hs]
      rw [if_pos hesc]
      show (if look then L r else sent r) = ENNReal.ofReal ((S.env r).get i)
      have h2 : sent r = ENNReal.ofReal ((S.env r).get i) := if_pos hs
      rw [h2, hP.sky r hs, ite_self]
    | true =>
      have hesc : ¬ S.world.escapes r = true := by simp [Room.world, hs]
      have hs' : ¬ S.seen r = false := by simp [hs]
      rw [if_neg hesc]
      have key : sent r = S.world.direct i r + ∫⁻ ω, ENNReal.ofReal (factor (S.world.delta r) i (S.world.scatter r ω).1) *
          (if S.world.delta r then L (S.world.scatter r ω).1.ray else sent (S.world.scatter r ω).1.ray) ∂uniform := by
        rcases hmat r with hm | hm
        · have hd : S.world.delta r = false := by simp [Room.world, hm, Material.isDelta]
          have hsc : ∀ ω, S.world.scatter r ω = S.scatter r ω := fun _ => rfl
          rw [hd]
          simp only [Bool.false_eq_true, if_false, hsc]
          rw [lamps_agree fs h hcl env he he0 i r hs hm, ← hS, ← scatter_diffuse S hlaw i r hm _ hme,
            ← lintegral_add_left]
          · simp only [← mul_add, ← hsplit]
            rw [scatter_diffuse S hlaw i r hm L hL]
            simp only [sent]
            rw [if_neg hs', if_neg (show ¬ S.material r = .mirror by rw [hm]; simp)]
          · have hws := (room_lawful S hlaw).scatter.comp (measurable_const.prodMk measurable_id :
              Measurable fun ω : Stream => ((r, ω) : Ray × Stream))
            have hb : Measurable fun ω => (S.scatter r ω).1 := measurable_fst.comp hws
            exact (measurable_factor i measurable_const hb).ennreal_ofReal.mul
              (hme.comp (measurable_snd.comp (measurable_snd.comp (measurable_snd.comp hb))))
        · have hd : S.world.delta r = true := by simp [Room.world, hm, Material.isDelta]
          have hsc : ∀ ω, S.world.scatter r ω = S.scatter r ω := fun _ => rfl
          have hdir : S.world.direct i r = 0 := by simp [World.direct, hd]
          rw [hdir, hd, zero_add]
          simp only [if_true, hsc]
          rw [scatter_mirror S hlaw i r hm L]
          simp only [sent]
          rw [if_neg hs', if_pos hm]
      have hem : S.world.emitted r = S.emitted r := rfl
      rw [hem, add_assoc, ← key]
      cases look with
      | false => simp
      | true =>
        simp only [if_true]
        exact hsplit r
  · simp only [Bool.false_eq_true, if_false]
    rw [hsplit r]
    exact le_add_self

/-- **C132, the least solution.** Without glass, no solution of the rendering equation is smaller anywhere than what the
path integrator converges to. -/
theorem physical_least (fs : List Facet) (h : ∀ T ∈ fs, T.Proper) (hcl : LampsClear fs) (env : V3 ℝ → V3 ℝ)
    (he : Measurable env) (he0 : ∀ d, NonNeg (env d)) (hglass : ∀ T ∈ fs, T.material ≠ .glass) (i : Fin 3)
    (L : Ray → ℝ≥0∞) (hL : Measurable L) (hP : (facetRoom fs env).Physical i L) (r : Ray) :
    (facetRoom fs env).world.light i true r ≤ L r := by
  obtain ⟨M, hM, hML, -⟩ := physical_solves fs h hcl env he he0 hglass i L hL hP
  rw [← hML]
  exact (light_least _ (room_lawful _ (facets_lawful fs h env he he0)) i).2 M hM true r

/-- **C132, the only solution.** If moreover no colour exceeds `ρ < 1`, it is the only bounded one. -/
theorem physical_unique (fs : List Facet) (h : ∀ T ∈ fs, T.Proper) (hcl : LampsClear fs) (env : V3 ℝ → V3 ℝ)
    (he : Measurable env) (he0 : ∀ d, NonNeg (env d)) (hglass : ∀ T ∈ fs, T.material ≠ .glass) (i : Fin 3) (ρ : ℝ)
    (hρ : 0 ≤ ρ) (hρ1 : ρ < 1) (hc : ∀ T ∈ fs, T.albedo.get i ≤ ρ)
    (L : Ray → ℝ≥0∞) (hL : Measurable L) (hP : (facetRoom fs env).Physical i L) (B : ℝ)
    (hB : ∀ r, L r ≤ ENNReal.ofReal B) : L = (facetRoom fs env).world.light i true := by
  have hlaw := facets_lawful fs h env he he0
  obtain ⟨M, hM, hML, hle⟩ := physical_solves fs h hcl env he he0 hglass i L hL hP
  have hsend : (facetRoom fs env).world.SendsAtMost i ρ := room_sends _ hlaw i ρ fun r =>
    atHit_all fs (fun T _ => T.albedo) 0 r (fun a => a.get i ≤ ρ) hc (by rw [get_zero]; exact hρ)
  have hu := light_unique _ (room_lawful _ hlaw) hρ hρ1 hsend M hM B (by
    intro look r
    cases look with
    | false => exact (hle r).trans (hB r)
    | true => rw [hML]; exact hB r)
  rw [← hML, hu]

/-- Nothing found on a surface exceeds twice the largest emission. -/
theorem facet_finds (fs : List Facet) (h : ∀ T ∈ fs, T.Proper) (hcl : LampsClear fs) (env : V3 ℝ → V3 ℝ)
    (he : Measurable env) (he0 : ∀ d, NonNeg (env d)) (i : Fin 3) {ρ E : ℝ} (hρ1 : ρ ≤ 1) (hE0 : 0 ≤ E)
    (hsend : (facetRoom fs env).world.SendsAtMost i ρ) (hE : ∀ T ∈ fs, ∀ I, T.glow = some I → I.get i ≤ E)
    (henv : ∀ d, (env d).get i ≤ E) : (facetRoom fs env).world.FindsAtMost i (2 * E) := by
  classical
  set S := facetRoom fs env with hS
  have hlaw : S.Lawful := facets_lawful fs h env he he0
  have hme : Measurable fun r' => ENNReal.ofReal ((S.emitted r').get i) :=
    ((measurable_get i).comp hlaw.emitted).ennreal_ofReal
  have hem : ∀ r, (S.emitted r).get i ≤ E := fun r =>
    atHit_all fs (fun T r => T.emitted r.2) 0 r (fun c => c.get i ≤ E) (fun T hT => by
      simp only [Facet.emitted]
      split
      · next I hI =>
        split_ifs
        · rw [get_zero]; exact hE0
        · exact hE T hT I hI
      · rw [get_zero]; exact hE0) (by rw [get_zero]; exact hE0)
  have hdir : ∀ r, S.seen r = true → S.world.direct i r ≤ ENNReal.ofReal E := by
    intro r hs
    by_cases hm : S.material r = .diffuse
    · rw [lamps_agree fs h hcl env he he0 i r hs hm, ← hS, ← scatter_diffuse S hlaw i r hm _ hme]
      have hd : S.world.delta r = false := by simp [Room.world, hm, Material.isDelta]
      have hsr := hsend r
      rw [hd] at hsr
      have hsc : ∀ ω, S.world.scatter r ω = S.scatter r ω := fun _ => rfl
      simp only [hsc] at hsr
      calc _ ≤ ∫⁻ ω, ENNReal.ofReal (factor false i (S.scatter r ω).1) * ENNReal.ofReal E ∂uniform :=
            lintegral_mono fun ω => mul_le_mul_right (ENNReal.ofReal_le_ofReal (hem _)) _
        _ = (∫⁻ ω, ENNReal.ofReal (factor false i (S.scatter r ω).1) ∂uniform) * ENNReal.ofReal E :=
            lintegral_mul_const' _ _ ENNReal.ofReal_ne_top
        _ ≤ 1 * ENNReal.ofReal E :=
            mul_le_mul_left (hsr.trans (ENNReal.ofReal_le_one.2 hρ1)) _
        _ = _ := one_mul _
    · have hd : S.world.delta r = true := by
        have : S.world.delta r = (S.material r).isDelta := rfl
        rw [this]
        cases hm' : S.material r with
        | diffuse => exact absurd hm' hm
        | mirror => rfl
        | glass => rfl
      simp [World.direct, hd]
  intro r
  cases hs : S.seen r with
  | false =>
    have hesc : S.world.escapes r = true := by simp [Room.world, hs]
    rw [if_pos hesc]
    exact ENNReal.ofReal_le_ofReal ((henv r.2).trans (by linarith))
  | true =>
    have hesc : ¬ S.world.escapes r = true := by simp [Room.world, hs]
    rw [if_neg hesc, two_mul, ENNReal.ofReal_add hE0 hE0]
    exact add_le_add (ENNReal.ofReal_le_ofReal (hem r)) (hdir r hs)

open Image _root_.Filter in
/-- **C132, the picture.** Diffuse and mirror triangles, lamps at least `Epsilon` away from other objects, colours at most
`ρ < 1`, intensities and environment at most `E`, any camera. The rendering equation has exactly one bounded solution, and
the picture that the path integrator with `n` bounces converges to, under the default filter, is the filtered solution up
to `(ρ^n + 1/10000) · 2E/(1-ρ)`, never brighter. -/
theorem physical_picture (fs : List Facet) (h : ∀ T ∈ fs, T.Proper) (hcl : LampsClear fs) (env : V3 ℝ → V3 ℝ)
    (he : Measurable env) (he0 : ∀ d, NonNeg (env d)) (hglass : ∀ T ∈ fs, T.material ≠ .glass) {ρ E : ℝ}
    (hρ : 0 ≤ ρ) (hρ1 : ρ < 1) (hE0 : 0 ≤ E) (hc : ∀ i, ∀ T ∈ fs, T.albedo.get i ≤ ρ)
    (hE : ∀ i, ∀ T ∈ fs, ∀ I, T.glow = some I → I.get i ≤ E) (henv : ∀ i d, (env d).get i ≤ E)
    {quot : ℝ → ℝ → ℝ} (hq : IsQuot quot) (n : ℕ) {Li : Ray → Stream → V3 ℝ × Stream}
    (hLi : (facetRoom fs env).world.Traces quot n Li) {ray : ℝ × ℝ → ℝ × ℝ → Ray}
    (hcam : Measurable fun q : (ℝ × ℝ) × (ℝ × ℝ) => ray q.1 q.2) (w hgt : ℕ) :
    ∃ L : Fin 3 → Ray → ℝ≥0∞,
      (∀ i, Measurable (L i) ∧ (∀ r, L i r ≤ ENNReal.ofReal (2 * E / (1 - ρ))) ∧ (facetRoom fs env).Physical i (L i)) ∧
      (∀ i L' B, Measurable L' → (∀ r, L' r ≤ ENNReal.ofReal B) → (facetRoom fs env).Physical i L' → L' = L i) ∧
      ∀ᵐ ω ∂uniform, ∃ img : ℕ → Int → Int → Fin 3 → ℝ,
        (∀ spp, renderWith apiDefaultFilter w hgt spp ray Li ω = .ok (img spp)) ∧
        ∀ (x y : ℕ) (c : Fin 3), x < w → y < hgt → ∃ a : ℝ, Tendsto (fun spp => img spp x y c) atTop (𝓝 a) ∧
          a ≤ (filtered apiDefaultFilter w hgt x y (Image.lightAt ray (L c))).toReal ∧
          (filtered apiDefaultFilter w hgt x y (Image.lightAt ray (L c))).toReal ≤
            a + (ρ ^ n + 1 / 10000) * (2 * E / (1 - ρ)) := by
  have hlaw := facets_lawful fs h env he he0
  have hw := room_lawful _ hlaw
  have hsend : ∀ i, (facetRoom fs env).world.SendsAtMost i ρ := fun i => room_sends _ hlaw i ρ fun r =>
    atHit_all fs (fun T _ => T.albedo) 0 r (fun a => a.get i ≤ ρ) (hc i) (by rw [get_zero]; exact hρ)
  have hfind : ∀ i, (facetRoom fs env).world.FindsAtMost i (2 * E) := fun i =>
    facet_finds fs h hcl env he he0 i hρ1.le hE0 (hsend i) (hE i) (henv i)
  have hE2 : 0 ≤ 2 * E := by linarith
  refine ⟨fun i => (facetRoom fs env).world.light i true, fun i => ⟨?_, fun r => ?_, ?_⟩, ?_, ?_⟩
  · exact Measurable.iSup fun k => (measurable_carried _ hw i k).comp (measurable_const.prodMk measurable_id)
  · exact (missing_light _ hw hρ hρ1 hE2 (hsend i) (hfind i) 0 true r).1
  · exact physical_light fs h hcl env he he0 i
  · exact fun i L' B hL' hB hP => physical_unique fs h hcl env he he0 hglass i ρ hρ hρ1 (hc i) L' hL' hP B hB
  · exact missing_in_picture hw hq n hρ hρ1 hE2 hsend hfind hLi hcam w hgt

end Feign.Integrators
