import Verif.Integrators.FurnaceSpec
import Verif.Integrators.FacetDirect
import Verif.Integrators.BouncesLemmas
import Verif.Integrators.LeftLemmas
import Verif.Image.ShootLemmas

/-! # Objects under an even sky: lemmas -/

set_option linter.unusedSectionVars false
set_option linter.unusedSimpArgs false
set_option linter.unusedVariables false

namespace Feign.Integrators

open Sampling MeasureTheory Warp Bsdf Lights Shapes

theorem Drawn.drop {ω : Stream} (h : Drawn ω) (k : ℕ) : Drawn (drop k ω) := fun n => h (n + k)

theorem white_not_zero : ¬ isZero (white : V3 ℝ) = true := by
  have : ¬ ((1 : ℝ) < 10000⁻¹) := by norm_num
  simp [isZero, white, this]

theorem white_max : (white : V3 ℝ).maxValue = 1 := by simp [V3.maxValue, white]

theorem cosHemi_pos {a b : ℝ} (hb : 0 ≤ b) (hb1 : b < 1) : 0 < (cosHemi ⟨a, b⟩).z := by
  simp only [cosHemi, uniDisk]
  refine Real.sqrt_pos.2 (lt_max_of_lt_right ?_)
  have hs := Real.sq_sqrt hb
  have hc := Real.sin_sq_add_cos_sq (2 * Real.pi * a)
  have e : Real.cos (2 * Real.pi * a) * √b * (Real.cos (2 * Real.pi * a) * √b) +
      Real.sin (2 * Real.pi * a) * √b * (Real.sin (2 * Real.pi * a) * √b) =
        (Real.sin (2 * Real.pi * a) ^ 2 + Real.cos (2 * Real.pi * a) ^ 2) * √b ^ 2 := by ring
  rw [hc, hs] at e
  linarith

/-- Two steps of a path: a surface that receives only the sky. -/
theorem trace_two (S : Room) (h : S.Lawful) (n : ℕ) (r : Ray) (ω : Stream) (hω : Drawn ω) (hs : S.seen r = true)
    (hm : S.material r ≠ .glass) (hf : S.Front r) (he : S.emitted r = 0) (hl : S.world.lit (r, ω) = (0, ω))
    (hz : ¬ isZero (S.albedo r) = true) (c : V3 ℝ)
    (hsky : ∀ v, 0 < (S.frame r).n.dot v → S.seen (S.point r, v) = false ∧ S.env (S.point r, v) = c) :
    (S.world.trace (n + 2) white true r ω).1 = S.albedo r * c ∧ Drawn (S.world.trace (n + 2) white true r ω).2 := by
  have ho := h.frame r
  have hwi : ¬ (S.wi r).z ≤ 0 := (front_iff S r).1 hf
  have hesc : ¬ S.world.escapes r = true := by simp [Room.world, hs]
  have hem : S.world.own true r = 0 := by
    show (if true then S.emitted r else 0) = 0
    rw [he]; rfl
  have hnb : ¬ (ω 0 > min (white : V3 ℝ).maxValue 1) := by
    rw [white_max, min_self]
    exact not_lt.2 (hω 0).2.le
  have hone : ∀ v : V3 ℝ, white * v = v := by intro v; ext <;> simp [white]
  have hmz : ∀ v : V3 ℝ, v * (0 + 0 : V3 ℝ) = 0 := by
    intro v; ext <;> simp
  have h0a : ∀ v : V3 ℝ, 0 + v = v := by intro v; ext <;> simp
  rw [World.trace, if_neg white_not_zero, if_neg hesc, hl]
  dsimp only
  rw [if_neg hnb, hem, hmz]
  -- what is sampled
  suffices hb : ∃ b σ, S.world.scatter r (drop 1 ω) = (b, σ) ∧ Drawn σ ∧ b.pdf ≠ 0 ∧
      step (S.world.delta r) white b = S.albedo r ∧ b.ray.1 = S.point r ∧ 0 < (S.frame r).n.dot b.ray.2 by
    obtain ⟨b, σ, e, hσ, hp, hst, hr1, hr2⟩ := hb
    rw [e]
    dsimp only
    rw [if_neg hp, hst]
    obtain ⟨k1, k2⟩ := hsky b.ray.2 hr2
    have hray : b.ray = (S.point r, b.ray.2) := Prod.ext hr1 rfl
    have e1 : S.world.escapes b.ray = true := by
      rw [hray]; simp [Room.world, k1]
    have e2 : S.world.env b.ray = c := by
      rw [hray]; exact k2
    rw [World.trace, if_neg hz, if_pos e1, e2]
    exact ⟨h0a _, hσ⟩
  have hsc : S.world.scatter r (drop 1 ω) = S.scatter r (drop 1 ω) := rfl
  rw [hsc, scatter_eq, if_neg hm, if_neg hwi]
  by_cases hmi : S.material r = .mirror
  · rw [if_pos hmi]
    have hd : S.world.delta r = true := by simp [Room.world, hmi, Material.isDelta]
    refine ⟨_, _, rfl, hω.drop 1, by simp [Room.onward, Bounce.pdf, mirrored], ?_, rfl, ?_⟩
    · rw [hd, step, hone, white_max]
      simp only [Room.onward, Bounce.albedo, Bounce.pdf, mirrored]
      ext <;> simp
    · show 0 < (S.frame r).n.dot ((S.frame r).toWorld (mirrored (S.albedo r) (S.wi r)).wo)
      rw [normal_toWorld ho]
      exact not_le.1 hwi
  · rw [if_neg hmi]
    have hdm : S.material r = .diffuse := by
      cases hmat : S.material r <;> simp_all
    have hd : S.world.delta r = false := by simp [Room.world, hdm, Material.isDelta]
    have hp := cosHemi_pos (a := (next2 (drop 1 ω)).1.1) ((hω.drop 1) 1).1 ((hω.drop 1) 1).2
    have hp' : 0 < (lobe (S.albedo r) (next2 (drop 1 ω)).1).wo.z := hp
    have hpi := Real.pi_pos
    have hpdf : (lobe (S.albedo r) (next2 (drop 1 ω)).1).pdf =
        1 / Real.pi * (lobe (S.albedo r) (next2 (drop 1 ω)).1).wo.z := rfl
    have hal : (lobe (S.albedo r) (next2 (drop 1 ω)).1).albedo = (S.albedo r).smul (1 / Real.pi) := rfl
    refine ⟨_, _, rfl, (hω.drop 1).drop 2, ?_, ?_, rfl, ?_⟩
    · show (lobe (S.albedo r) (next2 (drop 1 ω)).1).pdf ≠ 0
      rw [hpdf]
      positivity
    · rw [hd, step, hone, white_max]
      simp only [Room.onward, Bounce.albedo, Bounce.pdf, Bounce.cos, normal_toWorld ho, hpdf, hal]
      generalize (lobe (S.albedo r) (next2 (drop 1 ω)).1).wo.z = z at hp'
      rw [abs_of_pos hp']
      ext
      · show (S.albedo r).x * (1 / Real.pi) * _ = _
        simp; field_simp
      · show (S.albedo r).y * (1 / Real.pi) * _ = _
        simp; field_simp
      · show (S.albedo r).z * (1 / Real.pi) * _ = _
        simp; field_simp
    · show 0 < (S.frame r).n.dot ((S.frame r).toWorld (lobe (S.albedo r) (next2 (drop 1 ω)).1).wo)
      rw [normal_toWorld ho]
      exact hp'

/-- A surface seen from behind is black. -/
theorem trace_back (S : Room) (n : ℕ) (r : Ray) (ω : Stream) (hs : S.seen r = true)
    (hm : S.material r ≠ .glass) (hf : ¬ S.Front r) (he : S.emitted r = 0) (hl : S.world.lit (r, ω) = (0, ω)) :
    (S.world.trace n white true r ω).1 = 0 := by
  cases n with
  | zero => rfl
  | succ n =>
    have hwi : (S.wi r).z ≤ 0 := by
      by_contra hc
      exact hf ((front_iff S r).2 hc)
    have hesc : ¬ S.world.escapes r = true := by simp [Room.world, hs]
    have hem : S.world.own true r = 0 := by
      show (if true then S.emitted r else 0) = 0
      rw [he]; rfl
    have hmz : ∀ v : V3 ℝ, v * (0 + 0 : V3 ℝ) = 0 := by
      intro v; ext <;> simp
    have hsc : S.world.scatter r (drop 1 ω) = (Room.black r, drop 1 ω) := by
      show S.scatter r (drop 1 ω) = _
      rw [scatter_eq, if_neg hm, if_pos hwi]
    rw [World.trace, if_neg white_not_zero, if_neg hesc, hl]
    dsimp only
    rw [hem, hmz, hsc]
    have hp : (Room.black r).pdf = 0 := rfl
    split_ifs
    · rfl
    · rfl

/-- The numbers left over by a call. -/
theorem trace_drawn {R : Type} (W : World R) (hl : ∀ r ω, Drawn ω → Drawn (W.lit (r, ω)).2)
    (hs : ∀ r ω, Drawn ω → Drawn (W.scatter r ω).2) (n : ℕ) : ∀ β look r ω, Drawn ω → Drawn (W.trace n β look r ω).2 := by
  induction n with
  | zero => intro β look r ω h; exact h
  | succ n ih =>
    intro β look r ω h
    rw [World.trace]
    have h1 := (hl r ω h).drop 1
    split_ifs
    · exact h
    · exact h
    · exact h1
    · exact hs _ _ h1
    · exact ih _ _ _ _ (hs _ _ h1)

theorem scatter_drawn (S : Room) (r : Ray) (ω : Stream) (h : Drawn ω) : Drawn (S.scatter r ω).2 := by
  rw [scatter_eq]
  split_ifs
  · exact h.drop 1
  · exact h
  · exact h
  · exact h.drop 2

/-- A throughput that does not exceed one. -/
theorem step_le_one {R : Type} {delta : Bool} {β : V3 ℝ} {b : Bounce R} (hβ : NonNeg β) (hz : isZero β = false)
    (hβ1 : ∀ i, β.get i ≤ 1) (hp : 0 ≤ b.pdf) (hp0 : b.pdf ≠ 0) (hf : ∀ i, factor delta i b ≤ 1)
    (hfn : ∀ i, 0 ≤ factor delta i b) (i : Fin 3) : (step delta β b).get i ≤ 1 := by
  have hrr := goOn_pos hβ hz
  have hm : ∀ i, β.get i ≤ min β.maxValue 1 := by
    intro i
    refine le_min ?_ (hβ1 i)
    fin_cases i <;> simp only [V3.maxValue, V3.get] <;> split_ifs <;> linarith
  have e : (step delta β b).get i = β.get i / min β.maxValue 1 * factor delta i b := by
    rw [step, get_mul, get_smul, factor, if_neg hp0]
    field_simp
  rw [e]
  have h1 : β.get i / min β.maxValue 1 ≤ 1 := (div_le_one hrr).2 (hm i)
  have h2 : 0 ≤ β.get i / min β.maxValue 1 := div_nonneg (hβ.get i) hrr.le
  nlinarith [hf i, hfn i]

theorem factor_nonneg {R : Type} {delta : Bool} {i : Fin 3} {b : Bounce R} (ha : NonNeg b.albedo) (hp : 0 ≤ b.pdf) :
    0 ≤ factor delta i b := by
  unfold factor
  split_ifs
  · exact le_rfl
  · exact div_nonneg (mul_nonneg (ha.get i) zero_le_one) hp
  · exact div_nonneg (mul_nonneg (ha.get i) (abs_nonneg _)) hp

/-- Without lamps no path brings back more than the sky. -/
theorem trace_le {R : Type} [MeasurableSpace R] (W : World R) (h : W.Lawful) (he : ∀ r, W.emitted r = 0)
    (hl : ∀ r ω, (W.lit (r, ω)).1 = 0) (c : V3 ℝ) (hc : ∀ r i, (W.env r).get i ≤ c.get i) (hc0 : NonNeg c)
    (hf : ∀ r ω i, factor (W.delta r) i (W.scatter r ω).1 ≤ 1) (n : ℕ) :
    ∀ β look r ω, NonNeg β → (∀ i, β.get i ≤ 1) → ∀ i, (W.trace n β look r ω).1.get i ≤ c.get i := by
  induction n with
  | zero => intro β look r ω _ _ i; rw [World.trace, get_zero]; exact hc0.get i
  | succ n ih =>
    intro β look r ω hβ hβ1 i
    have hown : W.own look r = 0 := by unfold World.own; rw [he, ite_self]
    have hmz : ∀ v : V3 ℝ, v * (0 + 0 : V3 ℝ) = 0 := by intro v; ext <;> simp
    have h0a : ∀ v : V3 ℝ, 0 + v = v := by intro v; ext <;> simp
    rw [World.trace]
    by_cases hz : isZero β = true
    · rw [if_pos hz, get_zero]; exact hc0.get i
    have hz' : isZero β = false := by simpa using hz
    rw [if_neg hz]
    by_cases hes : W.escapes r = true
    · rw [if_pos hes, get_mul]
      have h1 := hc r i
      have h2 := (h.env_nonneg r).get i
      nlinarith [hβ1 i, hβ.get i]
    rw [if_neg hes, hown, hl, hmz]
    split_ifs with h1 h2
    · rw [get_zero]; exact hc0.get i
    · rw [get_zero]; exact hc0.get i
    · rw [h0a]
      have hn := h.scatter_nonneg r (drop 1 (W.lit (r, ω)).2)
      exact ih _ _ _ _ (hβ.step hz' hn.1 hn.2)
        (step_le_one hβ hz' hβ1 hn.2 h2 (hf r _) fun i => factor_nonneg hn.1 hn.2) i

/-- From a bulging object every ray away from the surface escapes. -/
theorem bulges_free (fs : List Facet) (h : ∀ T ∈ fs, T.Proper) (hb : Bulges fs) (r : Ray) (k : ℕ)
    (hw : winner fs r = some k) (v : V3 ℝ) (hv : 0 < (hitFrame fs r).n.dot v) : winner fs (hitPos fs r, v) = none := by
  obtain ⟨hk, ⟨T, hT, -, -⟩, -⟩ := winner_some.1 hw
  have hmem := List.mem_of_getElem? hT
  obtain ⟨hold, hplane⟩ := hit_holds fs h r k T hw hT
  have hfr : hitFrame fs r = T.frame := atHit_some hw hT (fun T _ => T.frame) _
  have hn : 0 < v.dot T.cross := by
    rw [hfr, (frame_spec T (h T hmem).area).2, Facet.normal] at hv
    have hp := norm_pos_of_ne (h T hmem).area
    have e : (T.cross.smul (1 / T.cross.norm)).dot v = v.dot T.cross / T.cross.norm := by
      simp only [V3.dot, V3.smul_x, V3.smul_y, V3.smul_z]
      field_simp
    rw [e] at hv
    have := mul_pos hv hp
    rwa [div_mul_cancel₀ _ hp.ne'] at this
  cases hw' : winner fs (hitPos fs r, v) with
  | none => rfl
  | some j =>
    exfalso
    obtain ⟨hj, ⟨T', hT', hm, -⟩, -⟩ := winner_some.1 hw'
    have hmem' := List.mem_of_getElem? hT'
    have hq := hb T hmem T' hmem' _ (meets_holds T' (h T' hmem').area _ hm)
    have hd := hm.2.2.2.2
    have hpl : (hitPos fs r - T.p0).dot T.cross = 0 := by
      have e : (hitPos fs r - T.p0).dot T.cross = -((T.p0 - hitPos fs r).dot T.cross) := by
        simp only [V3.dot, V3.sub_x, V3.sub_y, V3.sub_z]
        ring
      rw [e, hplane, neg_zero]
    have e : ((hitPos fs r, v).1 + (hitPos fs r, v).2.smul (T'.dist (hitPos fs r, v)) - T.p0).dot T.cross =
        (hitPos fs r - T.p0).dot T.cross + T'.dist (hitPos fs r, v) * v.dot T.cross := by
      simp only [V3.dot, V3.add_x, V3.add_y, V3.add_z, V3.smul_x, V3.smul_y, V3.smul_z, V3.sub_x, V3.sub_y, V3.sub_z]
      ring
    rw [e, hpl] at hq
    have : 0 < T'.dist (hitPos fs r, v) * v.dot T.cross := mul_pos (by linarith) hn
    linarith

/-- Without lamps the light samples are void and nothing is drawn for them. -/
theorem lit_dark (fs : List Facet) (env : V3 ℝ → V3 ℝ) (hg : ∀ T ∈ fs, T.glow = none) (r : Ray) (ω : Stream) :
    (facetRoom fs env).world.lit (r, ω) = (0, ω) := by
  have hl : (lamps fs).length = 0 := by
    have : lamps fs = [] := by
      unfold lamps
      rw [List.filterMap_eq_nil_iff]
      rintro ⟨T, k⟩ hq
      have hT : T ∈ fs := List.fst_mem_of_mem_zipIdx hq
      simp [Facet.light, hg T hT]
    rw [this]; rfl
  unfold World.lit
  split_ifs
  · rfl
  · have e : (facetRoom fs env).world.lights r ω = lampSamples fs r ω := rfl
    simp only [e]
    unfold lampSamples
    cases winner fs r with
    | none => rfl
    | some k =>
      dsimp only
      rw [if_pos hl]
      simp [total]

theorem dark_emitted (fs : List Facet) (env : V3 ℝ → V3 ℝ) (hg : ∀ T ∈ fs, T.glow = none) (r : Ray) :
    (facetRoom fs env).emitted r = 0 :=
  atHit_all fs (fun T r => T.emitted r.2) 0 r (· = 0) (fun T hT => emitted_dark T (hg T hT) _) rfl

/-! ## Streams through the loops -/

section Loops

variable {R : Type} {ray : ℝ × ℝ → ℝ × ℝ → R} {Li : R → Stream → V3 ℝ × Stream}

open Image in
theorem after_drawn (hL : ∀ r ω, Drawn ω → Drawn (Li r ω).2) (l : List (ℕ × ℕ)) : ∀ ω, Drawn ω → Drawn (after ray Li l ω) := by
  induction l with
  | nil => intro ω h; exact h
  | cons p l ih =>
    intro ω h
    exact ih _ (hL _ _ ((h.drop 2).drop 2))

open Image in
/-- Every sample of the picture is one call with numbers from the sampler. -/
theorem obs_drawn (hL : ∀ r ω, Drawn ω → Drawn (Li r ω).2) (w h : ℕ) (ω : Stream) (hω : Drawn ω) (k i j : ℕ) :
    ∃ σ, Drawn σ ∧ obsAt ray Li w h ω k i j =
      ⟨σ 0, σ 1, (Li (ray ((j : ℝ) + σ 0, (i : ℝ) + σ 1) (σ 2, σ 3)) (drop 4 σ)).1.get⟩ := by
  have hit : ∀ k, Drawn ((after ray Li (scan w h))^[k] ω) := by
    intro k
    induction k with
    | zero => exact hω
    | succ k ih =>
      rw [Function.iterate_succ_apply']
      exact after_drawn hL _ _ ih
  exact ⟨_, after_drawn hL _ _ (hit k), rfl⟩

end Loops

end Feign.Integrators
