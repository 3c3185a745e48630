import Verif.Integrators.FurnaceLemmas
import Verif.Integrators.FacetScene

/-!
# C133: a white object under an even sky cannot be seen

The furnace test, for every random number: nothing that path tracing returns is brighter than the sky, and a bulging
object shows its colour times the sky's.
-/

set_option linter.unusedSectionVars false
set_option linter.unusedSimpArgs false
set_option linter.unusedVariables false

namespace Feign.Integrators

open Sampling MeasureTheory Warp Bsdf Lights Shapes Image

/-- **C133, nothing is brighter than the sky.** No emission, no lamps, no colour above one; any surfaces, any random
numbers, any number of bounces: what a ray brings back is in every channel at most the largest value of the
environment. -/
theorem no_brighter_ray (S : Room) (h : S.Lawful) (he : ∀ r, S.emitted r = 0)
    (hl : ∀ r ω, total (S.lights r ω).1 = 0) (ha : ∀ r i, (S.albedo r).get i ≤ 1) (c : V3 ℝ) (hc0 : NonNeg c)
    (hc : ∀ r i, (S.env r).get i ≤ c.get i) {quot : ℝ → ℝ → ℝ} (hq : IsQuot quot) (n : ℕ)
    {Li : Ray → Stream → V3 ℝ × Stream} (hLi : S.world.Traces quot n Li) (r : Ray) (ω : Stream) (i : Fin 3) :
    0 ≤ (Li r ω).1.get i ∧ (Li r ω).1.get i ≤ c.get i := by
  have hw := room_lawful S h
  rw [Traces.eq hw hq hLi]
  constructor
  · rw [trace_fst]
    exact (gather_nonneg S.world hw n white true r ω NonNeg.white).get i
  · refine trace_le S.world hw he (fun r ω => ?_) c hc hc0 (fun r ω i => ?_) n white true r ω NonNeg.white ?_ i
    · unfold World.lit
      split_ifs
      · rfl
      · exact hl r ω
    · exact (room_factor S h i r ω).trans (ha r i)
    · intro i; fin_cases i <;> simp [white, V3.get]

/-- **C133, pictures.** The same for every pixel, at every number of samples. -/
theorem no_brighter_picture (S : Room) (h : S.Lawful) (he : ∀ r, S.emitted r = 0)
    (hl : ∀ r ω, total (S.lights r ω).1 = 0) (ha : ∀ r i, (S.albedo r).get i ≤ 1) (c : V3 ℝ) (hc0 : NonNeg c)
    (hc : ∀ r i, (S.env r).get i ≤ c.get i) {quot : ℝ → ℝ → ℝ} (hq : IsQuot quot) (n : ℕ)
    {Li : Ray → Stream → V3 ℝ × Stream} (hLi : S.world.Traces quot n Li) (flt : Image.Filter ℝ) (hflt : flt.WellBehaved)
    (ray : ℝ × ℝ → ℝ × ℝ → Ray) (w hgt spp : ℕ) (ω : Stream) :
    ∃ img, renderWith flt w hgt spp ray Li ω = .ok img ∧
      ∀ (x y : ℕ) (i : Fin 3), x < w → y < hgt → 0 ≤ img x y i ∧ img x y i ≤ c.get i := by
  rw [renderWith_eq]
  have hb : ∀ i, ∃ img, render id flt w hgt spp (obsAt ray Li w hgt ω) = .ok img ∧ ∀ x y : ℕ, x < w → y < hgt →
      0 ≤ img x y i ∧ img x y i ≤ c.get i := by
    intro i
    obtain ⟨img, e, hi⟩ := render_pixel_between flt hflt w hgt spp (obsAt ray Li w hgt ω) i 0 (c.get i)
      (fun k a b _ _ _ => (no_brighter_ray S h he hl ha c hc0 hc hq n hLi _ _ i).1)
      (fun k a b _ _ _ => (no_brighter_ray S h he hl ha c hc0 hc hq n hLi _ _ i).2)
    refine ⟨img, e, fun x y hx hy => ?_⟩
    rcases hi x y hx hy with ⟨-, h0⟩ | ⟨-, h1, h2⟩
    · rw [h0]; exact ⟨le_rfl, hc0.get i⟩
    · exact ⟨h1, h2⟩
  obtain ⟨img, e, -⟩ := hb 0
  refine ⟨img, e, fun x y i hx hy => ?_⟩
  obtain ⟨img', e', h'⟩ := hb i
  rw [e] at e'
  cases e'
  exact h' x y hx hy

/-- **C133, one ray.** A bulging object of diffuse and mirror triangles without lamps under a sky of one colour; at least
two bounces. A ray that meets the object from its front brings back the colour of the object times that of the sky,
whatever the random numbers are; one that misses it brings back the sky. -/
theorem furnace_ray (fs : List Facet) (h : ∀ T ∈ fs, T.Proper) (hb : Bulges fs) (hg : ∀ T ∈ fs, T.glow = none)
    (hm : ∀ T ∈ fs, T.material ≠ .glass) (hz : ∀ T ∈ fs, ¬ isZero T.albedo = true) (c : V3 ℝ) (hc : NonNeg c)
    {quot : ℝ → ℝ → ℝ} (hq : IsQuot quot) (n : ℕ) (hn : 2 ≤ n) {Li : Ray → Stream → V3 ℝ × Stream}
    (hLi : (facetRoom fs fun _ => c).world.Traces quot n Li) (r : Ray) (ω : Stream) (hω : Drawn ω) :
    ((facetRoom fs fun _ => c).seen r = false → (Li r ω).1 = c) ∧
    ((facetRoom fs fun _ => c).seen r = true → (facetRoom fs fun _ => c).Front r →
      (Li r ω).1 = (facetRoom fs fun _ => c).albedo r * c) := by
  have hlaw := facets_lawful fs h (fun _ => c) measurable_const fun _ => hc
  have hw := room_lawful _ hlaw
  obtain ⟨m, rfl⟩ : ∃ m, n = m + 2 := ⟨n - 2, by omega⟩
  rw [Traces.eq hw hq hLi]
  constructor
  · intro hs
    have hesc : (facetRoom fs fun _ => c).world.escapes r = true := by simp [Room.world, hs]
    rw [World.trace, if_neg white_not_zero, if_pos hesc]
    show white * c = c
    ext <;> simp [white]
  · intro hs hf
    obtain ⟨k, hk⟩ := Option.isSome_iff_exists.1 hs
    refine (trace_two _ hlaw m r ω hω hs
      (atHit_all fs (fun T _ => T.material) .diffuse r (· ≠ .glass) hm (by simp)) hf (dark_emitted fs _ hg r)
      (lit_dark fs _ hg r ω) ?_ c fun v hv => ⟨?_, rfl⟩).1
    · obtain ⟨-, ⟨T, hT, -, -⟩, -⟩ := winner_some.1 hk
      have : (facetRoom fs fun _ => c).albedo r = T.albedo := atHit_some hk hT (fun T _ => T.albedo) 0
      rw [this]
      exact hz T (List.mem_of_getElem? hT)
    · show (winner fs (hitPos fs r, v)).isSome = false
      rw [bulges_free fs h hb r k hk v hv]; rfl

/-- **C133, the picture.** If the object is white and the camera sees it from the front only, every pixel has exactly the
colour of the sky, for all numbers that a sampler can return and all numbers of samples: the object cannot be seen. -/
theorem furnace_picture (fs : List Facet) (h : ∀ T ∈ fs, T.Proper) (hb : Bulges fs) (hg : ∀ T ∈ fs, T.glow = none)
    (hm : ∀ T ∈ fs, T.material ≠ .glass) (ha : ∀ T ∈ fs, T.albedo = white) (c : V3 ℝ) (hc : NonNeg c)
    {quot : ℝ → ℝ → ℝ} (hq : IsQuot quot) (n : ℕ) (hn : 2 ≤ n) {Li : Ray → Stream → V3 ℝ × Stream}
    (hLi : (facetRoom fs fun _ => c).world.Traces quot n Li) (ray : ℝ × ℝ → ℝ × ℝ → Ray)
    (hfront : ∀ p a, (facetRoom fs fun _ => c).seen (ray p a) = true → (facetRoom fs fun _ => c).Front (ray p a))
    (w hgt spp : ℕ) (hspp : 0 < spp) (ω : Stream) (hω : Drawn ω) :
    ∃ img, renderWith apiDefaultFilter w hgt spp ray Li ω = .ok img ∧
      ∀ (x y : ℕ) (i : Fin 3), x < w → y < hgt → img x y i = c.get i := by
  have hlaw := facets_lawful fs h (fun _ => c) measurable_const fun _ => hc
  have hw := room_lawful _ hlaw
  have hd : ∀ r ω, Drawn ω → Drawn (Li r ω).2 := by
    rw [Traces.eq hw hq hLi]
    exact trace_drawn _ (fun r ω h => by rw [lit_dark fs _ hg r ω]; exact h) (scatter_drawn _) n white true
  have hrad : ∀ p a σ, Drawn σ → (Li (ray p a) σ).1 = c := by
    intro p a σ hσ
    obtain ⟨f1, f2⟩ := furnace_ray fs h hb hg hm (fun T hT => by rw [ha T hT]; exact white_not_zero) c hc hq n hn hLi
      (ray p a) σ hσ
    cases hs : (facetRoom fs fun _ => c).seen (ray p a) with
    | false => exact f1 hs
    | true =>
      rw [f2 hs (hfront p a hs)]
      obtain ⟨k, hk⟩ := Option.isSome_iff_exists.1 hs
      obtain ⟨-, ⟨T, hT, -, -⟩, -⟩ := winner_some.1 hk
      have : (facetRoom fs fun _ => c).albedo (ray p a) = T.albedo := atHit_some hk hT (fun T _ => T.albedo) 0
      rw [this, ha T (List.mem_of_getElem? hT)]
      ext <;> simp [white]
  rw [renderWith_eq]
  have hpos := default_filter_no_holes w hgt spp hspp (obsAt ray Li w hgt ω)
    (fun k i j => by
      obtain ⟨σ, hσ, e⟩ := obs_drawn hd w hgt ω hω k i j
      rw [e]; exact ⟨(hσ 0).1, (hσ 0).2.le⟩)
    (fun k i j => by
      obtain ⟨σ, hσ, e⟩ := obs_drawn hd w hgt ω hω k i j
      rw [e]; exact ⟨(hσ 1).1, (hσ 1).2.le⟩)
  have hk : ∀ i, ∃ img, render id apiDefaultFilter w hgt spp (obsAt ray Li w hgt ω) = .ok img ∧
      ∀ x y, x < w → y < hgt → totalWeight apiDefaultFilter w hgt spp (obsAt ray Li w hgt ω) x y ≠ 0 →
        img x y i = c.get i := fun i =>
    render_constant apiDefaultFilter default_tame.well w hgt spp (obsAt ray Li w hgt ω) i (c.get i) fun k a b _ _ _ => by
      obtain ⟨σ, hσ, e⟩ := obs_drawn hd w hgt ω hω k a b
      rw [e]
      show (Li _ _).1.get i = _
      rw [hrad _ _ _ (hσ.drop 4)]
  obtain ⟨img, e, -⟩ := hk 0
  refine ⟨img, e, fun x y i hx hy => ?_⟩
  obtain ⟨img', e', h'⟩ := hk i
  rw [e] at e'
  cases e'
  exact h' x y hx hy (hpos x y hx hy).ne'

/-! ## A roof -/

/-- The right side of a white roof. -/
noncomputable def roofRight : Facet := ⟨⟨0, 0, 1⟩, ⟨1, 0, 0⟩, ⟨0, 1, 1⟩, .diffuse, white, 1, 1, none⟩

/-- The left side, a mirror. -/
noncomputable def roofLeft : Facet := ⟨⟨0, 0, 1⟩, ⟨0, 1, 1⟩, ⟨-1, 0, 0⟩, .mirror, white, 1, 1, none⟩

theorem roofRight_cross : roofRight.cross = ⟨1, 0, 1⟩ := by
  simp only [roofRight, Facet.cross]
  ext <;> simp only [V3.cross, V3.sub_x, V3.sub_y, V3.sub_z] <;> norm_num

theorem roofLeft_cross : roofLeft.cross = ⟨-1, 0, 1⟩ := by
  simp only [roofLeft, Facet.cross]
  ext <;> simp only [V3.cross, V3.sub_x, V3.sub_y, V3.sub_z] <;> norm_num

theorem roof_proper : ∀ T ∈ [roofRight, roofLeft], T.Proper := by
  intro T hT
  simp at hT
  rcases hT with rfl | rfl
  · exact ⟨by rw [roofRight_cross]; intro h; have := congrArg V3.z h; norm_num at this, NonNeg.white, by simp [roofRight]⟩
  · exact ⟨by rw [roofLeft_cross]; intro h; have := congrArg V3.z h; norm_num at this, NonNeg.white, by simp [roofLeft]⟩

theorem roof_bulges : Bulges [roofRight, roofLeft] := by
  intro T hT T' hT' q hq
  obtain ⟨a, b, ha, hb, hab, rfl⟩ := hq
  simp at hT hT'
  rcases hT with rfl | rfl <;> rcases hT' with rfl | rfl
  all_goals first | rw [roofRight_cross] | rw [roofLeft_cross]
  all_goals
    simp only [roofRight, roofLeft, V3.dot, V3.add_x, V3.add_y, V3.add_z, V3.smul_x, V3.smul_y, V3.smul_z, V3.sub_x,
      V3.sub_y, V3.sub_z]
    nlinarith

theorem roof_front (p a : ℝ × ℝ) (hs : (facetRoom [roofRight, roofLeft] fun _ => white).seen (above p a) = true) :
    (facetRoom [roofRight, roofLeft] fun _ => white).Front (above p a) := by
  obtain ⟨k, hk⟩ := Option.isSome_iff_exists.1 hs
  obtain ⟨-, ⟨T, hT, -, -⟩, -⟩ := winner_some.1 hk
  have hmem := List.mem_of_getElem? hT
  have hpr := roof_proper T hmem
  have hfr : (facetRoom [roofRight, roofLeft] fun _ => white).frame (above p a) = T.frame :=
    atHit_some hk hT (fun T _ => T.frame) _
  have hn := norm_pos_of_ne hpr.area
  have hz : T.cross.z = 1 := by
    simp at hmem
    rcases hmem with rfl | rfl
    · rw [roofRight_cross]
    · rw [roofLeft_cross]
  show 0 < (-(above p a).2).dot ((facetRoom [roofRight, roofLeft] fun _ => white).frame (above p a)).n
  rw [hfr, (frame_spec T hpr.area).2]
  have e : (-(above p a).2).dot T.normal = 1 / T.cross.norm := by
    simp only [V3.dot, above, Facet.normal, V3.smul_x, V3.smul_y, V3.smul_z, V3.neg_x, V3.neg_y, V3.neg_z, hz]
    ring
  rw [e]
  positivity

/-- The roof is there ... -/
example (a : ℝ × ℝ) : (facetRoom [roofRight, roofLeft] fun _ => white).seen (above (1 / 2, 1 / 4) a) = true := by
  have hd : roofRight.dist (above (1 / 2, 1 / 4) a) = 1 / 2 := by
    simp only [Facet.dist, roofRight_cross]
    norm_num [V3.dot, above, roofRight]
  have hm : roofRight.Meets (above (1 / 2, 1 / 4) a) := by
    refine ⟨?_, ?_, ?_, ?_, ?_⟩
    · rw [roofRight_cross]; norm_num [V3.dot, above]
    all_goals simp only [Facet.coords, hd, roofRight_cross]
    all_goals norm_num [V3.dot, V3.cross, above, roofRight]
  have hnl : ¬ roofLeft.Meets (above (1 / 2, 1 / 4) a) := by
    rintro ⟨-, -, h2, -, -⟩
    have hdl : roofLeft.dist (above (1 / 2, 1 / 4) a) = -1 / 2 := by
      simp only [Facet.dist, roofLeft_cross]
      norm_num [V3.dot, above, roofLeft]
    simp only [Facet.coords, hdl, roofLeft_cross] at h2
    norm_num [V3.dot, V3.cross, above, roofLeft] at h2
  have hw : winner [roofRight, roofLeft] (above (1 / 2, 1 / 4) a) = some 0 := by
    rw [winner_some]
    refine ⟨by simp, ⟨roofRight, rfl, hm, fun T' hT' hm' => ?_⟩, by simp⟩
    simp at hT'
    rcases hT' with rfl | rfl
    · exact le_rfl
    · exact absurd hm' hnl
  show (winner _ _).isSome = true
  rw [hw]; rfl

/-- ... and its picture from above is white all over. -/
example (n : ℕ) {quot : ℝ → ℝ → ℝ} (hq : IsQuot quot) (w h spp : ℕ) (hspp : 0 < spp) (ω : Stream) (hω : Drawn ω) :=
  furnace_picture [roofRight, roofLeft] roof_proper roof_bulges (by simp [roofRight, roofLeft])
    (by simp [roofRight, roofLeft]) (by simp [roofRight, roofLeft]) white NonNeg.white hq (n + 2) (Nat.le_add_left 2 n)
    (traces_trace _ (room_lawful _ (facets_lawful _ roof_proper (fun _ => white) measurable_const fun _ => NonNeg.white))
      hq (n + 2)) above roof_front w h spp hspp ω hω

example (S : Room) (n w h spp : ℕ) {quot : ℝ → ℝ → ℝ} (hq : IsQuot quot) (ω : Stream) :=
  no_brighter_picture (floor (1 / 2)) (floor_lawful (1 / 2) (by norm_num)) (fun _ => rfl) (fun _ _ => rfl)
    (by intro r i; fin_cases i <;> norm_num [floor, V3.get]) white NonNeg.white
    (by intro r i; fin_cases i <;> norm_num [floor, V3.get, white]) hq n
    (traces_trace _ (room_lawful _ (floor_lawful (1 / 2) (by norm_num))) hq n) apiDefaultFilter default_tame.well above w h
    spp ω

/-- **C133 fails for surfaces seen from behind.** A white sheet whose back is turned to the camera is black under a white
sky, whatever the random numbers and the bounce limit. -/
theorem furnace_behind_refuted : ∃ (fs : List Facet) (r : Ray), (∀ T ∈ fs, T.Proper) ∧ Bulges fs ∧
    (∀ T ∈ fs, T.glow = none ∧ T.material = .diffuse ∧ T.albedo = white) ∧
    ∀ (quot : ℝ → ℝ → ℝ), IsQuot quot → ∀ n Li, (facetRoom fs fun _ => white).world.Traces quot n Li →
      ∀ ω, (Li r ω).1 = 0 := by
  refine ⟨[roofRight], (⟨1 / 2, 1 / 4, 0⟩, ⟨0, 0, 1⟩), ?_, ?_, ?_, ?_⟩
  · intro T hT; exact roof_proper T (by simp at hT ⊢; exact Or.inl hT)
  · intro T hT T' hT' q hq
    exact roof_bulges T (by simp at hT ⊢; exact Or.inl hT) T' (by simp at hT' ⊢; exact Or.inl hT') q hq
  · simp [roofRight]
  · intro quot hq n Li hLi ω
    have hpr : ∀ T ∈ [roofRight], T.Proper := fun T hT => roof_proper T (by simp at hT ⊢; exact Or.inl hT)
    have hlaw := facets_lawful [roofRight] hpr (fun _ => white) measurable_const fun _ => NonNeg.white
    rw [Traces.eq (room_lawful _ hlaw) hq hLi]
    have hd : roofRight.dist ((⟨1 / 2, 1 / 4, 0⟩, ⟨0, 0, 1⟩) : Ray) = 1 / 2 := by
      simp only [Facet.dist, roofRight_cross]
      norm_num [V3.dot, roofRight]
    have hm : roofRight.Meets ((⟨1 / 2, 1 / 4, 0⟩, ⟨0, 0, 1⟩) : Ray) := by
      refine ⟨?_, ?_, ?_, ?_, ?_⟩
      · rw [roofRight_cross]; norm_num [V3.dot]
      all_goals simp only [Facet.coords, hd, roofRight_cross]
      all_goals norm_num [V3.dot, V3.cross, roofRight]
    have hw : winner [roofRight] ((⟨1 / 2, 1 / 4, 0⟩, ⟨0, 0, 1⟩) : Ray) = some 0 := by
      rw [winner_some]
      refine ⟨by simp, ⟨roofRight, rfl, hm, fun T' hT' hm' => ?_⟩, by simp⟩
      simp at hT'
      subst hT'
      exact le_rfl
    have hg : ∀ T ∈ [roofRight], T.glow = none := by simp [roofRight]
    refine trace_back _ n _ ω ?_ ?_ ?_ (dark_emitted _ _ hg _) (lit_dark _ _ hg _ ω)
    · show (winner _ _).isSome = true
      rw [hw]; rfl
    · show atHit _ (fun T _ => T.material) _ _ ≠ _
      rw [atHit_some hw (T := roofRight) rfl]
      simp [roofRight]
    · intro hf
      have hfr : (facetRoom [roofRight] fun _ => white).frame ((⟨1 / 2, 1 / 4, 0⟩, ⟨0, 0, 1⟩) : Ray) = roofRight.frame :=
        atHit_some hw (T := roofRight) rfl (fun T _ => T.frame) _
      have hf' : 0 < (-(⟨0, 0, 1⟩ : V3 ℝ)).dot
          ((facetRoom [roofRight] fun _ => white).frame ((⟨1 / 2, 1 / 4, 0⟩, ⟨0, 0, 1⟩) : Ray)).n := hf
      rw [hfr, (frame_spec _ (hpr _ (by simp)).area).2] at hf'
      have hn := norm_pos_of_ne (hpr roofRight (by simp)).area
      have e : (-(⟨0, 0, 1⟩ : V3 ℝ)).dot roofRight.normal = -(1 / roofRight.cross.norm) := by
        have hz : roofRight.cross.z = 1 := by rw [roofRight_cross]
        simp only [V3.dot, Facet.normal, V3.smul_x, V3.smul_y, V3.smul_z, V3.neg_x, V3.neg_y, V3.neg_z, hz]
        ring
      rw [e] at hf'
      have : 0 < 1 / roofRight.cross.norm := by positivity
      linarith

end Feign.Integrators
