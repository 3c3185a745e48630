import Verif.Integrators.WhittedLeft
import Verif.Integrators.WhittedProps
import Verif.Integrators.MistPicture

/-!
# C104: images with Whitted's integrator

The recursion has no limit, but it ends with probability one; the image tends to the filtered light seen through specular
surfaces.
-/

set_option linter.unusedSectionVars false
set_option linter.unusedSimpArgs false
set_option linter.unusedVariables false

namespace Feign.Integrators

open Sampling MeasureTheory Warp Image _root_.Filter Topology
open scoped ENNReal

variable {R : Type}

/-! ## Radiance and stream together -/

/-- What follows at a specular surface, if `K` is the recursive call. -/
noncomputable def glossT (K : R → Stream → V3 ℝ × Stream) (e : V3 ℝ) (b : Bounce R) (u : ℝ) (ω : Stream) :
    V3 ℝ × Stream :=
  if u > 19 / 20 then (0, ω)
  else if isZero (chainBeta b) = true then (0 + e, ω)
  else (chainBeta b * (K b.ray ω).1 + e, (K b.ray ω).2)

/-- Radiance and stream, with black for what lies more than `n` levels down. -/
noncomputable def World.chainT (W : World R) : ℕ → R → Stream → V3 ℝ × Stream
  | 0, _, ω => (0, ω)
  | n + 1, r, ω =>
    if W.escapes r = true then (W.env r, ω)
    else if W.delta r = true then
      glossT (W.chainT n) (W.emitted r) (W.scatter r ω).1 ((W.scatter r ω).2 0) (drop 1 (W.scatter r ω).2)
    else (W.emitted r + (W.lit (r, ω)).1 + W.emitted r, (W.lit (r, ω)).2)

theorem chainT_fst (W : World R) (n : ℕ) : ∀ r ω, (W.chainT n r ω).1 = W.chain n r ω := by
  induction n with
  | zero => intro r ω; rfl
  | succ n ih =>
    intro r ω
    rw [World.chainT, World.chain, glossT]
    split_ifs
    · rfl
    · rfl
    · rfl
    · rw [ih]
    · rfl

theorem chainT_snd (W : World R) (n : ℕ) : ∀ r ω,
    W.whittedLeft n r ω = if W.chainDone n r ω = true then some (W.chainT n r ω).2 else none := by
  induction n with
  | zero => intro r ω; simp [World.whittedLeft, World.chainDone]
  | succ n ih =>
    intro r ω
    rw [World.chainT, World.chainDone, World.whittedLeft, glossT]
    by_cases he : W.escapes r = true
    · simp [he]
    · by_cases hd : W.delta r = true
      · have hs : (W.samples r ω).2 = ω := by simp [World.samples, hd]
        by_cases hu : (W.scatter r ω).2 0 > 19 / 20
        · simp [he, hd, hs, hu]
        · by_cases hz : isZero (chainBeta (W.scatter r ω).1) = true
          · have hz' : isZero ((W.scatter r ω).1.albedo.smul (1 / (19 / 20))) = true := hz
            simp only [he, hd, hs, hu, hz, hz', if_true, if_false, Bool.false_eq_true]
          · have hz' : ¬ isZero ((W.scatter r ω).1.albedo.smul (1 / (19 / 20))) = true := hz
            simp only [he, hd, hs, hu, hz, hz', if_true, if_false, Bool.false_eq_true, ih]
      · have hs : (W.samples r ω).2 = (W.lit (r, ω)).2 := by rw [← samples_lit W (r, ω)]
        simp [he, hd, hs]

theorem chainT_stable (W : World R) {n m : ℕ} (hnm : n ≤ m) (r : R) (ω : Stream) (h : W.chainDone n r ω = true) :
    W.chainT m r ω = W.chainT n r ω := by
  have key : ∀ n r ω, W.chainDone n r ω = true → W.chainT (n + 1) r ω = W.chainT n r ω := by
    intro n
    induction n with
    | zero => intro r ω h; simp [World.chainDone] at h
    | succ n ih =>
      intro r ω h
      rw [World.chainDone] at h
      rw [World.chainT]
      conv_rhs => rw [World.chainT]
      by_cases he : W.escapes r = true
      · simp [he]
      · by_cases hd : W.delta r = true
        · simp only [he, hd, if_true, if_false, Bool.false_eq_true, glossT] at h ⊢
          by_cases hu : (W.scatter r ω).2 0 > 19 / 20
          · simp [hu]
          · by_cases hz : isZero (chainBeta (W.scatter r ω).1) = true
            · simp [hu, hz]
            · simp only [hu, hz, if_false, Bool.false_eq_true] at h ⊢
              rw [ih _ _ h]
        · simp [he, hd]
  induction m, hnm using Nat.le_induction with
  | base => rfl
  | succ m hm ih => rw [key m r ω (chain_stable_le W hm r ω h).1, ih]

variable [MeasurableSpace R]

theorem measurable_glossT {K : R → Stream → V3 ℝ × Stream} (hK : Measurable fun p : R × Stream => K p.1 p.2) :
    Measurable fun q : V3 ℝ × Bounce R × ℝ × Stream => glossT K q.1 q.2.1 q.2.2.1 q.2.2.2 := by
  have me : Measurable fun q : V3 ℝ × Bounce R × ℝ × Stream => q.1 := measurable_fst
  have mb : Measurable fun q : V3 ℝ × Bounce R × ℝ × Stream => q.2.1 := measurable_fst.comp measurable_snd
  have mu : Measurable fun q : V3 ℝ × Bounce R × ℝ × Stream => q.2.2.1 :=
    measurable_fst.comp (measurable_snd.comp measurable_snd)
  have mω : Measurable fun q : V3 ℝ × Bounce R × ℝ × Stream => q.2.2.2 :=
    measurable_snd.comp (measurable_snd.comp measurable_snd)
  have mβ := measurable_chainBeta mb
  have mK := hK.comp ((measurable_snd.comp (measurable_snd.comp (measurable_snd.comp mb))).prodMk mω)
  unfold glossT
  exact Measurable.ite (measurableSet_lt measurable_const mu) (measurable_const.prodMk mω)
    (Measurable.ite (mβ measurableSet_isZero) ((measurable_V3add measurable_const me).prodMk mω)
      ((measurable_V3add (measurable_V3mul mβ (measurable_fst.comp mK)) me).prodMk (measurable_snd.comp mK)))

theorem measurable_chainT (W : World R) (h : W.Lawful) (n : ℕ) :
    Measurable fun p : R × Stream => W.chainT n p.1 p.2 := by
  induction n with
  | zero => simp only [World.chainT]; exact measurable_const.prodMk measurable_snd
  | succ n ih =>
    simp only [World.chainT]
    have mr : Measurable fun p : R × Stream => p.1 := measurable_fst
    have mω : Measurable fun p : R × Stream => p.2 := measurable_snd
    have mb : Measurable fun p : R × Stream => W.scatter p.1 p.2 := h.scatter
    have mb2 : Measurable fun p : R × Stream => (W.scatter p.1 p.2).2 := measurable_snd.comp mb
    have me : Measurable fun p : R × Stream => W.emitted p.1 := h.emitted.comp mr
    have ml : Measurable fun p : R × Stream => W.lit (p.1, p.2) := measurable_lit W h
    refine measurable_bool_ite (h.escapes.comp mr) ((h.env.comp mr).prodMk mω) (measurable_bool_ite (h.delta.comp mr)
      ((measurable_glossT ih).comp (me.prodMk ((measurable_fst.comp mb).prodMk
        (((measurable_pi_apply 0).comp mb2).prodMk ((measurable_drop 1).comp mb2)))))
      ((measurable_V3add (measurable_V3add me (measurable_fst.comp ml)) me).prodMk (measurable_snd.comp ml)))

theorem chainT_fresh (W : World R) (h : W.Lawful) (n : ℕ) : ∀ r, Fresh (W.chainT n r) := by
  induction n with
  | zero => intro r; exact fresh_pure 0
  | succ n ih =>
    intro r
    have : W.chainT (n + 1) r = fun ω =>
        if W.escapes r = true then (W.env r, ω)
        else if W.delta r = true then
          glossT (W.chainT n) (W.emitted r) (W.scatter r ω).1 ((W.scatter r ω).2 0) (drop 1 (W.scatter r ω).2)
        else (W.emitted r + (W.lit (r, ω)).1 + W.emitted r, (W.lit (r, ω)).2) := by
      ext1 ω
      rw [World.chainT]
    rw [this]
    refine fresh_ite (fresh_pure _) (fresh_ite ?_ ?_)
    · refine fresh_draw (P := W.scatter r) (h.scatter_fresh r)
        (k := fun q : Bounce R × ℝ × Stream => glossT (W.chainT n) (W.emitted r) q.1 q.2.1 q.2.2)
        ((measurable_glossT (measurable_chainT W h n)).comp
          (g := fun q : V3 ℝ × Bounce R × ℝ × Stream => glossT (W.chainT n) q.1 q.2.1 q.2.2.1 q.2.2.2)
          (f := fun q => (W.emitted r, q)) (measurable_const.prodMk measurable_id)) fun b u => ?_
      simp only [glossT]
      exact fresh_ite (fresh_pure _) (fresh_ite (fresh_pure _) (fresh_map (m := fun v => chainBeta b * v + W.emitted r)
        (ih _) (measurable_V3add (measurable_V3mul measurable_const measurable_id) measurable_const)))
    · exact fresh_map (m := fun v => W.emitted r + v + W.emitted r) (lit_fresh W h r)
        (measurable_V3add (measurable_V3add measurable_const measurable_id) measurable_const)

/-! ## The program -/

theorem World.TracesWhitted.eventually {W : World R} {Li : R → Stream → V3 ℝ × Stream} (hLi : W.TracesWhitted Li) (r : R)
    {ω : Stream} {n : ℕ} (hn : W.chainDone n r ω = true) : ∀ k ≥ n, W.chainT k r ω = Li r ω := by
  intro k hk
  rw [chainT_stable W hk r ω hn]
  obtain ⟨h1, h2⟩ := hLi r ω n
  refine Prod.ext ?_ ?_
  · have := h1 (W.chain n r ω) (fun _ => false) (fun _ _ => rfl) (by
      rw [whitted_eq W n r ω _ (fun _ _ => rfl), if_pos hn])
    rw [this, chainT_fst]
  · have := h2 (W.chainT n r ω).2 (by rw [chainT_snd, if_pos hn])
    rw [this]

theorem World.TracesWhitted.fresh {W : World R} (h : W.Lawful) {Li : R → Stream → V3 ℝ × Stream} (hLi : W.TracesWhitted Li)
    (hm : Measurable fun p : R × Stream => Li p.1 p.2) (r : R) : Fresh (Li r) := by
  refine fresh_limit_ae (g := fun k => W.chainT k r) (fun k => chainT_fresh W h k r)
    (hm.comp (measurable_const.prodMk measurable_id)) ?_
  filter_upwards [chain_ends W h r] with ω ⟨n, hn⟩
  exact ⟨n, hLi.eventually r hn⟩

theorem World.TracesWhitted.whitted {W : World R} {Li : R → Stream → V3 ℝ × Stream} (hLi : W.TracesWhitted Li) (r : R) :
    W.Whitted r fun ω => (Li r ω).1 := fun ω fuel x t ht hx => (hLi r ω fuel).1 x t ht hx

/-- There is such a program, and it is measurable and nowhere negative. -/
theorem whitted_traces (W : World R) (h : W.Lawful) :
    ∃ Li, W.TracesWhitted Li ∧ (Measurable fun p : R × Stream => Li p.1 p.2) ∧ ∀ r ω, NonNeg (Li r ω).1 := by
  classical
  let g : ℕ → R × Stream → V3 ℝ × Stream := fun k p => if W.chainDone k p.1 p.2 = true then W.chainT k p.1 p.2 else (0, p.2)
  let Li : R → Stream → V3 ℝ × Stream := fun r ω =>
    if hn : ∃ n, W.chainDone n r ω = true then W.chainT hn.choose r ω else (0, ω)
  have hLi : ∀ n r ω, W.chainDone n r ω = true → Li r ω = W.chainT n r ω := by
    intro n r ω hd
    have hn : ∃ n, W.chainDone n r ω = true := ⟨n, hd⟩
    simp only [Li, dif_pos hn]
    rcases le_total n hn.choose with h1 | h1
    · exact chainT_stable W h1 r ω hd
    · exact (chainT_stable W h1 r ω hn.choose_spec).symm
  refine ⟨Li, fun r ω fuel => ⟨fun x t ht hx => ?_, fun σ hσ => ?_⟩, ?_, fun r ω => ?_⟩
  · rw [whitted_eq W fuel r ω t ht] at hx
    by_cases hd : W.chainDone fuel r ω = true
    · rw [if_pos hd] at hx
      rw [hLi fuel r ω hd, chainT_fst]
      simpa using hx
    · rw [if_neg hd] at hx
      simp at hx
  · rw [chainT_snd] at hσ
    by_cases hd : W.chainDone fuel r ω = true
    · rw [if_pos hd] at hσ
      rw [hLi fuel r ω hd]
      injection hσ
    · rw [if_neg hd] at hσ
      cases hσ
  · refine measurable_limit (g := g) (fun k => ?_) fun p => ?_
    · exact Measurable.ite (measurableSet_chainDone W h k) (measurable_chainT W h k)
        (measurable_const.prodMk measurable_snd)
    · by_cases hn : ∃ n, W.chainDone n p.1 p.2 = true
      · obtain ⟨n, hn⟩ := hn
        refine ⟨n, fun k hk => ?_⟩
        have hd := (chain_stable_le W hk p.1 p.2 hn).1
        simp only [g, if_pos hd]
        exact (hLi k p.1 p.2 hd).symm
      · refine ⟨0, fun k _ => ?_⟩
        have hd : ¬ W.chainDone k p.1 p.2 = true := fun hc => hn ⟨k, hc⟩
        simp only [g, if_neg hd, Li, dif_neg hn]
  · by_cases hn : ∃ n, W.chainDone n r ω = true
    · obtain ⟨n, hn⟩ := hn
      rw [hLi n r ω hn, chainT_fst]
      exact chain_nonneg W h n r ω
    · simp only [Li, dif_neg hn]
      exact NonNeg.zero

/-! ## The image -/

variable {ray : ℝ × ℝ → ℝ × ℝ → R}

/-- **C104, image, Whitted's integrator.** Let specular surfaces reflect nothing or at least a ten-thousandth, and let the light
seen through specular surfaces, in the scene as the integrator shows it (C104), be at most `B` along every ray. For almost
every stream of random numbers the image is defined for every number of samples per pixel, and each pixel tends to that
light, filtered. -/
theorem whitted_image_shown {W : World R} (h : W.Lawful) (hb : W.Bright) {Li : R → Stream → V3 ℝ × Stream}
    (hLi : W.TracesWhitted Li) (hm : Measurable fun p : R × Stream => Li p.1 p.2) (hnn : ∀ r ω, NonNeg (Li r ω).1) (B : ℝ)
    (hB : ∀ i r, W.asShown.seenLight i r ≤ ENNReal.ofReal B)
    (hcam : Measurable fun q : (ℝ × ℝ) × (ℝ × ℝ) => ray q.1 q.2) (w hgt : ℕ) :
    ∀ᵐ ω ∂uniform, ∃ img : ℕ → Int → Int → Fin 3 → ℝ,
      (∀ spp, renderWith apiDefaultFilter w hgt spp ray Li ω = .ok (img spp)) ∧
      ∀ (x y : ℕ) (c : Fin 3), x < w → y < hgt →
        Tendsto (fun spp => img spp x y c) atTop
          (𝓝 (filtered apiDefaultFilter w hgt x y (Image.lightAt ray (W.asShown.seenLight c))).toReal) := by
  have hmean : ∀ (c : Fin 3), (fun r => ∫⁻ ω, ENNReal.ofReal ((Li r ω).1.get c) ∂uniform) = W.asShown.seenLight c :=
    fun c => funext fun r => whitted_mean_shown W h hb r _ (hLi.whitted r) c
  have hlaw : Image.Lawful ray Li :=
    { cam := hcam
      meas := hm
      fresh := fun r => hLi.fresh h hm r
      nonneg := hnn
      bounded := ⟨ENNReal.ofReal B, ENNReal.ofReal_ne_top, fun r i => by
        exact (congrFun (hmean i) r).le.trans (hB i r)⟩ }
  filter_upwards [default_filter_converges hlaw w hgt] with ω ⟨img, h1, h2⟩
  refine ⟨img, h1, fun x y c hx hy => ?_⟩
  have := h2 x y c hx hy
  rwa [hmean c] at this

/-- **C104, image, Whitted's integrator, scenes that do not emit.** There the limit is the filtered light seen through specular
surfaces. The full claim, for emitting surfaces too, is refuted below. -/
theorem whitted_image_partial {W : World R} (h : W.Lawful) (hb : W.Bright) (hE : ∀ r, W.emitted r = 0)
    {Li : R → Stream → V3 ℝ × Stream} (hLi : W.TracesWhitted Li) (hm : Measurable fun p : R × Stream => Li p.1 p.2)
    (hnn : ∀ r ω, NonNeg (Li r ω).1) (B : ℝ) (hB : ∀ i r, W.seenLight i r ≤ ENNReal.ofReal B)
    (hcam : Measurable fun q : (ℝ × ℝ) × (ℝ × ℝ) => ray q.1 q.2) (w hgt : ℕ) :
    ∀ᵐ ω ∂uniform, ∃ img : ℕ → Int → Int → Fin 3 → ℝ,
      (∀ spp, renderWith apiDefaultFilter w hgt spp ray Li ω = .ok (img spp)) ∧
      ∀ (x y : ℕ) (c : Fin 3), x < w → y < hgt →
        Tendsto (fun spp => img spp x y c) atTop
          (𝓝 (filtered apiDefaultFilter w hgt x y (Image.lightAt ray (W.seenLight c))).toReal) := by
  have e : W.asShown = W := by
    unfold World.asShown
    have he : (fun r => (W.emitted r).smul (if W.delta r then 19 / 20 else 2)) = W.emitted := by
      funext r
      rw [hE]
      ext <;> simp
    rw [he]
  have := whitted_image_shown (ray := ray) h hb hLi hm hnn B (by rw [e]; exact hB) hcam w hgt
  rwa [e] at this

/-! ## Concrete images -/

theorem plain_seen_true (delta : Bool) (glow albedo sky : ℝ) (i : Fin 3) :
    (plain delta glow albedo sky).seenLight i true = ENNReal.ofReal sky := by
  have h0 : ∀ n, (plain delta glow albedo sky).seenThrough i (n + 1) true = ENNReal.ofReal sky := by
    intro n
    rw [World.seenThrough]
    simp [plain, plain_get]
  refine le_antisymm (iSup_le fun n => ?_) ?_
  · cases n with
    | zero => rw [World.seenThrough]; exact zero_le
    | succ n => exact (h0 n).le
  · rw [← h0 0]
    exact le_iSup (fun n => (plain delta glow albedo sky).seenThrough i n true) 1

theorem plain_seen_matte (glow albedo sky : ℝ) (i : Fin 3) :
    (plain false glow albedo sky).seenLight i false = ENNReal.ofReal glow := by
  have h0 : ∀ n, (plain false glow albedo sky).seenThrough i (n + 1) false = ENNReal.ofReal glow := by
    intro n
    rw [World.seenThrough]
    simp only [plain, plain_get, World.direct, total]
    simp [get_zero]
  refine le_antisymm (iSup_le fun n => ?_) ?_
  · cases n with
    | zero => rw [World.seenThrough]; exact zero_le
    | succ n => exact (h0 n).le
  · rw [← h0 0]
    exact le_iSup (fun n => (plain false glow albedo sky).seenThrough i n false) 1

/-- The image of a surface that fills the view tends to the light the surface shows. -/
theorem plain_image (delta : Bool) {glow albedo sky : ℝ} (h1 : 0 ≤ glow) (h2 : albedo = 0 ∨ 1 / 10000 ≤ albedo)
    (h3 : 0 ≤ sky) {L : ℝ} (hL : 0 ≤ L)
    (hl : ∀ i, (plain delta glow albedo sky).asShown.seenLight i false = ENNReal.ofReal L)
    {Li : Bool → Stream → V3 ℝ × Stream} (hLi : (plain delta glow albedo sky).TracesWhitted Li)
    (hm : Measurable fun p : Bool × Stream => Li p.1 p.2) (hnn : ∀ r ω, NonNeg (Li r ω).1) (w h : ℕ) :
    ∀ᵐ ω ∂uniform, ∃ img : ℕ → Int → Int → Fin 3 → ℝ,
      (∀ spp, renderWith apiDefaultFilter w h spp (fun _ _ => false) Li ω = .ok (img spp)) ∧
      ∀ (x y : ℕ) (c : Fin 3), x < w → y < h → Tendsto (fun spp => img spp x y c) atTop (𝓝 L) := by
  have ha : 0 ≤ albedo := by rcases h2 with h2 | h2 <;> linarith
  have hsky : ∀ i, (plain delta glow albedo sky).asShown.seenLight i true = ENNReal.ofReal sky := by
    intro i
    have h0 : ∀ n, (plain delta glow albedo sky).asShown.seenThrough i (n + 1) true = ENNReal.ofReal sky := by
      intro n
      rw [World.seenThrough]
      simp [World.asShown, plain, plain_get]
    refine le_antisymm (iSup_le fun n => ?_) ?_
    · cases n with
      | zero => rw [World.seenThrough]; exact zero_le
      | succ n => exact (h0 n).le
    · rw [← h0 0]
      exact le_iSup (fun n => (plain delta glow albedo sky).asShown.seenThrough i n true) 1
  have hb : (plain delta glow albedo sky).Bright := by
    intro r ω _
    rcases h2 with h2 | h2
    · left
      simp only [plain, Bounce.albedo, h2]
      rfl
    · right
      have : (⟨albedo, albedo, albedo⟩ : V3 ℝ).maxValue = albedo := by simp [V3.maxValue]
      simp only [plain, Bounce.albedo, this]
      exact h2
  filter_upwards [whitted_image_shown (ray := fun _ _ => false) (plain_lawful delta h1 ha h3) hb hLi hm hnn (max L sky)
    (fun i r => by
      cases r
      · rw [hl]; exact ENNReal.ofReal_le_ofReal (le_max_left _ _)
      · rw [hsky]; exact ENNReal.ofReal_le_ofReal (le_max_right _ _)) measurable_const w h] with ω ⟨img, i1, i2⟩
  refine ⟨img, i1, fun x y c hx hy => ?_⟩
  have := i2 x y c hx hy
  have hlight : Image.lightAt (fun _ _ => false) ((plain delta glow albedo sky).asShown.seenLight c) =
      fun _ => ENNReal.ofReal L := by
    funext p
    unfold Image.lightAt
    simp only [hl c]
    rw [lintegral_const, measure_univ, mul_one]
  rwa [hlight, filtered_default_const _ _ _ _ hx hy, ENNReal.toReal_ofReal hL] at this

theorem asShown_plain (delta : Bool) (glow albedo sky : ℝ) :
    (plain delta glow albedo sky).asShown = plain delta (glow * if delta then 19 / 20 else 2) albedo sky := by
  cases delta <;> rfl

/-- A mirror of reflectance one half under a white sky: the pixels tend to one half. -/
example (w h : ℕ) : ∃ Li, (plain true 0 (1 / 2) 1).TracesWhitted Li ∧
    ∀ᵐ ω ∂uniform, ∃ img : ℕ → Int → Int → Fin 3 → ℝ,
      (∀ spp, renderWith apiDefaultFilter w h spp (fun _ _ => false) Li ω = .ok (img spp)) ∧
      ∀ (x y : ℕ) (c : Fin 3), x < w → y < h → Tendsto (fun spp => img spp x y c) atTop (𝓝 (1 / 2)) := by
  obtain ⟨Li, h1, h2, h3⟩ := whitted_traces (plain true 0 (1 / 2) 1) (plain_lawful true le_rfl (by norm_num) zero_le_one)
  refine ⟨Li, h1, plain_image true le_rfl (Or.inr (by norm_num)) zero_le_one (by norm_num) (fun i => ?_) h1 h2 h3 w h⟩
  rw [asShown_plain, plain_seen]
  simp

/-- **C104 fails for images of emitting surfaces under Whitted's integrator.** A surface that emits one and is not specular fills
the view. The light that arrives is one; the pixels tend to two. -/
theorem whitted_image_refuted (w h : ℕ) : (∀ i, (plain false 1 0 0).seenLight i false = 1) ∧
    (∃ Li, (plain false 1 0 0).TracesWhitted Li ∧ (Measurable fun p : Bool × Stream => Li p.1 p.2) ∧
      ∀ r ω, NonNeg (Li r ω).1) ∧
    ∀ Li, (plain false 1 0 0).TracesWhitted Li → (Measurable fun p : Bool × Stream => Li p.1 p.2) →
      (∀ r ω, NonNeg (Li r ω).1) → ∀ᵐ ω ∂uniform, ∃ img : ℕ → Int → Int → Fin 3 → ℝ,
        (∀ spp, renderWith apiDefaultFilter w h spp (fun _ _ => false) Li ω = .ok (img spp)) ∧
        ∀ (x y : ℕ) (c : Fin 3), x < w → y < h → Tendsto (fun spp => img spp x y c) atTop (𝓝 2) := by
  have hl := plain_lawful false (glow := 1) (albedo := 0) (sky := 0) zero_le_one le_rfl le_rfl
  refine ⟨fun i => by rw [plain_seen_matte]; simp, whitted_traces _ hl, fun Li h1 h2 h3 => ?_⟩
  refine plain_image false zero_le_one (Or.inl rfl) le_rfl (by norm_num) (fun i => ?_) h1 h2 h3 w h
  rw [asShown_plain, plain_seen_matte]
  simp

end Feign.Integrators
