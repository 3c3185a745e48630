import Verif.Image.SpoilLemmas

/-!
# C117: what an estimate that is not a number does to the image

`Covers` says that the box of the filter around a sample meets the square of a pixel. Where the filter vanishes outside
its box (`Filter.WellBehaved`), the values of `Verif/Image/SplatProps.lean` are the image without such estimates.
-/

set_option linter.unusedSectionVars false

namespace Feign.Image

open Flt Finset

/-! ### Specification -/

/-- The box of the filter around sample `k` of column `j`, row `i` meets the square of column `x`, row `y`. -/
def Covers (flt : Filter ℝ) (obs : ℕ → ℕ → ℕ → ObsF) (x y k i j : ℕ) : Prop :=
  let p := ((j : ℝ) + (obs k i j).u, (i : ℝ) + (obs k i j).v)
  ((x : ℝ) ≤ p.1 + flt.sizeX ∧ p.1 - flt.sizeX < x + 1) ∧ ((y : ℝ) ≤ p.2 + flt.sizeY ∧ p.2 - flt.sizeY < y + 1)

/-- Some sample of the image whose box meets the pixel has a value in channel `c` that is not a finite number. -/
def Spoiled (flt : Filter ℝ) (w h spp : ℕ) (obs : ℕ → ℕ → ℕ → ObsF) (x y : ℕ) (c : Fin 3) : Prop :=
  ∃ k < spp, ∃ i < h, ∃ j < w, Covers flt obs x y k i j ∧ ¬ ((obs k i j).rad c).IsFin

/-- The samples `o` are the samples `obs` with numbers put in the place of everything that is not one. -/
def Repairs (o : ℕ → ℕ → ℕ → Obs ℝ) (obs : ℕ → ℕ → ℕ → ObsF) : Prop :=
  ∀ k i j, (o k i j).u = (obs k i j).u ∧ (o k i j).v = (obs k i j).v ∧
    ∀ c, ((obs k i j).rad c).IsFin → (obs k i j).rad c = .fin ((o k i j).rad c)

theorem reached_iff (flt : Filter ℝ) (w h : ℕ) (obs : ℕ → ℕ → ℕ → ObsF) (x y k i j : ℕ) (hx : x < w) (hy : y < h) :
    Reached flt w h obs x y (k, i, j) ↔ Covers flt obs x y k i j := by
  unfold Reached Covers
  rw [mem_splatRange _ _ _ _ (by omega) (by omega), mem_splatRange _ _ _ _ (by omega) (by omega)]
  simp

private theorem div_bad {a : Flt} (ha : ¬ a.IsFin) (y : ℝ) : ¬ (a / .fin y).IsFin := by
  cases a with
  | fin x => exact absurd trivial ha
  | inf s => exact id
  | nan => exact id

/-- What the single-threaded loop leaves at a pixel. -/
private theorem pixel_core (flt : Filter ℝ) (hf : flt.WellBehaved) (w h spp : ℕ) (obs : ℕ → ℕ → ℕ → ObsF)
    (o : ℕ → ℕ → ℕ → Obs ℝ) (ho : Repairs o obs) :
    ∃ img log, renderF flt w h spp obs = .ok (img, log) ∧
      ∀ x y : ℕ, x < w → y < h → ∀ c : Fin 3,
        (totalWeight flt w h spp o x y = 0 → img x y c = .fin 0) ∧
        (totalWeight flt w h spp o x y ≠ 0 → Spoiled flt w h spp obs x y c → ¬ (img x y c).IsFin) ∧
        (totalWeight flt w h spp o x y ≠ 0 → ¬ Spoiled flt w h spp obs x y c →
          img x y c = .fin (totalRadiance flt w h spp o x y c / totalWeight flt w h spp o x y)) := by
  classical
  obtain ⟨b, e, hb⟩ := accumulateF_at flt w h obs (renderOrder spp w h) (fun _ _ _ => .fin 0)
  refine ⟨normalizeF b, _, by simp only [renderF, e, Res.bind_ok, Res.pure_eq]; rfl, fun x y hx hy c => ?_⟩
  have h3 : b x y 3 = .fin (totalWeight flt w h spp o x y) := by
    rw [hb, core_weight flt hf.support w h obs o ho _ x y (by omega) (by omega) (by omega) (by omega) 3
      (fun q _ _ => by simp [chanF, IsFin]), sum_renderOrder, zero_add]
    simp [totalWeight, contribution, chan, sampleWeight, samplePos]
  have hc3 : ∀ rad : Fin 3 → Flt, chanF rad c.castSucc = rad c := fun rad => by simp [chanF]
  refine ⟨fun h0 => ?_, fun h0 hs => ?_, fun h0 hs => ?_⟩
  · unfold normalizeF
    rw [h3, h0, if_pos (by simp [eqZero])]
  · have hbad : ¬ (b x y c.castSucc).IsFin := by
      rw [hb, foldl_fin]
      rintro ⟨-, hall⟩
      obtain ⟨k, hk, i, hi, j, hj, hcov, hn⟩ := hs
      have := hall (k, i, j) (by
        rw [List.mem_filter]
        exact ⟨(mem_renderOrder ..).2 ⟨hk, hi, hj⟩, by
          simpa using (reached_iff flt w h obs x y k i j hx hy).2 hcov⟩)
      rw [share_fin, hc3] at this
      exact hn this
    unfold normalizeF
    rw [h3, if_neg (by simpa [eqZero] using h0)]
    exact div_bad hbad _
  · have hval : b x y c.castSucc = .fin (totalRadiance flt w h spp o x y c) := by
      rw [hb, core_weight flt hf.support w h obs o ho _ x y (by omega) (by omega) (by omega) (by omega) c.castSucc
        ?_ , sum_renderOrder, zero_add]
      · simp [totalRadiance, contribution, chan, sampleWeight, samplePos]
      · rintro ⟨k, i, j⟩ hq hr
        rw [hc3]
        by_contra hn
        obtain ⟨hk, hi, hj⟩ := (mem_renderOrder ..).1 hq
        exact hs ⟨k, hk, i, hi, j, hj, (reached_iff flt w h obs x y k i j hx hy).1 hr, hn⟩
    unfold normalizeF
    rw [h3, hval, if_neg (by simpa [eqZero] using h0), fin_div _ _ h0]

/-- **C117, damage.** A channel of a pixel that received weight is not a finite number exactly if the box of the filter
around one of the samples that are not finite in that channel meets the pixel. (Weights do not depend on the radiance:
`o` are the same samples with any numbers put in.) A pixel without weight is black whatever happened. -/
theorem spoiled_iff (flt : Filter ℝ) (hf : flt.WellBehaved) (w h spp : ℕ) (obs : ℕ → ℕ → ℕ → ObsF)
    (o : ℕ → ℕ → ℕ → Obs ℝ) (ho : Repairs o obs) :
    ∃ img log, renderF flt w h spp obs = .ok (img, log) ∧
      ∀ x y : ℕ, x < w → y < h → ∀ c : Fin 3,
        (¬ (img x y c).IsFin ↔ totalWeight flt w h spp o x y ≠ 0 ∧ Spoiled flt w h spp obs x y c) ∧
        (totalWeight flt w h spp o x y = 0 → img x y c = .fin 0) := by
  obtain ⟨img, log, e, hp⟩ := pixel_core flt hf w h spp obs o ho
  refine ⟨img, log, e, fun x y hx hy c => ⟨?_, (hp x y hx hy c).1⟩⟩
  obtain ⟨h1, h2, h3⟩ := hp x y hx hy c
  constructor
  · intro hn
    have h0 : totalWeight flt w h spp o x y ≠ 0 := fun h0 => hn (by rw [h1 h0]; trivial)
    refine ⟨h0, ?_⟩
    by_contra hs
    exact hn (by rw [h3 h0 hs]; trivial)
  · rintro ⟨h0, hs⟩
    exact h2 h0 hs

/-- **C117, locality.** Everywhere else the image is the one rendered with numbers, whatever numbers, in the place of the
bad estimates: they change nothing, and a bad red value changes only red. -/
theorem unspoiled_unchanged (flt : Filter ℝ) (hf : flt.WellBehaved) (w h spp : ℕ) (obs : ℕ → ℕ → ℕ → ObsF)
    (o : ℕ → ℕ → ℕ → Obs ℝ) (ho : Repairs o obs) :
    ∃ img log clean, renderF flt w h spp obs = .ok (img, log) ∧ render id flt w h spp o = .ok clean ∧
      ∀ x y : ℕ, x < w → y < h → ∀ c : Fin 3, ¬ Spoiled flt w h spp obs x y c → img x y c = .fin (clean x y c) := by
  obtain ⟨img, log, e, hp⟩ := pixel_core flt hf w h spp obs o ho
  obtain ⟨clean, e', hc⟩ := render_pixel_eq flt hf.support w h spp o
  refine ⟨img, log, clean, e, e', fun x y hx hy c hs => ?_⟩
  obtain ⟨h1, -, h3⟩ := hp x y hx hy c
  rw [hc x y c hx hy]
  by_cases h0 : totalWeight flt w h spp o x y = 0
  · rw [if_pos h0, h1 h0]
  · rw [if_neg h0, h3 h0 hs]

/-- **C117, multi-threaded.** Rendered in tiles that cover the image without overlapping, a channel of any pixel is not a
finite number exactly if the box of the filter around a bad sample meets it, whether or not the pixel received weight.
(That `initialize_pool` makes such tiles is `Feign.Pool.tiles_partition_image`.) -/
theorem spoiled_tiles_iff (flt : Filter ℝ) (w h spp : ℕ) (obs : ℕ → ℕ → ℕ → ObsF) (tiles : List Pool.Tile)
    (hin : ∀ t ∈ tiles, 0 ≤ t.minX ∧ t.maxX ≤ w ∧ 0 ≤ t.minY ∧ t.maxY ≤ h)
    (hcov : ∀ x y : Int, 0 ≤ x → x < w → 0 ≤ y → y < h →
      (tiles.filter (fun t => decide (t.Covers x y))).length = 1)
    (img0 : Int → Int → Fin 3 → ℝ) :
    ∃ img, renderTilesF flt w h spp obs tiles (fun x y c => .fin (img0 x y c)) = .ok img ∧
      ∀ x y : ℕ, x < w → y < h → ∀ c : Fin 3, (¬ (img x y c).IsFin ↔ Spoiled flt w h spp obs x y c) := by
  classical
  have hperm := tiles_perm w h spp tiles hin hcov
  obtain ⟨b, e, hb⟩ := accumulateF_at flt w h obs (tiles.flatMap (tileOrder spp))
    (fun x y c => if hc : (c : ℕ) < 3 then .fin (img0 x y ⟨c, hc⟩) else .fin 0)
  refine ⟨normalizePoolF b, by simp only [renderTilesF, e, Res.bind_ok, Res.pure_eq], fun x y hx hy c => ?_⟩
  have hc3 : ∀ rad : Fin 3 → Flt, chanF rad c.castSucc = rad c := fun rad => by simp [chanF]
  have h3 : (b x y 3).IsFin := by
    rw [hb, foldl_fin]
    refine ⟨by simp [IsFin], fun q _ => ?_⟩
    rw [share_fin]
    simp [chanF, IsFin]
  have hcc : (b x y c.castSucc).IsFin ↔ ¬ Spoiled flt w h spp obs x y c := by
    rw [hb, foldl_fin]
    constructor
    · rintro ⟨-, hall⟩ ⟨k, hk, i, hi, j, hj, hcov, hn⟩
      have := hall (k, i, j) (by
        rw [List.mem_filter]
        exact ⟨hperm.mem_iff.2 ((mem_renderOrder ..).2 ⟨hk, hi, hj⟩), by
          simpa using (reached_iff flt w h obs x y k i j hx hy).2 hcov⟩)
      rw [share_fin, hc3] at this
      exact hn this
    · intro hs
      refine ⟨by simp [IsFin], ?_⟩
      rintro ⟨k, i, j⟩ hq
      rw [List.mem_filter] at hq
      obtain ⟨hq, hr⟩ := hq
      obtain ⟨hk, hi, hj⟩ := (mem_renderOrder ..).1 (hperm.mem_iff.1 hq)
      rw [share_fin, hc3]
      by_contra hn
      exact hs ⟨k, hk, i, hi, j, hj, (reached_iff flt w h obs x y k i j hx hy).1 (by simpa using hr), hn⟩
  obtain ⟨wt, hwt⟩ := (isFin_iff _).1 h3
  unfold normalizePoolF
  rw [hwt]
  by_cases h0 : wt = 0
  · rw [if_neg (by simpa [eqZero] using h0), hcc, not_not]
  · rw [if_pos (by simpa [eqZero] using h0)]
    constructor
    · intro hn
      by_contra hs
      obtain ⟨r, hr⟩ := (isFin_iff _).1 (hcc.2 hs)
      rw [hr, fin_div _ _ h0] at hn
      exact hn trivial
    · intro hs
      exact div_bad (fun h => hcc.1 h hs) _

/-- **C117, messages.** The single-threaded renderer reports a pixel as not-a-number exactly if one of its own samples is
(in any channel), and as infinite likewise; nothing is reported exactly if every sample is finite. -/
theorem reported_iff (flt : Filter ℝ) (w h spp : ℕ) (obs : ℕ → ℕ → ℕ → ObsF) :
    ∃ img log, renderF flt w h spp obs = .ok (img, log) ∧
      (∀ i j, Note.nan i j ∈ log ↔ i < h ∧ j < w ∧ ∃ k < spp, ∃ c, (obs k i j).rad c = .nan) ∧
      (∀ i j, Note.inf i j ∈ log ↔ i < h ∧ j < w ∧ ∃ k < spp, ∃ c s, (obs k i j).rad c = .inf s) ∧
      (log = [] ↔ ∀ k < spp, ∀ i < h, ∀ j < w, ∀ c, ((obs k i j).rad c).IsFin) := by
  obtain ⟨b, e, -⟩ := accumulateF_at flt w h obs (renderOrder spp w h) (fun _ _ _ => .fin 0)
  have hn : ∀ a : Flt, isNan a = true ↔ a = .nan := by intro a; cases a <;> simp [isNan]
  have hi : ∀ a : Flt, isInf a = true ↔ ∃ s, a = .inf s := by intro a; cases a <;> simp [isInf]
  have m1 : ∀ (i' j' i j : ℕ) (rad : Fin 3 → Flt), Note.nan i j ∈ notes i' j' rad ↔
      (i = i' ∧ j = j') ∧ ∃ c, rad c = .nan := by
    intro i' j' i j rad
    unfold notes
    rw [List.mem_append]
    have : (∃ c, rad c = .nan) ↔ (isNan (rad 0) || isNan (rad 1) || isNan (rad 2)) = true := by
      simp only [Bool.or_eq_true, hn, Fin.exists_fin_succ, or_assoc]
      simp
    rw [this]
    split_ifs <;> simp_all
  have m2 : ∀ (i' j' i j : ℕ) (rad : Fin 3 → Flt), Note.inf i j ∈ notes i' j' rad ↔
      (i = i' ∧ j = j') ∧ ∃ c s, rad c = .inf s := by
    intro i' j' i j rad
    unfold notes
    rw [List.mem_append]
    have : (∃ c s, rad c = .inf s) ↔ (isInf (rad 0) || isInf (rad 1) || isInf (rad 2)) = true := by
      simp only [Bool.or_eq_true, hi, Fin.exists_fin_succ, or_assoc]
      simp
    rw [this]
    split_ifs <;> simp_all
  refine ⟨normalizeF b, _, by simp only [renderF, e, Res.bind_ok, Res.pure_eq]; rfl, ?_, ?_, ?_⟩
  · intro i j
    rw [List.mem_flatMap]
    constructor
    · rintro ⟨⟨k, i', j'⟩, hq, hm⟩
      obtain ⟨hk, hi, hj⟩ := (mem_renderOrder ..).1 hq
      obtain ⟨⟨rfl, rfl⟩, hc⟩ := (m1 ..).1 hm
      exact ⟨hi, hj, k, hk, hc⟩
    · rintro ⟨hi, hj, k, hk, hc⟩
      exact ⟨(k, i, j), (mem_renderOrder ..).2 ⟨hk, hi, hj⟩, (m1 ..).2 ⟨⟨rfl, rfl⟩, hc⟩⟩
  · intro i j
    rw [List.mem_flatMap]
    constructor
    · rintro ⟨⟨k, i', j'⟩, hq, hm⟩
      obtain ⟨hk, hi, hj⟩ := (mem_renderOrder ..).1 hq
      obtain ⟨⟨rfl, rfl⟩, hc⟩ := (m2 ..).1 hm
      exact ⟨hi, hj, k, hk, hc⟩
    · rintro ⟨hi, hj, k, hk, hc⟩
      exact ⟨(k, i, j), (mem_renderOrder ..).2 ⟨hk, hi, hj⟩, (m2 ..).2 ⟨⟨rfl, rfl⟩, hc⟩⟩
  · rw [List.flatMap_eq_nil_iff]
    constructor
    · intro hl k hk i hi j hj c
      have h0 := hl (k, i, j) ((mem_renderOrder ..).2 ⟨hk, hi, hj⟩)
      by_contra hb
      cases hr : (obs k i j).rad c with
      | fin x => rw [hr] at hb; exact hb trivial
      | inf s =>
        have := (m2 i j i j (obs k i j).rad).2 ⟨⟨rfl, rfl⟩, c, s, hr⟩
        simp only at h0
        rw [h0] at this
        simp at this
      | nan =>
        have := (m1 i j i j (obs k i j).rad).2 ⟨⟨rfl, rfl⟩, c, hr⟩
        simp only at h0
        rw [h0] at this
        simp at this
    · rintro hl ⟨k, i, j⟩ hq
      obtain ⟨hk, hi, hj⟩ := (mem_renderOrder ..).1 hq
      rw [List.eq_nil_iff_forall_not_mem]
      intro n hm
      cases n with
      | nan i' j' =>
        obtain ⟨-, c, hc⟩ := (m1 ..).1 hm
        have := hl k hk i hi j hj c
        simp only at hc
        rw [hc] at this
        exact this
      | inf i' j' =>
        obtain ⟨-, c, s, hc⟩ := (m2 ..).1 hm
        have := hl k hk i hi j hj c
        simp only at hc
        rw [hc] at this
        exact this

/-- **C117, reported damage.** If a single-threaded render writes a value that is not a finite number, it has reported a
sample. -/
theorem damage_reported (flt : Filter ℝ) (hf : flt.WellBehaved) (w h spp : ℕ) (obs : ℕ → ℕ → ℕ → ObsF) :
    ∃ img log, renderF flt w h spp obs = .ok (img, log) ∧
      ((∃ x y : ℕ, x < w ∧ y < h ∧ ∃ c, ¬ (img x y c).IsFin) → log ≠ []) := by
  have hex : ∀ a : Flt, ∃ r, a.IsFin → a = .fin r := by
    intro a
    cases a with
    | fin x => exact ⟨x, fun _ => rfl⟩
    | inf s => exact ⟨0, fun h => h.elim⟩
    | nan => exact ⟨0, fun h => h.elim⟩
  choose r hr using hex
  obtain ⟨img, log, e, hp⟩ := spoiled_iff flt hf w h spp obs
    (fun k i j => { u := (obs k i j).u, v := (obs k i j).v, rad := fun c => r ((obs k i j).rad c) })
    (fun k i j => ⟨rfl, rfl, fun c => hr _⟩)
  obtain ⟨img', log', e', -, -, hl⟩ := reported_iff flt w h spp obs
  rw [e] at e'
  simp only [Res.ok.injEq, Prod.mk.injEq] at e'
  obtain ⟨rfl, rfl⟩ := e'
  refine ⟨img, log, e, ?_⟩
  rintro ⟨x, y, hx, hy, c, hn⟩ h0
  obtain ⟨-, k, hk, i, hi, j, hj, -, hb⟩ := ((hp x y hx hy c).1).1 hn
  exact hb (hl.1 h0 k hk i hi j hj c)

/-! ### The default box filter, two pixels side by side, one sample each -/

/-- The sample of the left pixel is at nine tenths of its width and is not a number; that of the right pixel is at `u` and
one. -/
noncomputable def twoSamples (u : ℝ) : ℕ → ℕ → ℕ → ObsF := fun _ _ j =>
  if j = 0 then { u := 9 / 10, v := 1 / 2, rad := fun _ => .nan } else { u := u, v := 1 / 2, rad := fun _ => .fin 1 }

noncomputable def twoClean (u : ℝ) : ℕ → ℕ → ℕ → Obs ℝ := fun _ _ j =>
  if j = 0 then { u := 9 / 10, v := 1 / 2, rad := fun _ => 1 } else { u := u, v := 1 / 2, rad := fun _ => 1 }

theorem two_repairs (u : ℝ) : Repairs (twoClean u) (twoSamples u) := by
  intro k i j
  unfold twoClean twoSamples
  split_ifs
  · exact ⟨rfl, rfl, fun c h => h.elim⟩
  · exact ⟨rfl, rfl, fun c _ => rfl⟩

theorem two_spoiled (u : ℝ) (c : Fin 3) : Spoiled defaultBox 2 1 1 (twoSamples u) 1 0 c := by
  refine ⟨0, by norm_num, 0, by norm_num, 0, by norm_num, ?_, ?_⟩
  · simp only [Covers, twoSamples, defaultBox, boxFilter]
    norm_num
  · simp [twoSamples, IsFin]

/-- The bad sample has no weight in the right pixel. -/
theorem two_no_weight (u : ℝ) : sampleWeight defaultBox (twoClean u) 1 0 0 0 0 = 0 := by
  simp only [sampleWeight, samplePos, twoClean, defaultBox, boxFilter, boxEval]
  rw [if_neg]
  rintro ⟨h1, -⟩
  rw [abs_lt] at h1
  norm_num at h1

/-- **C117 is false for samples without weight**: the damage should be confined to pixels the bad sample contributes to.
The sample of the left pixel has weight zero in the right one, whose own sample is a number, but zero times not-a-number
is added. -/
theorem weightless_sample_refuted :
    sampleWeight defaultBox (twoClean (1 / 2)) 1 0 0 0 0 = 0 ∧
    ∃ img log, renderF defaultBox 2 1 1 (twoSamples (1 / 2)) = .ok (img, log) ∧ ∀ c, ¬ (img 1 0 c).IsFin := by
  refine ⟨two_no_weight _, ?_⟩
  obtain ⟨img, log, e, hp⟩ := spoiled_iff defaultBox (box_wellBehaved _ _) 2 1 1 (twoSamples (1 / 2))
    (twoClean (1 / 2)) (two_repairs _)
  refine ⟨img, log, e, fun c => ((hp 1 0 (by norm_num) (by norm_num) c).1).2 ⟨?_, two_spoiled _ c⟩⟩
  have h0 := two_no_weight (1 / 2)
  have h1 : sampleWeight defaultBox (twoClean (1 / 2)) 1 0 0 0 1 = 1 := by
    simp only [sampleWeight, samplePos, twoClean, defaultBox, boxFilter, boxEval]
    norm_num
  simp only [totalWeight, Finset.sum_range_succ, Finset.sum_range_zero, h0, h1, zero_add]
  norm_num

/-- **C117 is false for the multi-threaded renderer without weight**: a pixel without weight should be black, as the
single-threaded renderer leaves it. With the right sample on the border of its pixel the right pixel has no weight; one
tile writes something that is not a number where the loop writes zero. -/
theorem weightless_tile_refuted :
    ∃ img log tiled, renderF defaultBox 2 1 1 (twoSamples 0) = .ok (img, log) ∧
      renderTilesF defaultBox 2 1 1 (twoSamples 0) [{ minX := 0, maxX := 2, minY := 0, maxY := 1, index := 0 }] (fun _ _ _ => .fin 0) =
        .ok tiled ∧ ∀ c, img 1 0 c = .fin 0 ∧ ¬ (tiled 1 0 c).IsFin := by
  obtain ⟨img, log, e, hp⟩ := spoiled_iff defaultBox (box_wellBehaved _ _) 2 1 1 (twoSamples 0) (twoClean 0) (two_repairs _)
  obtain ⟨tiled, e', hp'⟩ := spoiled_tiles_iff defaultBox 2 1 1 (twoSamples 0)
    [{ minX := 0, maxX := 2, minY := 0, maxY := 1, index := 0 }] (by simp)
    (fun x y hx0 hx hy0 hy => by
      rw [List.filter_cons_of_pos (by simp only [decide_eq_true_eq]; exact ⟨hx0, hx, hy0, hy⟩)]
      rfl) (fun _ _ _ => 0)
  refine ⟨img, log, tiled, e, e', fun c => ⟨(hp 1 0 (by norm_num) (by norm_num) c).2 ?_,
    (hp' 1 0 (by norm_num) (by norm_num) c).2 (two_spoiled _ c)⟩⟩
  have h0 := two_no_weight 0
  have h1 : sampleWeight defaultBox (twoClean 0) 1 0 0 0 1 = 0 := by
    simp only [sampleWeight, samplePos, twoClean, defaultBox, boxFilter, boxEval]
    rw [if_neg]
    rintro ⟨h1, -⟩
    rw [abs_lt] at h1
    norm_num at h1
  simp only [totalWeight, Finset.sum_range_succ, Finset.sum_range_zero, h0, h1, zero_add]

/-- Non-vacuity: bad samples that reach one pixel of two — the left sample at a quarter of its pixel leaves the right pixel
alone. -/
example : ¬ Spoiled defaultBox 2 1 1
    (fun _ _ j => { u := 1 / 4, v := 1 / 2, rad := fun _ => if j = 0 then .inf false else .fin 1 }) 1 0 0 := by
  rintro ⟨k, hk, i, hi, j, hj, hc, hn⟩
  obtain rfl | rfl : j = 0 ∨ j = 1 := by omega
  · simp only [Covers, defaultBox, boxFilter] at hc
    norm_num at hc
  · simp [IsFin] at hn

end Feign.Image
