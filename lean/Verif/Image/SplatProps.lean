import Verif.Image.SplatLemmas
import Verif.Image.FilterProps
import Verif.Pool.TilesProps
import Mathlib.Algebra.Order.BigOperators.Group.Finset
import Mathlib.Algebra.BigOperators.Ring.Finset
import Mathlib.Data.Rat.Floor

/-!
# C03 (pixel writes stay inside the frame buffer), C05 (every pixel is a weighted average)
-/

namespace Feign.Image

variable {K : Type} [Field K] [LinearOrder K] [IsStrictOrderedRing K] [FloorRing K]

open Finset

/-! ### C03 -/

omit [LinearOrder K] [IsStrictOrderedRing K] [FloorRing K] in
private theorem addAt_ok (fl : K → K) (w h : Nat) (b : Buf K) (x y : Int) (rad : Fin 3 → K) (wt : K)
    (hx : 0 ≤ x ∧ x < w) (hy : 0 ≤ y ∧ y < h) : ∃ b', addAt fl w h b x y rad wt = .ok b' := by
  unfold addAt
  rw [if_pos ⟨hx.1, hx.2, hy.1, hy.2⟩]
  exact ⟨_, rfl⟩

/-- **C03.** Whatever the rounding does to sample positions, filter bounds, weights and sums — it only
has to represent the last column and row index exactly — and whatever the sampler, camera, filter and
integrator answer, every pixel touched by a single-threaded render is a pixel of the image. (The
sample offsets are not even required to be in `[0,1)`, nor the filter radius to be non-negative.) -/
theorem render_in_bounds (fl : K → K) (flt : Filter K) (w h spp : Nat)
    (hw : fl ((w : K) - 1) = (w : K) - 1) (hh : fl ((h : K) - 1) = (h : K) - 1)
    (obs : Nat → Nat → Nat → Obs K) : ∃ img, render fl flt w h spp obs = .ok img := by
  have : ∀ order b, ∃ b', accumulate fl flt w h obs order b = .ok b' := by
    intro order b
    apply foldlM_ok
    intro q _ b
    apply foldlM_ok
    rintro ⟨x, y⟩ hxy b
    rw [mem_pixels] at hxy
    exact addAt_ok _ _ _ _ _ _ _ _ (splatRange_bounds fl _ _ w hw x hxy.2)
      (splatRange_bounds fl _ _ h hh y hxy.1)
  obtain ⟨b', hb⟩ := this (renderOrder spp w h) (fun _ _ _ => 0)
  exact ⟨normalize fl b', by simp [render, hb]⟩

/-- **C03, multi-threaded renderer.** The same for the tile renderer, for any tiles. -/
theorem renderTiles_in_bounds (fl : K → K) (flt : Filter K) (w h spp : Nat)
    (hw : fl ((w : K) - 1) = (w : K) - 1) (hh : fl ((h : K) - 1) = (h : K) - 1)
    (obs : Nat → Nat → Nat → Obs K) (tiles : List Pool.Tile) (img0 : Int → Int → Fin 3 → K) :
    ∃ img, renderTiles fl flt w h spp obs tiles img0 = .ok img := by
  have : ∀ order b, ∃ b', accumulate fl flt w h obs order b = .ok b' := by
    intro order b
    apply foldlM_ok
    intro q _ b
    apply foldlM_ok
    rintro ⟨x, y⟩ hxy b
    rw [mem_pixels] at hxy
    exact addAt_ok _ _ _ _ _ _ _ _ (splatRange_bounds fl _ _ w hw x hxy.2)
      (splatRange_bounds fl _ _ h hh y hxy.1)
  obtain ⟨b', hb⟩ := this (tiles.flatMap (tileOrder spp))
    (fun x y c => if hc : (c : Nat) < 3 then img0 x y ⟨c, hc⟩ else 0)
  exact ⟨normalizePool fl b', by simp [renderTiles, hb]⟩

/-- The hypothesis of `render_in_bounds` is needed: if the last column index is rounded up (as single
precision does for some widths above `2^24`), a sample near the right edge writes outside. -/
theorem inexact_width_out_of_bounds (fl : K → K) (w : Nat) (p s : K)
    (hw : fl ((w : K) - 1) = w) (hp : fl (p - s) = (w : K) - 1) (hq : fl (p + s) = (w : K) + 1)
    (hw1 : 1 ≤ w) : (w : Int) ∈ splatRange fl p s w := by
  have h1 : (1 : K) ≤ w := by exact_mod_cast hw1
  have e1 : clipMin (fl (p - s)) 0 = (((w : Int) - 1 : Int) : K) := by
    rw [hp]; unfold clipMin
    rw [if_neg (by linarith)]; push_cast; rfl
  have e2 : clipMax (fl (p + s)) (fl ((w : K) - 1)) = ((w : Int) : K) := by
    rw [hq, hw]; unfold clipMax
    rw [if_pos (by linarith)]; push_cast; rfl
  unfold splatRange
  rw [mem_intRange, e1, e2, Int.floor_intCast, Int.floor_intCast]
  omega

/-- Non-vacuity: a 3×2 image, truncation to quarters as rounding, a sample on the right edge. -/
example : ∃ img, render (K := ℚ) (fun x => ⌊x * 4⌋ / 4) defaultBox 3 2 1
    (fun _ _ _ => ⟨7 / 8, 3 / 5, fun _ => 1⟩) = .ok img :=
  render_in_bounds _ _ _ _ _ (by norm_num) (by norm_num) _

/-! ### C05 -/

/-- Specification: position of the sample `k` of pixel column `j`, row `i`. -/
def samplePos (obs : Nat → Nat → Nat → Obs K) (k i j : Nat) : K × K :=
  ((j : K) + (obs k i j).u, (i : K) + (obs k i j).v)

/-- Specification: weight with which that sample counts for the pixel column `x`, row `y`: the filter at
the offset of the pixel centre from the sample. -/
def sampleWeight (flt : Filter K) (obs : Nat → Nat → Nat → Obs K) (x y k i j : Nat) : K :=
  flt.eval ((x : K) + 1 / 2 - (samplePos obs k i j).1) ((y : K) + 1 / 2 - (samplePos obs k i j).2)

/-- Specification: total weight over **all** samples of the image. -/
def totalWeight (flt : Filter K) (w h spp : Nat) (obs : Nat → Nat → Nat → Obs K) (x y : Nat) : K :=
  ∑ k ∈ range spp, ∑ i ∈ range h, ∑ j ∈ range w, sampleWeight flt obs x y k i j

/-- Specification: weighted sum of the radiance of all samples of the image. -/
def totalRadiance (flt : Filter K) (w h spp : Nat) (obs : Nat → Nat → Nat → Obs K) (x y : Nat)
    (c : Fin 3) : K :=
  ∑ k ∈ range spp, ∑ i ∈ range h, ∑ j ∈ range w, sampleWeight flt obs x y k i j * (obs k i j).rad c

omit [LinearOrder K] [IsStrictOrderedRing K] [FloorRing K] in
theorem sum_renderOrder (spp w h : Nat) (f : Nat × Nat × Nat → K) :
    ((renderOrder spp w h).map f).sum =
      ∑ k ∈ range spp, ∑ i ∈ range h, ∑ j ∈ range w, f (k, i, j) := by
  have base : ∀ (n : Nat) (g : Nat → K), ((List.range n).map g).sum = ∑ j ∈ range n, g j := by
    intro n g; rfl
  have fm : ∀ (l : List Nat) (g : Nat → List (Nat × Nat × Nat)),
      ((l.flatMap g).map f).sum = (l.map fun a => ((g a).map f).sum).sum := by
    intro l g
    induction l with
    | nil => rfl
    | cons a l ih => simp [List.flatMap_cons, ih]
  unfold renderOrder
  simp only [fm, List.map_map, Function.comp_def, base]

/-- **C05.** Exact arithmetic, any filter that vanishes outside its half widths: each pixel of the
rendered image is the weighted mean over *all* samples of the image, and black if no weight arrived. -/
theorem render_pixel_eq (flt : Filter K)
    (hs : ∀ x y, flt.sizeX ≤ |x| ∨ flt.sizeY ≤ |y| → flt.eval x y = 0)
    (w h spp : Nat) (obs : Nat → Nat → Nat → Obs K) :
    ∃ img, render id flt w h spp obs = .ok img ∧ ∀ x y c, x < w → y < h →
      img x y c = if totalWeight flt w h spp obs x y = 0 then 0
        else totalRadiance flt w h spp obs x y c / totalWeight flt w h spp obs x y := by
  obtain ⟨b, e, hb⟩ := accumulate_exact flt hs w h obs (renderOrder spp w h) (fun _ _ _ => 0)
  refine ⟨normalize id b, by simp [render, e], ?_⟩
  intro x y c hx hy
  have hb3 := hb x y 3 (by omega) (by omega) (by omega) (by omega)
  have hbc := hb x y c.castSucc (by omega) (by omega) (by omega) (by omega)
  rw [sum_renderOrder, zero_add] at hb3 hbc
  have e3 : b x y 3 = totalWeight flt w h spp obs x y := by
    rw [hb3]
    simp [totalWeight, contribution, chan, sampleWeight, samplePos]
  have ec : b x y c.castSucc = totalRadiance flt w h spp obs x y c := by
    rw [hbc]
    simp [totalRadiance, contribution, chan, sampleWeight, samplePos]
  unfold normalize
  rw [e3, ec]
  rfl

/-- **C05, range.** With a non-negative filter every pixel that received weight lies between any bounds
on the sampled radiance. -/
theorem render_pixel_between (flt : Filter K) (hf : flt.WellBehaved)
    (w h spp : Nat) (obs : Nat → Nat → Nat → Obs K) (c : Fin 3) (lo hi : K)
    (hlo : ∀ k i j, k < spp → i < h → j < w → lo ≤ (obs k i j).rad c)
    (hhi : ∀ k i j, k < spp → i < h → j < w → (obs k i j).rad c ≤ hi) :
    ∃ img, render id flt w h spp obs = .ok img ∧ ∀ x y, x < w → y < h →
      (totalWeight flt w h spp obs x y = 0 ∧ img x y c = 0) ∨
      (0 < totalWeight flt w h spp obs x y ∧ lo ≤ img x y c ∧ img x y c ≤ hi) := by
  obtain ⟨img, e, hi'⟩ := render_pixel_eq flt hf.support w h spp obs
  refine ⟨img, e, ?_⟩
  intro x y hx hy
  have hx' := hi' x y c hx hy
  have hW : 0 ≤ totalWeight flt w h spp obs x y := by
    unfold totalWeight
    exact sum_nonneg fun k _ => sum_nonneg fun i _ => sum_nonneg fun j _ => hf.nonneg _ _
  by_cases h0 : totalWeight flt w h spp obs x y = 0
  · left; exact ⟨h0, by rw [hx', if_pos h0]⟩
  · right
    have hpos : 0 < totalWeight flt w h spp obs x y := lt_of_le_of_ne hW (Ne.symm h0)
    rw [hx', if_neg h0]
    refine ⟨hpos, ?_, ?_⟩
    · rw [le_div_iff₀ hpos]
      unfold totalWeight totalRadiance
      simp only [mul_sum]
      refine sum_le_sum fun k hk => sum_le_sum fun i hi => sum_le_sum fun j hj => ?_
      rw [mul_comm]
      exact mul_le_mul_of_nonneg_left
        (hlo k i j (mem_range.mp hk) (mem_range.mp hi) (mem_range.mp hj)) (hf.nonneg _ _)
    · rw [div_le_iff₀ hpos]
      unfold totalWeight totalRadiance
      simp only [mul_sum]
      refine sum_le_sum fun k hk => sum_le_sum fun i hi => sum_le_sum fun j hj => ?_
      rw [mul_comm _ (sampleWeight flt obs x y k i j)]
      exact mul_le_mul_of_nonneg_left
        (hhi k i j (mem_range.mp hk) (mem_range.mp hi) (mem_range.mp hj)) (hf.nonneg _ _)

/-- **C05, constant scenes.** Constant radiance renders to that constant wherever weight arrived. -/
theorem render_constant (flt : Filter K) (hf : flt.WellBehaved) (w h spp : Nat)
    (obs : Nat → Nat → Nat → Obs K) (c : Fin 3) (v : K)
    (hv : ∀ k i j, k < spp → i < h → j < w → (obs k i j).rad c = v) :
    ∃ img, render id flt w h spp obs = .ok img ∧ ∀ x y, x < w → y < h →
      totalWeight flt w h spp obs x y ≠ 0 → img x y c = v := by
  obtain ⟨img, e, h1⟩ := render_pixel_between flt hf w h spp obs c v v
    (fun k i j a b d => (hv k i j a b d).ge) (fun k i j a b d => (hv k i j a b d).le)
  refine ⟨img, e, fun x y hx hy hW => ?_⟩
  rcases h1 x y hx hy with ⟨h0, -⟩ | ⟨-, h2, h3⟩
  · exact absurd h0 hW
  · exact le_antisymm h3 h2

/-- **C05, no holes.** With the filter the renderer installs, at least one sample per pixel and sample
offsets in `[0,1]`, every pixel receives weight, so none is left black for lack of samples. -/
theorem default_filter_no_holes (w h spp : Nat) (hspp : 0 < spp) (obs : Nat → Nat → Nat → Obs ℝ)
    (hu : ∀ k i j, 0 ≤ (obs k i j).u ∧ (obs k i j).u ≤ 1)
    (hv : ∀ k i j, 0 ≤ (obs k i j).v ∧ (obs k i j).v ≤ 1) (x y : Nat) (hx : x < w) (hy : y < h) :
    0 < totalWeight apiDefaultFilter w h spp obs x y := by
  have hnn : ∀ a b, 0 ≤ apiDefaultFilter.eval a b :=
    (gauss_wellBehaved 2 2 1 (by norm_num) (by norm_num)).nonneg
  have key : 0 < sampleWeight apiDefaultFilter obs x y 0 y x := by
    unfold sampleWeight samplePos
    rw [apiDefaultFilter, gauss_pos_iff 2 2 1 (by norm_num) (by norm_num) (by norm_num)]
    have := hu 0 y x
    have := hv 0 y x
    constructor <;> rw [abs_lt] <;> constructor <;> simp only <;> linarith
  unfold totalWeight
  refine sum_pos' (fun k _ => sum_nonneg fun i _ => sum_nonneg fun j _ => hnn _ _)
    ⟨0, mem_range.mpr hspp, ?_⟩
  refine sum_pos' (fun i _ => sum_nonneg fun j _ => hnn _ _) ⟨y, mem_range.mpr hy, ?_⟩
  exact sum_pos' (fun j _ => hnn _ _) ⟨x, mem_range.mpr hx, key⟩

/-- With the box filter a sample exactly on a pixel's edge (`next2D` may return 0) gives no weight to
that pixel, so a hole is possible: the strict comparison at `src/filters/box_filter.cpp:28`. -/
theorem box_filter_hole :
    totalWeight (K := ℚ) defaultBox 1 1 1 (fun _ _ _ => ⟨0, 0, fun _ => 1⟩) 0 0 = 0 := by
  simp [totalWeight, sampleWeight, samplePos, defaultBox, boxFilter, boxEval]

/-- **C05 under rounding.** For any monotone rounding that fixes 0 and the last indices, non-negative
radiance and a non-negative filter give a non-negative image. -/
theorem render_nonneg (fl : K → K) (hm : Monotone fl) (h0 : fl 0 = 0) (flt : Filter K)
    (hf : ∀ x y, 0 ≤ flt.eval x y) (w h spp : Nat)
    (hw : fl ((w : K) - 1) = (w : K) - 1) (hh : fl ((h : K) - 1) = (h : K) - 1)
    (obs : Nat → Nat → Nat → Obs K) (hr : ∀ k i j c, 0 ≤ (obs k i j).rad c) :
    ∃ img, render fl flt w h spp obs = .ok img ∧ ∀ x y c, 0 ≤ img x y c := by
  have fl_nonneg : ∀ a, 0 ≤ a → 0 ≤ fl a := fun a ha => by rw [← h0]; exact hm ha
  have : ∃ b', accumulate fl flt w h obs (renderOrder spp w h) (fun _ _ _ => 0) = .ok b' ∧
      ∀ x y c, 0 ≤ b' x y c := by
    apply foldlM_inv (fun b : Buf K => ∀ x y c, 0 ≤ b x y c)
    · intro x y c; exact le_refl _
    · intro q _ b hb
      apply foldlM_inv (fun b : Buf K => ∀ x y c, 0 ≤ b x y c)
      · exact hb
      · rintro ⟨x, y⟩ hxy b hb
        rw [mem_pixels] at hxy
        have bx := splatRange_bounds fl _ _ w hw x hxy.2
        have by' := splatRange_bounds fl _ _ h hh y hxy.1
        unfold addAt
        rw [if_pos ⟨bx.1, bx.2, by'.1, by'.2⟩]
        refine ⟨_, rfl, ?_⟩
        intro x' y' c
        simp only
        split
        · split
          · exact fl_nonneg _ (add_nonneg (hb _ _ _) (fl_nonneg _ (mul_nonneg (hf _ _) (hr _ _ _ _))))
          · exact fl_nonneg _ (add_nonneg (hb _ _ _) (hf _ _))
        · exact hb _ _ _
  obtain ⟨b', e, hb⟩ := this
  refine ⟨normalize fl b', by simp [render, e], ?_⟩
  intro x y c
  unfold normalize
  split
  · exact le_refl _
  · exact fl_nonneg _ (div_nonneg (hb _ _ _) (hb _ _ _))

/-! ### C04, whole image: tiles in any order give the single-threaded image -/

/-- The samples of tiles that cover every pixel once are those of the image. -/
theorem tiles_perm (w h spp : Nat) (tiles : List Pool.Tile)
    (hin : ∀ t ∈ tiles, 0 ≤ t.minX ∧ t.maxX ≤ w ∧ 0 ≤ t.minY ∧ t.maxY ≤ h)
    (hcov : ∀ x y : Int, 0 ≤ x → x < w → 0 ≤ y → y < h →
      (tiles.filter (fun t => decide (t.Covers x y))).length = 1) :
    (tiles.flatMap (tileOrder spp)).Perm (renderOrder spp w h) := by
  have hnd : (tiles.flatMap (tileOrder spp)).Nodup := by
    rw [List.nodup_flatMap]
    refine ⟨fun t ht => nodup_tileOrder spp t (hin t ht).1 (hin t ht).2.2.1, ?_⟩
    have aux : ∀ l : List Pool.Tile,
        (∀ t ∈ l, 0 ≤ t.minX ∧ t.maxX ≤ w ∧ 0 ≤ t.minY ∧ t.maxY ≤ h) →
        (∀ x y : Int, 0 ≤ x → x < w → 0 ≤ y → y < h →
          (l.filter (fun t => decide (t.Covers x y))).length ≤ 1) →
        l.Pairwise (Function.onFun List.Disjoint (tileOrder spp)) := by
      intro l
      induction l with
      | nil => intros; exact List.Pairwise.nil
      | cons t l ih =>
        intro h1 h2
        refine List.Pairwise.cons ?_ (ih (fun t' ht' => h1 t' (by simp [ht'])) ?_)
        · intro t' ht'
          simp only [Function.onFun, List.disjoint_left]
          rintro ⟨k, i, j⟩ m1 m2
          have b1 := h1 t (by simp)
          have b2 := h1 t' (by simp [ht'])
          rw [mem_tileOrder _ _ _ _ _ b1.1 b1.2.2.1] at m1
          rw [mem_tileOrder _ _ _ _ _ b2.1 b2.2.2.1] at m2
          have c1 : t.Covers j i := ⟨m1.2.1, m1.2.2.1, m1.2.2.2.1, m1.2.2.2.2⟩
          have c2 : t'.Covers j i := ⟨m2.2.1, m2.2.2.1, m2.2.2.2.1, m2.2.2.2.2⟩
          have := h2 j i (by omega) (by omega) (by omega) (by omega)
          rw [List.filter_cons, if_pos (by simpa using c1)] at this
          have hm : t' ∈ l.filter (fun t => decide (t.Covers j i)) := by
            rw [List.mem_filter]; exact ⟨ht', by simpa using c2⟩
          have := List.length_pos_of_mem hm
          simp only [List.length_cons] at *
          omega
        · intro x y a b c d
          have := h2 x y a b c d
          rw [List.filter_cons] at this
          split at this
          · simp only [List.length_cons] at this; omega
          · exact this
    exact aux tiles hin (fun x y a b c d => (hcov x y a b c d).le)
  rw [List.perm_ext_iff_of_nodup hnd (nodup_renderOrder spp w h)]
  rintro ⟨k, i, j⟩
  rw [mem_renderOrder, List.mem_flatMap]
  constructor
  · rintro ⟨t, ht, m⟩
    have b := hin t ht
    rw [mem_tileOrder _ _ _ _ _ b.1 b.2.2.1] at m
    omega
  · rintro ⟨hk, hi, hj⟩
    have h1 := hcov j i (by omega) (by omega) (by omega) (by omega)
    have hne : tiles.filter (fun t => decide (t.Covers j i)) ≠ [] := by
      intro h; rw [h] at h1; simp at h1
    obtain ⟨t, ht⟩ := List.exists_mem_of_ne_nil _ hne
    rw [List.mem_filter] at ht
    have hc : t.Covers j i := by simpa using ht.2
    have b := hin t ht.1
    refine ⟨t, ht.1, ?_⟩
    rw [mem_tileOrder _ _ _ _ _ b.1 b.2.2.1]
    exact ⟨hk, hc.1, hc.2.1, hc.2.2.1, hc.2.2.2⟩

/-- **C04/C05.** For tiles that cover every pixel exactly once (which `initialize_pool` guarantees,
`Feign.Pool.tiles_partition_image`), rendering them into a cleared image in any order gives, for the
same samples, exactly the image of the single-threaded renderer. -/
theorem renderTiles_eq_render (flt : Filter K) (hf : flt.WellBehaved) (w h spp : Nat)
    (obs : Nat → Nat → Nat → Obs K) (tiles : List Pool.Tile)
    (hin : ∀ t ∈ tiles, 0 ≤ t.minX ∧ t.maxX ≤ w ∧ 0 ≤ t.minY ∧ t.maxY ≤ h)
    (hcov : ∀ x y : Int, 0 ≤ x → x < w → 0 ≤ y → y < h →
      (tiles.filter (fun t => decide (t.Covers x y))).length = 1) :
    ∃ img img', render id flt w h spp obs = .ok img ∧
      renderTiles id flt w h spp obs tiles (fun _ _ _ => 0) = .ok img' ∧
      ∀ x y c, x < w → y < h → img' (x : Nat) (y : Nat) c = img x y c := by
  have hperm := tiles_perm w h spp tiles hin hcov
  obtain ⟨img, e, hi⟩ := render_pixel_eq flt hf.support w h spp obs
  obtain ⟨b, eb, hb⟩ := accumulate_exact flt hf.support w h obs (tiles.flatMap (tileOrder spp))
    (fun x y c => if hc : (c : Nat) < 3 then (fun _ _ _ => 0 : Int → Int → Fin 3 → K) x y ⟨c, hc⟩ else 0)
  refine ⟨img, normalizePool id b, e, by simp only [renderTiles, eb]; rfl, ?_⟩
  intro x y c hx hy
  have hb3 := hb x y 3 (by omega) (by omega) (by omega) (by omega)
  have hbc := hb x y c.castSucc (by omega) (by omega) (by omega) (by omega)
  rw [(hperm.map _).sum_eq, sum_renderOrder] at hb3 hbc
  have e3 : b x y 3 = totalWeight flt w h spp obs x y := by
    rw [hb3]
    simp [totalWeight, contribution, chan, sampleWeight, samplePos]
  have ec : b x y c.castSucc = totalRadiance flt w h spp obs x y c := by
    rw [hbc]
    simp [totalRadiance, contribution, chan, sampleWeight, samplePos]
  rw [hi x y c hx hy]
  unfold normalizePool
  rw [e3, ec]
  by_cases h0 : totalWeight flt w h spp obs x y = 0
  · rw [if_neg (by simpa using h0), if_pos h0]
    -- all weights are zero
    unfold totalWeight at h0
    unfold totalRadiance
    have nn := hf.nonneg
    refine sum_eq_zero fun k hk => sum_eq_zero fun i hi => sum_eq_zero fun j hj => ?_
    have h1 := (sum_eq_zero_iff_of_nonneg (fun k _ => sum_nonneg fun i _ => sum_nonneg fun j _ =>
      nn _ _)).mp h0 k hk
    have h2 := (sum_eq_zero_iff_of_nonneg (fun i _ => sum_nonneg fun j _ => nn _ _)).mp h1 i hi
    have h3 := (sum_eq_zero_iff_of_nonneg (fun j _ => nn _ _)).mp h2 j hj
    unfold sampleWeight
    rw [h3, zero_mul]
  · rw [if_pos h0, if_neg h0]
    rfl

/-- The hypothesis "cleared image" is needed: `evaluate_pool` adds onto whatever the target image holds
(`render_pool.cpp:80-82`), while `Integrator::render` clears it first (`integrator.cpp:44`). -/
theorem renderTiles_keeps_old_contents :
    ∃ img, renderTiles (K := ℚ) id (boxFilter 1 1) 1 1 1 (fun _ _ _ => ⟨1 / 2, 1 / 2, fun _ => 1⟩)
      [⟨0, 0, 1, 1, 0⟩] (fun _ _ _ => 5) = .ok img ∧ img 0 0 0 = 6 := by
  obtain ⟨b, eb, hb⟩ := accumulate_exact (K := ℚ) (boxFilter 1 1) (box_wellBehaved 1 1).support 1 1
    (fun _ _ _ => ⟨1 / 2, 1 / 2, fun _ => 1⟩) ([⟨0, 0, 1, 1, 0⟩].flatMap (tileOrder 1))
    (fun x y c => if hc : (c : Nat) < 3 then (fun _ _ _ => 5 : Int → Int → Fin 3 → ℚ) x y ⟨c, hc⟩ else 0)
  refine ⟨normalizePool id b, by simp only [renderTiles, eb]; rfl, ?_⟩
  have h3 := hb 0 0 3 (by norm_num) (by norm_num) (by norm_num) (by norm_num)
  have h0 := hb 0 0 0 (by norm_num) (by norm_num) (by norm_num) (by norm_num)
  have e : ([⟨0, 0, 1, 1, 0⟩] : List Pool.Tile).flatMap (tileOrder 1) = [(0, 0, 0)] := by decide
  rw [e] at h3 h0
  norm_num [contribution, chan, boxFilter, boxEval] at h3 h0
  unfold normalizePool
  have : (0 : Fin 3).castSucc = (0 : Fin 4) := rfl
  rw [this, h3, h0]
  norm_num

/-- Non-vacuity of the hypotheses of `renderTiles_eq_render`: the tiles of a 100×70 image. -/
example : ∃ tiles, Pool.initializePool [] 64 100 70 200 = some tiles ∧ tiles.length = 4 ∧
    ∀ t ∈ tiles, 0 ≤ t.minX ∧ t.maxX ≤ (100 : Nat) ∧ 0 ≤ t.minY ∧ t.maxY ≤ (70 : Nat) := by
  refine ⟨[⟨0, 0, 64, 64, 0⟩, ⟨64, 0, 100, 64, 1⟩, ⟨0, 64, 64, 70, 2⟩, ⟨64, 64, 100, 70, 3⟩],
    by decide, rfl, by decide⟩

end Feign.Image
