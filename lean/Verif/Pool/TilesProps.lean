import Verif.Pool.TilesLemmas

/-!
# C01: render tiles partition the image

Specification: a tile `[minX,maxX) × [minY,maxY)` *covers* a pixel when both coordinates are in range.
-/

namespace Feign.Pool

/-- Specification: the pixels of a tile (comment at `include/feign/misc/render_pool.h:46`). -/
def Tile.Covers (t : Tile) (x y : Int) : Prop :=
  t.minX ≤ x ∧ x < t.maxX ∧ t.minY ≤ y ∧ y < t.maxY

instance (t : Tile) (x y : Int) : Decidable (t.Covers x y) := by unfold Tile.Covers; infer_instance

private theorem row_filter (tw w h y : Int) (xs : List Int) (idx : Nat) (px py : Int)
    (hx : px < w) (hy : py < h) :
    ((rowTiles tw w h y xs idx).filter (fun t => decide (t.Covers px py))).length =
      if y ≤ py ∧ py < y + tw then hits tw px xs else 0 := by
  induction xs generalizing idx with
  | nil => simp [rowTiles, hits]
  | cons x xs ih =>
    have ih' := ih (idx + 1)
    simp only [rowTiles, hits, List.filter_cons] at ih' ⊢
    by_cases hc : y ≤ py ∧ py < y + tw
    · by_cases hd : x ≤ px ∧ px < x + tw
      · rw [if_pos (by rw [decide_eq_true_eq]; unfold Tile.Covers; dsimp only; omega), if_pos hc, if_pos (by simp only [decide_eq_true_eq]; omega)]
        simp only [hc, and_self, if_true] at ih'
        simp [ih']
      · rw [if_neg (by rw [decide_eq_true_eq]; unfold Tile.Covers; dsimp only; omega), if_pos hc, if_neg (by simp only [decide_eq_true_eq]; omega)]
        simp only [hc, and_self, if_true] at ih'
        simp [ih']
    · rw [if_neg (by rw [decide_eq_true_eq]; unfold Tile.Covers; dsimp only; omega), if_neg hc]
      rw [if_neg hc] at ih'
      exact ih'

private theorem all_filter (tw w h : Int) (xs ys : List Int) (idx : Nat) (px py : Int)
    (hx : px < w) (hy : py < h) :
    ((allTiles tw w h xs ys idx).filter (fun t => decide (t.Covers px py))).length =
      hits tw py ys * hits tw px xs := by
  induction ys generalizing idx with
  | nil => simp [allTiles, hits]
  | cons y ys ih =>
    simp only [allTiles, List.filter_append, List.length_append, ih, row_filter _ _ _ _ _ _ _ _ hx hy]
    simp only [hits, List.filter_cons]
    by_cases hc : y ≤ py ∧ py < y + tw
    · rw [if_pos hc, if_pos (by simpa using hc)]
      simp [Nat.add_mul, Nat.add_comm]
    · rw [if_neg hc, if_neg (by simpa using hc)]
      simp

/-- **C01.** For every positive tile width and every image size, `initialize_pool` on a fresh pool
terminates, and the tiles it produces

* are non-empty and lie inside the image,
* are at most `tw` wide and high,
* are numbered `0, 1, 2, ...`, and
* cover every pixel of the image exactly once (counted with multiplicity). -/
theorem tiles_partition_image (tw w h : Int) (htw : 0 < tw) :
    ∃ tiles : List Tile,
      (∃ bound, ∀ fuel, bound ≤ fuel → initializePool [] tw w h fuel = some tiles) ∧
      (∀ t ∈ tiles, 0 ≤ t.minX ∧ t.minX < t.maxX ∧ t.maxX ≤ w ∧
        0 ≤ t.minY ∧ t.minY < t.maxY ∧ t.maxY ≤ h ∧
        t.maxX - t.minX ≤ tw ∧ t.maxY - t.minY ≤ tw) ∧
      tiles.map (·.index) = List.range tiles.length ∧
      (∀ x y, 0 ≤ x → x < w → 0 ≤ y → y < h →
        (tiles.filter (fun t => decide (t.Covers x y))).length = 1) := by
  obtain ⟨xs, hxs⟩ := loopValues_finishes w tw htw ((w - 0).toNat + 1) 0 (by omega)
  obtain ⟨ys, hys⟩ := loopValues_finishes h tw htw ((h - 0).toNat + 1) 0 (by omega)
  obtain ⟨x1, x2, x3⟩ := loopValues_spec w tw htw _ _ _ hxs
  obtain ⟨y1, y2, y3⟩ := loopValues_spec h tw htw _ _ _ hys
  refine ⟨allTiles tw w h xs ys 0, ⟨w.toNat + h.toNat + 1, ?_⟩, ?_, ?_, ?_⟩
  · intro fuel hf
    have e1 := loopValues_mono _ _ _ _ _ hxs fuel (by omega)
    have e2 := loopValues_mono _ _ _ _ _ hys fuel (by omega)
    simp only [initializePool, e2, e1, Option.bind_eq_bind, Option.bind_some, List.nil_append]
    split
    · rename_i h0; simp [h0, allTiles]
    · rfl
  · intro t ht
    obtain ⟨x, hx, y, hy, e1, e2, e3, e4⟩ := allTiles_mem _ _ _ _ _ _ _ ht
    have := x1 x hx
    have := y1 y hy
    omega
  · rw [allTiles_index, allTiles_length, List.range_eq_range']
  · intro x y hx0 hx hy0 hy
    rw [all_filter _ _ _ _ _ _ _ _ hx hy, x2 x hx hx0, y2 y hy hy0]

/-- The number of tiles is `⌈w/tw⌉ · ⌈h/tw⌉`. -/
theorem tiles_count (tw w h : Int) (htw : 0 < tw) (hw : 0 ≤ w) (hh : 0 ≤ h) (fuel : Nat)
    (tiles : List Tile) (ht : initializePool [] tw w h fuel = some tiles) :
    (tiles.length : Int) = ((w + tw - 1) / tw) * ((h + tw - 1) / tw) := by
  simp only [initializePool, Option.bind_eq_bind] at ht
  cases hys : loopValues h tw fuel 0 with
  | none => simp [hys] at ht
  | some ys =>
    have ly := loopValues_length h tw htw _ _ _ hys hh
    simp only [hys, Option.bind_some] at ht
    split at ht
    · rename_i h0
      subst h0
      simp only [Option.some.injEq] at ht
      subst ht
      simp only [List.length_nil] at ly ⊢
      rw [show h + tw - 1 = h - 0 + tw - 1 by omega, ← ly]
      simp
    · cases hxs : loopValues w tw fuel 0 with
      | none => simp [hxs] at ht
      | some xs =>
        have lx := loopValues_length w tw htw _ _ _ hxs hw
        simp only [hxs, Option.bind_some, Option.some.injEq, List.nil_append] at ht
        subst ht
        rw [allTiles_length]
        push_cast
        rw [ly, lx, Int.mul_comm]
        simp

/-- A tile width of zero or less never finishes on a non-empty image: the code relies on
`tile_width > 0` (its only caller passes 64, `src/integrators/integrator.cpp:33`). -/
theorem tiles_nonpositive_width_diverges (tw w h : Int) (htw : tw ≤ 0) (hh : 0 < h) (fuel : Nat) :
    initializePool [] tw w h fuel = none := by
  have key : ∀ (fuel : Nat) (start : Int), start < h → loopValues h tw fuel start = none := by
    intro fuel
    induction fuel with
    | zero => intros; rfl
    | succ n ih =>
      intro start hs
      unfold loopValues
      rw [if_pos hs, ih _ (by omega)]
      rfl
  simp [initializePool, key fuel 0 hh]

/-- Calling `initialize_pool` twice keeps the old tiles (the vector is never cleared), so pixels are
then covered twice: the code relies on one call per pool. -/
theorem tiles_second_call_appends (old : List Tile) (tw w h : Int) (fuel : Nat) (new : List Tile)
    (hn : initializePool [] tw w h fuel = some new) :
    initializePool old tw w h fuel = some (old ++ new) := by
  simp only [initializePool, Option.bind_eq_bind] at hn ⊢
  cases hys : loopValues h tw fuel 0 with
  | none => simp [hys] at hn
  | some ys =>
    simp only [hys, Option.bind_some] at hn ⊢
    split at hn
    · rename_i h0
      simp only [Option.some.injEq] at hn
      simp [h0, ← hn]
    · rename_i h0
      cases hxs : loopValues w tw fuel 0 with
      | none => simp [hxs] at hn
      | some xs =>
        simp only [hxs, Option.bind_some, Option.some.injEq, List.nil_append] at hn
        simp [h0, hn]

/-- Non-vacuity: a 100×70 image with tile width 64 has four ragged tiles. -/
example : initializePool [] 64 100 70 200 = some
    [⟨0, 0, 64, 64, 0⟩, ⟨64, 0, 100, 64, 1⟩, ⟨0, 64, 64, 70, 2⟩, ⟨64, 64, 100, 70, 3⟩] := by decide

end Feign.Pool
