import Verif.Image.SplatProps
import Verif.Pool.LockProps

/-!
# C04 end to end: the multi-threaded image equals the single-threaded image

`Feign.Pool.Step` interleaves workers at the level of single reads and writes. Here each tile is given
the list of locked updates that `RenderTile::evaluate` (`src/misc/render_pool.cpp:18-93`) performs, every
tile is a worker of its own (the pool starts a tile only after some other tile has finished, which is
one of the interleavings), and the final normalisation is `normalizePool`.
-/

namespace Feign.Image

variable {K : Type} [Field K] [LinearOrder K] [IsStrictOrderedRing K] [FloorRing K]

/-- The locked updates of one sample, `render_pool.cpp:66-89` (exact arithmetic). -/
def sampleUpdates (flt : Filter K) (w h i j : Nat) (o : Obs K) : List (Pool.Upd (Int × Int) K) :=
  let px := (j : K) + o.u
  let py := (i : K) + o.v
  ((splatRange id py flt.sizeY h).flatMap fun y =>
      (splatRange id px flt.sizeX w).map fun x => (x, y)).map fun xy =>
    { pix := xy
      amount := fun c =>
        let weight := flt.eval ((xy.1 : K) + 1 / 2 - px) ((xy.2 : K) + 1 / 2 - py)
        if hc : (c : Nat) < 3 then weight * o.rad ⟨c, hc⟩ else weight }

/-- The locked updates of a tile in program order, `render_pool.cpp:29-93`. -/
def tileProgram (flt : Filter K) (w h spp : Nat) (obs : Nat → Nat → Nat → Obs K) (t : Pool.Tile) :
    List (Pool.Upd (Int × Int) K) :=
  (tileOrder spp t).flatMap fun kij => sampleUpdates flt w h kij.2.1 kij.2.2 (obs kij.1 kij.2.1 kij.2.2)

/-! ### Helpers -/

omit [LinearOrder K] [IsStrictOrderedRing K] [FloorRing K] in
private theorem fold_updates (w h : Nat) (rad : Fin 3 → K) (wt : Int × Int → K) (l : List (Int × Int))
    (hl : ∀ q ∈ l, (0 ≤ q.1 ∧ q.1 < w) ∧ (0 ≤ q.2 ∧ q.2 < h)) (b : Buf K) :
    ∃ b', l.foldlM (init := b) (fun b xy => addAt id w h b xy.1 xy.2 rad (wt xy)) = .ok b' ∧
      (l.map fun xy => ({ pix := xy, amount := fun c =>
          if hc : (c : Nat) < 3 then wt xy * rad ⟨c, hc⟩ else wt xy } : Pool.Upd (Int × Int) K)).foldl
        Pool.applyUpd (fun p c => b p.1 p.2 c) = fun p c => b' p.1 p.2 c := by
  induction l generalizing b with
  | nil => exact ⟨b, rfl, rfl⟩
  | cons q l ih =>
    obtain ⟨h1, h2⟩ := hl q (by simp)
    obtain ⟨b2, e2, f2⟩ := ih (fun q' hq' => hl q' (by simp [hq']))
      (fun x' y' c => if x' = q.1 ∧ y' = q.2 then
        if hc : (c : Nat) < 3 then id (b x' y' c + id (wt q * rad ⟨c, hc⟩)) else id (b x' y' c + wt q)
      else b x' y' c)
    refine ⟨b2, ?_, ?_⟩
    · rw [List.foldlM_cons]
      simp only [addAt, if_pos (show 0 ≤ q.1 ∧ q.1 < w ∧ 0 ≤ q.2 ∧ q.2 < h from
        ⟨h1.1, h1.2, h2.1, h2.2⟩), Res.bind_ok]
      exact e2
    · rw [List.map_cons, List.foldl_cons, ← f2]
      congr 1
      funext p c
      unfold Pool.applyUpd
      simp only [id]
      by_cases hp : p = q
      · subst hp
        simp only [if_true, and_self]
        split <;> rfl
      · rw [if_neg hp, if_neg]
        exact fun h => hp (Prod.ext h.1 h.2)

private theorem sample_updates (flt : Filter K) (w h i j : Nat) (o : Obs K) (b : Buf K) :
    ∃ b', sampleOnce id flt w h i j o b = .ok b' ∧
      (sampleUpdates flt w h i j o).foldl Pool.applyUpd (fun p c => b p.1 p.2 c) =
        fun p c => b' p.1 p.2 c := by
  refine fold_updates w h o.rad (fun xy => flt.eval (id (id ((xy.1 : K) + 1 / 2) - ((j : K) + o.u)))
    (id (id ((xy.2 : K) + 1 / 2) - ((i : K) + o.v)))) _ ?_ b
  rintro ⟨x, y⟩ hq
  rw [mem_pixels] at hq
  exact ⟨splatRange_bounds id _ _ w rfl x hq.2, splatRange_bounds id _ _ h rfl y hq.1⟩

private theorem order_updates (flt : Filter K) (w h : Nat) (obs : Nat → Nat → Nat → Obs K)
    (order : List (Nat × Nat × Nat)) (b : Buf K) :
    ∃ b', accumulate id flt w h obs order b = .ok b' ∧
      (order.flatMap fun kij =>
          sampleUpdates flt w h kij.2.1 kij.2.2 (obs kij.1 kij.2.1 kij.2.2)).foldl
        Pool.applyUpd (fun p c => b p.1 p.2 c) = fun p c => b' p.1 p.2 c := by
  induction order generalizing b with
  | nil => exact ⟨b, rfl, rfl⟩
  | cons q l ih =>
    obtain ⟨b1, e1, f1⟩ := sample_updates flt w h q.2.1 q.2.2 (obs q.1 q.2.1 q.2.2) b
    obtain ⟨b2, e2, f2⟩ := ih b1
    refine ⟨b2, ?_, ?_⟩
    · unfold accumulate at e2 ⊢
      rw [List.foldlM_cons, e1, Res.bind_ok, e2]
    · rw [List.flatMap_cons, List.foldl_append, f1, f2]

/-! ### Property theorem -/

/-- **C04, end to end.** Split the image into tiles that cover it exactly once, run the tiles
concurrently in *any* interleaving of single memory accesses under the per-pixel locks, starting from a
cleared image: whenever all tiles are finished, the normalised image equals the one the single-threaded
renderer produces from the same samples. -/
theorem parallel_eq_sequential (flt : Filter K) (hf : flt.WellBehaved) (w h spp : Nat)
    (obs : Nat → Nat → Nat → Obs K) (tiles : List Pool.Tile)
    (hin : ∀ t ∈ tiles, 0 ≤ t.minX ∧ t.maxX ≤ w ∧ 0 ≤ t.minY ∧ t.maxY ≤ h)
    (hcov : ∀ x y : Int, 0 ≤ x → x < w → 0 ≤ y → y < h →
      (tiles.filter (fun t => decide (t.Covers x y))).length = 1) :
    ∃ img, render id flt w h spp obs = .ok img ∧
      ∀ s, Relation.ReflTransGen Pool.Step
          (Pool.Shared.start (fun _ _ => 0)
            (fun i : Fin tiles.length => tileProgram flt w h spp obs tiles[i])) s →
        s.Done → ∀ x y c, x < w → y < h →
          normalizePool id (fun x y c => s.mem (x, y) c) (x : Nat) (y : Nat) c = img x y c := by
  obtain ⟨img, img', e, e', heq⟩ := renderTiles_eq_render flt hf w h spp obs tiles hin hcov
  refine ⟨img, e, ?_⟩
  intro s hs hd x y c hx hy
  have hmem := Pool.interleaving_independent _ _ s hs hd
  have hprog : ((List.finRange tiles.length).map
      (fun i : Fin tiles.length => tileProgram flt w h spp obs tiles[i])).flatten =
      (tiles.flatMap (tileOrder spp)).flatMap fun kij =>
        sampleUpdates flt w h kij.2.1 kij.2.2 (obs kij.1 kij.2.1 kij.2.2) := by
    rw [List.flatMap_assoc, ← List.flatMap_def]
    have : tiles = (List.finRange tiles.length).map (fun i => tiles[i]) := by
      apply List.ext_getElem <;> simp
    conv_rhs => rw [this, List.flatMap_map]
    rfl
  rw [hprog] at hmem
  obtain ⟨b, eb, fb⟩ := order_updates flt w h obs (tiles.flatMap (tileOrder spp)) (fun _ _ _ => 0)
  rw [fb] at hmem
  have hb : (fun x y c => s.mem (x, y) c) = b := by
    rw [hmem]
  rw [hb, ← heq x y c hx hy]
  have h0 : (fun x y c => if hc : (c : Nat) < 3 then
      (fun _ _ _ => 0 : Int → Int → Fin 3 → K) x y ⟨c, hc⟩ else 0 : Buf K) = fun _ _ _ => 0 := by
    funext x y c; split <;> rfl
  unfold renderTiles at e'
  rw [h0, eb] at e'
  simp only [Res.bind_ok, Res.pure_eq, Res.ok.injEq] at e'
  rw [← e']

/-- Non-vacuity: the tiles of `initialize_pool` meet the hypotheses for every image size. -/
example (w h : Nat) : ∃ tiles fuel, Pool.initializePool [] 64 w h fuel = some tiles ∧
    (∀ t ∈ tiles, 0 ≤ t.minX ∧ t.maxX ≤ (w : Int) ∧ 0 ≤ t.minY ∧ t.maxY ≤ (h : Int)) ∧
    (∀ x y : Int, 0 ≤ x → x < w → 0 ≤ y → y < h →
      (tiles.filter (fun t => decide (t.Covers x y))).length = 1) := by
  obtain ⟨tiles, ⟨bound, hb⟩, h1, -, h2⟩ := Pool.tiles_partition_image 64 w h (by decide)
  exact ⟨tiles, bound, hb bound (le_refl _), fun t ht => by have := h1 t ht; omega, h2⟩

end Feign.Image
