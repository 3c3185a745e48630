import Verif.Image.Splat
import Mathlib.Tactic.Linarith
import Mathlib.Tactic.Ring
import Mathlib.Tactic.FieldSimp
import Mathlib.Algebra.BigOperators.Group.Finset.Basic
import Mathlib.Algebra.BigOperators.Group.List.Basic
import Mathlib.Data.List.Nodup
import Mathlib.Data.List.Range
import Mathlib.Data.List.Perm.Basic

/-! Helper lemmas for `Verif/Image/SplatProps.lean`. -/

namespace Feign.Image

variable {K : Type} [Field K] [LinearOrder K] [IsStrictOrderedRing K] [FloorRing K]

theorem mem_intRange (lo hi x : Int) : x ∈ intRange lo hi ↔ lo ≤ x ∧ x ≤ hi := by
  unfold intRange
  simp only [List.mem_map, List.mem_range]
  constructor
  · rintro ⟨n, hn, rfl⟩; omega
  · intro h
    exact ⟨(x - lo).toNat, by omega, by omega⟩

theorem nodup_intRange (lo hi : Int) : (intRange lo hi).Nodup := by
  unfold intRange
  apply List.Nodup.map _ List.nodup_range
  intro a b h
  simp only at h
  omega

theorem splatRange_bounds (fl : K → K) (p s : K) (n : Nat) (hfl : fl ((n : K) - 1) = (n : K) - 1)
    (x : Int) (hx : x ∈ splatRange fl p s n) : 0 ≤ x ∧ x < n := by
  unfold splatRange at hx
  rw [mem_intRange, hfl] at hx
  obtain ⟨h1, h2⟩ := hx
  constructor
  · refine le_trans ?_ h1
    rw [Int.le_floor]
    unfold clipMin
    split
    · simp
    · push_cast; exact not_lt.mp ‹_›
  · have : (x : K) ≤ (n : K) - 1 := by
      have := Int.le_floor.mp h2
      refine this.trans ?_
      unfold clipMax
      split
      · exact le_refl _
      · exact not_lt.mp ‹_›
    have : x ≤ (n : Int) - 1 := by
      have h3 : ((x : Int) : K) ≤ (((n : Int) - 1 : Int) : K) := by push_cast; exact this
      exact_mod_cast h3
    omega

/-- Every pixel whose centre is within the half width is visited. -/
theorem splatRange_complete (p s : K) (n : Nat) (x : Int) (h0 : 0 ≤ x) (hn : x < n)
    (hs : |(x : K) + 1 / 2 - p| < s) : x ∈ splatRange id p s n := by
  unfold splatRange
  rw [mem_intRange]
  rw [abs_lt] at hs
  have h0' : (0 : K) ≤ x := by exact_mod_cast h0
  constructor
  · unfold clipMin
    simp only [id]
    split
    · simpa using h0
    · have : ⌊p - s⌋ < x + 1 := by
        rw [Int.floor_lt]
        push_cast
        linarith [hs.1]
      omega
  · rw [Int.le_floor]
    unfold clipMax
    simp only [id]
    split
    · have : x ≤ (n : Int) - 1 := by omega
      have h3 : ((x : Int) : K) ≤ (((n : Int) - 1 : Int) : K) := by exact_mod_cast this
      push_cast at h3
      exact h3
    · linarith [hs.2]

theorem foldlM_ok {α β : Type} (f : β → α → Res β) (l : List α) (b : β)
    (h : ∀ a ∈ l, ∀ b, ∃ b', f b a = .ok b') : ∃ b', l.foldlM f b = .ok b' := by
  induction l generalizing b with
  | nil => exact ⟨b, rfl⟩
  | cons a l ih =>
    obtain ⟨b', hb⟩ := h a (by simp) b
    rw [List.foldlM_cons, hb, Res.bind_ok]
    exact ih b' (fun a' ha' => h a' (by simp [ha']))

/-- An invariant carried through a monadic fold. -/
theorem foldlM_inv {α β : Type} (P : β → Prop) (f : β → α → Res β) (l : List α) (b : β) (hb : P b)
    (h : ∀ a ∈ l, ∀ b, P b → ∃ b', f b a = .ok b' ∧ P b') : ∃ b', l.foldlM f b = .ok b' ∧ P b' := by
  induction l generalizing b with
  | nil => exact ⟨b, rfl, hb⟩
  | cons a l ih =>
    obtain ⟨b', hb', hp⟩ := h a (by simp) b hb
    rw [List.foldlM_cons, hb', Res.bind_ok]
    exact ih b' hp (fun a' ha' => h a' (by simp [ha']))

/-- The channel value that a weight multiplies: radiance, or `1` for the weight channel. -/
def chan (rad : Fin 3 → K) (c : Fin 4) : K := if hc : (c : Nat) < 3 then rad ⟨c, hc⟩ else 1

omit [IsStrictOrderedRing K] [FloorRing K] [LinearOrder K] in
theorem addAt_exact (w h : Nat) (b : Buf K) (x y : Int) (rad : Fin 3 → K) (weight : K)
    (hx : 0 ≤ x ∧ x < w) (hy : 0 ≤ y ∧ y < h) :
    addAt id w h b x y rad weight = .ok fun x' y' c =>
      b x' y' c + if x' = x ∧ y' = y then weight * chan rad c else 0 := by
  unfold addAt
  rw [if_pos ⟨hx.1, hx.2, hy.1, hy.2⟩]
  congr 1
  funext x' y' c
  unfold chan
  split
  · split <;> simp
  · simp

omit [IsStrictOrderedRing K] [FloorRing K] [LinearOrder K] in
theorem fold_addAt_exact (w h : Nat) (wt : Int × Int → K) (rad : Fin 3 → K) (l : List (Int × Int))
    (hl : l.Nodup) (hb : ∀ q ∈ l, (0 ≤ q.1 ∧ q.1 < w) ∧ (0 ≤ q.2 ∧ q.2 < h)) (b : Buf K) :
    l.foldlM (init := b) (fun b xy => addAt id w h b xy.1 xy.2 rad (wt xy)) =
      .ok fun x y c => b x y c + if (x, y) ∈ l then wt (x, y) * chan rad c else 0 := by
  induction l generalizing b with
  | nil => simp
  | cons q l ih =>
    obtain ⟨hq, hl'⟩ := List.nodup_cons.mp hl
    obtain ⟨h1, h2⟩ := hb q (by simp)
    rw [List.foldlM_cons, addAt_exact _ _ _ _ _ _ _ h1 h2, Res.bind_ok,
      ih hl' (fun q' hq' => hb q' (by simp [hq']))]
    congr 1
    funext x y c
    by_cases he : x = q.1 ∧ y = q.2
    · have he' : (x, y) = q := Prod.ext he.1 he.2
      rw [if_pos he, he', if_neg hq, if_pos (by simp)]
      ring
    · have he' : (x, y) ≠ q := fun h => he ⟨congrArg Prod.fst h, congrArg Prod.snd h⟩
      rw [if_neg he]
      simp only [List.mem_cons, he', false_or]
      ring

theorem nodup_pixels (ys xs : List Int) (hy : ys.Nodup) (hx : xs.Nodup) :
    (ys.flatMap fun y => xs.map fun x => (x, y)).Nodup := by
  rw [List.nodup_flatMap]
  refine ⟨fun y _ => hx.map (fun a b h => (Prod.mk.inj h).1), ?_⟩
  refine hy.imp ?_
  intro a b hab
  simp only [Function.onFun, List.disjoint_left, List.mem_map, not_exists, not_and]
  rintro _ ⟨x, _, rfl⟩ x' _ h
  exact hab (Prod.mk.inj h).2.symm

theorem mem_pixels (ys xs : List Int) (x y : Int) :
    (x, y) ∈ (ys.flatMap fun y => xs.map fun x => (x, y)) ↔ y ∈ ys ∧ x ∈ xs := by
  simp only [List.mem_flatMap, List.mem_map, Prod.mk.injEq]
  constructor
  · rintro ⟨y', hy', x', hx', rfl, rfl⟩; exact ⟨hy', hx'⟩
  · rintro ⟨hy, hx⟩; exact ⟨y, hy, x, hx, rfl, rfl⟩

/-- Exact splat: every pixel of the image receives `weight · value`, provided the filter vanishes
outside its half widths. -/
theorem splat_exact (flt : Filter K) (hs : ∀ x y, flt.sizeX ≤ |x| ∨ flt.sizeY ≤ |y| → flt.eval x y = 0)
    (w h : Nat) (px py : K) (rad : Fin 3 → K) (b : Buf K) :
    ∃ b', splat id flt w h px py rad b = .ok b' ∧
      ∀ (x y : Int) (c : Fin 4), 0 ≤ x → x < w → 0 ≤ y → y < h →
        b' x y c = b x y c + flt.eval ((x : K) + 1 / 2 - px) ((y : K) + 1 / 2 - py) * chan rad c := by
  refine ⟨_, fold_addAt_exact w h
    (fun xy => flt.eval (id (id ((xy.1 : K) + 1 / 2) - px)) (id (id ((xy.2 : K) + 1 / 2) - py))) rad _
    (nodup_pixels _ _ (nodup_intRange _ _) (nodup_intRange _ _)) ?_ b, ?_⟩
  · rintro ⟨x, y⟩ hq
    rw [mem_pixels] at hq
    exact ⟨splatRange_bounds id px _ w rfl x hq.2, splatRange_bounds id py _ h rfl y hq.1⟩
  · intro x y c hx0 hx hy0 hy
    simp only [id]
    congr 1
    split
    · rfl
    · rename_i hm
      rw [mem_pixels, not_and_or] at hm
      rw [hs, zero_mul]
      rcases hm with hm | hm
      · right
        by_contra hc
        exact hm (splatRange_complete py _ h y hy0 hy (not_le.mp hc))
      · left
        by_contra hc
        exact hm (splatRange_complete px _ w x hx0 hx (not_le.mp hc))

/-- Contribution of a sample triple to a pixel channel. -/
def contribution (flt : Filter K) (obs : Nat → Nat → Nat → Obs K) (x y : Int) (c : Fin 4)
    (kij : Nat × Nat × Nat) : K :=
  let o := obs kij.1 kij.2.1 kij.2.2
  flt.eval ((x : K) + 1 / 2 - ((kij.2.2 : K) + o.u)) ((y : K) + 1 / 2 - ((kij.2.1 : K) + o.v)) *
    chan o.rad c

theorem accumulate_exact (flt : Filter K)
    (hs : ∀ x y, flt.sizeX ≤ |x| ∨ flt.sizeY ≤ |y| → flt.eval x y = 0)
    (w h : Nat) (obs : Nat → Nat → Nat → Obs K) (order : List (Nat × Nat × Nat)) (b : Buf K) :
    ∃ b', accumulate id flt w h obs order b = .ok b' ∧
      ∀ (x y : Int) (c : Fin 4), 0 ≤ x → x < w → 0 ≤ y → y < h →
        b' x y c = b x y c + (order.map (contribution flt obs x y c)).sum := by
  induction order generalizing b with
  | nil => exact ⟨b, rfl, by simp⟩
  | cons q l ih =>
    obtain ⟨b1, e1, h1⟩ := splat_exact flt hs w h ((q.2.2 : K) + (obs q.1 q.2.1 q.2.2).u)
      ((q.2.1 : K) + (obs q.1 q.2.1 q.2.2).v) (obs q.1 q.2.1 q.2.2).rad b
    obtain ⟨b2, e2, h2⟩ := ih b1
    refine ⟨b2, ?_, ?_⟩
    · unfold accumulate at e2 ⊢
      rw [List.foldlM_cons]
      have : sampleOnce id flt w h q.2.1 q.2.2 (obs q.1 q.2.1 q.2.2) b = .ok b1 := e1
      rw [this, Res.bind_ok, e2]
    · intro x y c hx0 hx hy0 hy
      rw [h2 x y c hx0 hx hy0 hy, h1 x y c hx0 hx hy0 hy, List.map_cons, List.sum_cons]
      rw [add_assoc]
      rfl

/-! ### Sample orders -/

theorem mem_renderOrder (spp w h k i j : Nat) :
    (k, i, j) ∈ renderOrder spp w h ↔ k < spp ∧ i < h ∧ j < w := by
  unfold renderOrder
  simp only [List.mem_flatMap, List.mem_map, List.mem_range, Prod.mk.injEq]
  constructor
  · rintro ⟨k', hk, i', hi, j', hj, rfl, rfl, rfl⟩; exact ⟨hk, hi, hj⟩
  · rintro ⟨hk, hi, hj⟩; exact ⟨k, hk, i, hi, j, hj, rfl, rfl, rfl⟩

theorem nodup_renderOrder (spp w h : Nat) : (renderOrder spp w h).Nodup := by
  unfold renderOrder
  rw [List.nodup_flatMap]
  refine ⟨fun k _ => ?_, List.nodup_range.imp ?_⟩
  · rw [List.nodup_flatMap]
    refine ⟨fun i _ => List.nodup_range.map (fun a b h => ?_), List.nodup_range.imp ?_⟩
    · simpa using h
    · intro a b hab
      simp only [Function.onFun, List.disjoint_left, List.mem_map, not_exists, not_and]
      rintro _ ⟨x, _, rfl⟩ x' _ h
      simp only [Prod.mk.injEq] at h
      exact hab h.2.1.symm
  · intro a b hab
    simp only [Function.onFun, List.disjoint_left, List.mem_map, List.mem_flatMap, not_exists, not_and]
    rintro _ ⟨i, _, x, _, rfl⟩ i' _ x' _ h
    simp only [Prod.mk.injEq] at h
    exact hab h.1.symm

theorem mem_tileOrder (spp : Nat) (t : Pool.Tile) (k i j : Nat) (hx : 0 ≤ t.minX) (hy : 0 ≤ t.minY) :
    (k, i, j) ∈ tileOrder spp t ↔
      k < spp ∧ t.minX ≤ j ∧ (j : Int) < t.maxX ∧ t.minY ≤ i ∧ (i : Int) < t.maxY := by
  unfold tileOrder
  simp only [List.mem_flatMap, List.mem_map, List.mem_range, Prod.mk.injEq, mem_intRange]
  constructor
  · rintro ⟨i', hi, j', hj, k', hk, rfl, rfl, rfl⟩
    omega
  · rintro ⟨hk, h1, h2, h3, h4⟩
    exact ⟨i, by omega, j, by omega, k, hk, rfl, by omega, by omega⟩

theorem nodup_tileOrder (spp : Nat) (t : Pool.Tile) (hx : 0 ≤ t.minX) (hy : 0 ≤ t.minY) :
    (tileOrder spp t).Nodup := by
  unfold tileOrder
  rw [List.nodup_flatMap]
  have aux : ∀ (lo hi : Int) (R : Int → Int → Prop), 0 ≤ lo →
      (∀ a b : Int, 0 ≤ a → 0 ≤ b → a ≠ b → R a b) → (intRange lo hi).Pairwise R := by
    intro lo hi R hlo hR
    refine List.Pairwise.imp_of_mem ?_ (nodup_intRange lo hi)
    intro a b ha hb hab
    rw [mem_intRange] at ha hb
    exact hR a b (by omega) (by omega) hab
  refine ⟨fun i _ => ?_, aux _ _ _ hy ?_⟩
  · rw [List.nodup_flatMap]
    refine ⟨fun j _ => List.nodup_range.map (fun a b h => ?_), aux _ _ _ hx ?_⟩
    · simpa using h
    · intro a b ha hb hab
      simp only [Function.onFun, List.disjoint_left, List.mem_map, not_exists, not_and]
      rintro _ ⟨x, _, rfl⟩ x' _ h
      simp only [Prod.mk.injEq] at h
      omega
  · intro a b ha hb hab
    simp only [Function.onFun, List.disjoint_left, List.mem_map, List.mem_flatMap, not_exists, not_and]
    rintro _ ⟨i, _, x, _, rfl⟩ i' _ x' _ h
    simp only [Prod.mk.injEq] at h
    omega

end Feign.Image
