import Verif.Math.Box2
import Mathlib.Algebra.Order.Group.Abs
import Mathlib.Algebra.Order.Group.Int
import Mathlib.Order.BoundedOrder.Basic
import Mathlib.Tactic.Linarith
import Mathlib.Tactic.NormNum
import Mathlib.Tactic.Order

/-!
# C139: boxes in the plane
-/

set_option linter.unusedSectionVars false
set_option linter.unusedSimpArgs false

namespace Feign.B2

variable {K : Type} [LinearOrder K]

theorem expand_contains (b : B2 K) (p q : V2 K) : (b.expand p).containsB q ↔
    (Min.min b.min.x p.x ≤ q.x ∧ Min.min b.min.y p.y ≤ q.y) ∧ q.x ≤ Max.max b.max.x p.x ∧ q.y ≤ Max.max b.max.y p.y := by
  have h1 : ∀ a b : K, (if a < b then a else b) = Min.min a b := fun a b => by
    split_ifs with h
    · exact (min_eq_left h.le).symm
    · exact (min_eq_right (not_lt.1 h)).symm
  have h2 : ∀ a b : K, (if a > b then a else b) = Max.max a b := fun a b => by
    split_ifs with h
    · exact (max_eq_left (le_of_lt h)).symm
    · exact (max_eq_right (not_lt.1 h)).symm
  simp only [expand, containsB, le2, min2, max2, h1, h2]

/-- Growing never loses a point. -/
theorem grow_keeps (b : B2 K) (ps : List (V2 K)) (q : V2 K) (h : b.containsB q) : (b.grow ps).containsB q := by
  induction ps generalizing b with
  | nil => exact h
  | cons p ps ih =>
    refine ih (b.expand p) ?_
    rw [expand_contains]
    obtain ⟨⟨a, b⟩, c, d⟩ := h
    exact ⟨⟨min_le_iff.2 (Or.inl a), min_le_iff.2 (Or.inl b)⟩, le_max_iff.2 (Or.inl c), le_max_iff.2 (Or.inl d)⟩

/-- A box that has the box and the points has the grown box. -/
theorem grow_least (b d : B2 K) (ps : List (V2 K)) (hb : d.containsBoxB b) (hp : ∀ p ∈ ps, d.containsB p) :
    d.containsBoxB (b.grow ps) := by
  induction ps generalizing b with
  | nil => exact hb
  | cons p ps ih =>
    refine ih (b.expand p) ?_ fun q hq => hp q (List.mem_cons_of_mem _ hq)
    obtain ⟨⟨h1, h2⟩, h3, h4⟩ := hp p List.mem_cons_self
    obtain ⟨⟨g1, g2⟩, g3, g4⟩ := hb
    refine ⟨⟨?_, ?_⟩, ?_, ?_⟩ <;> simp only [expand, min2, max2] <;> split_ifs <;> assumption

/-- **C139, growing.** The box grown from the empty box by any points contains each of them, and every box that contains them all
contains it. -/
theorem grown_smallest [BoundedOrder K] (ps : List (V2 K)) :
    (∀ p ∈ ps, ((empty : B2 K).grow ps).containsB p) ∧
    ∀ d : B2 K, (∀ p ∈ ps, d.containsB p) → d.containsBoxB ((empty : B2 K).grow ps) := by
  constructor
  · have : ∀ b : B2 K, ∀ p ∈ ps, (b.grow ps).containsB p := by
      induction ps with
      | nil => simp
      | cons p ps ih =>
        intro b q hq
        rcases List.mem_cons.1 hq with rfl | hq
        · refine grow_keeps (b.expand q) ps q ?_
          rw [expand_contains]
          exact ⟨⟨min_le_right _ _, min_le_right _ _⟩, le_max_right _ _, le_max_right _ _⟩
        · exact ih (b.expand p) q hq
    exact this _
  · intro d hd
    exact grow_least _ d ps ⟨⟨le_top, le_top⟩, bot_le, bot_le⟩ hd

/-- **C139, violated for boxes of integers.** The empty box contains the origin, so a box grown from it by one point contains points that no
other box around that point needs. -/
theorem int_box_refuted : (emptyInt.containsB ⟨0, 0⟩) ∧ ∃ (p : V2 ℤ) (d : B2 ℤ), d.containsB p ∧
    ¬ d.containsBoxB (emptyInt.grow [p]) ∧ (emptyInt.grow [p]).containsB ⟨0, 0⟩ ∧ ¬ d.containsB ⟨0, 0⟩ := by
  refine ⟨by simp [emptyInt, reset, containsB, le2], ⟨5, 5⟩, ⟨⟨5, 5⟩, ⟨5, 5⟩⟩, ?_, ?_, ?_, ?_⟩ <;>
    simp [emptyInt, reset, grow, expand, containsB, containsBoxB, le2, min2, max2]

/-- **C139, boxes of integers, the part that holds** (the full claim: the smallest box): all points are in the grown box, and nothing but the
origin is added. -/
theorem int_box_partial (ps : List (V2 ℤ)) :
    (∀ p ∈ ps, (emptyInt.grow ps).containsB p) ∧
    ∀ d : B2 ℤ, d.containsB ⟨0, 0⟩ → (∀ p ∈ ps, d.containsB p) → d.containsBoxB (emptyInt.grow ps) := by
  constructor
  · have : ∀ b : B2 ℤ, ∀ p ∈ ps, (b.grow ps).containsB p := by
      induction ps with
      | nil => simp
      | cons p ps ih =>
        intro b q hq
        rcases List.mem_cons.1 hq with rfl | hq
        · refine grow_keeps (b.expand q) ps q ?_
          rw [expand_contains]
          exact ⟨⟨min_le_right _ _, min_le_right _ _⟩, le_max_right _ _, le_max_right _ _⟩
        · exact ih (b.expand p) q hq
    exact this _
  · intro d h0 hd
    exact grow_least _ d ps ⟨h0.1, h0.2⟩ hd

/-- **C139, merging.** The merged box contains both, and every box that contains both contains it. -/
theorem merge_smallest (b c d : B2 K) : (merge b c).containsBoxB b ∧ (merge b c).containsBoxB c ∧ merge b c = b.expandBox c ∧
    (d.containsBoxB b → d.containsBoxB c → d.containsBoxB (merge b c)) := by
  refine ⟨⟨⟨?_, ?_⟩, ?_, ?_⟩, ⟨⟨?_, ?_⟩, ?_, ?_⟩, rfl, ?_⟩
  all_goals try (simp only [merge, min2, max2]; split_ifs <;> order)
  rintro ⟨⟨h1, h2⟩, h3, h4⟩ ⟨⟨g1, g2⟩, g3, g4⟩
  refine ⟨⟨?_, ?_⟩, ?_, ?_⟩ <;> simp only [merge, min2, max2] <;> split_ifs <;> assumption

/-- **C139, clipping.** A point is in the clipped box exactly if it is in the box and between the two corners. -/
theorem clip_contains (b : B2 K) (lo hi p : V2 K) :
    (b.clip lo hi).containsB p ↔ b.containsB p ∧ (lo.x ≤ p.x ∧ lo.y ≤ p.y) ∧ p.x ≤ hi.x ∧ p.y ≤ hi.y := by
  have h1 : ∀ a l q : K, (if a < l then l else a) ≤ q ↔ a ≤ q ∧ l ≤ q := fun a l q => by
    split_ifs with h
    · exact ⟨fun g => ⟨h.le.trans g, g⟩, fun g => g.2⟩
    · exact ⟨fun g => ⟨g, (not_lt.1 h).trans g⟩, fun g => g.1⟩
  have h2 : ∀ a l q : K, q ≤ (if a > l then l else a) ↔ q ≤ a ∧ q ≤ l := fun a l q => by
    split_ifs with h
    · exact ⟨fun g => ⟨g.trans (le_of_lt h), g⟩, fun g => g.2⟩
    · exact ⟨fun g => ⟨g, g.trans (not_lt.1 h)⟩, fun g => g.1⟩
  simp only [clip, containsB, le2, h1, h2]
  tauto

/-- **C139, boxes in boxes.** For a box that has points, the test says whether all of them are in the other. -/
theorem box_in_box (b c : B2 K) (hc : ∃ p, c.containsB p) : b.containsBoxB c ↔ ∀ p, c.containsB p → b.containsB p := by
  constructor
  · rintro ⟨⟨h1, h2⟩, h3, h4⟩ p ⟨⟨g1, g2⟩, g3, g4⟩
    exact ⟨⟨h1.trans g1, h2.trans g2⟩, g3.trans h3, g4.trans h4⟩
  · intro h
    obtain ⟨p, ⟨g1, g2⟩, g3, g4⟩ := hc
    obtain ⟨h1, -⟩ := h c.min ⟨⟨le_rfl, le_rfl⟩, g1.trans g3, g2.trans g4⟩
    obtain ⟨-, h2⟩ := h c.max ⟨⟨g1.trans g3, g2.trans g4⟩, le_rfl, le_rfl⟩
    exact ⟨h1, h2⟩

/-- What `overlaps` says: the box is inside of the other. -/
theorem overlaps_iff (b c : B2 K) (hb : ∃ p, b.containsB p) : b.overlaps c ↔ ∀ p, b.containsB p → c.containsB p :=
  box_in_box c b hb

/-- **C139, violated.** Two boxes share a point, and `overlaps` says no, in both orders. -/
theorem overlaps_refuted : ∃ b c : B2 ℤ, (∃ p, b.containsB p ∧ c.containsB p) ∧ ¬ b.overlaps c ∧ ¬ c.overlaps b := by
  refine ⟨⟨⟨0, 0⟩, ⟨2, 2⟩⟩, ⟨⟨1, 1⟩, ⟨3, 3⟩⟩, ⟨⟨1, 1⟩, ?_, ?_⟩, ?_, ?_⟩ <;> simp [containsB, le2, overlaps]

/-- **C139, overlap, the part that holds** (the full claim: exactly if they share a point): for a box that has points, a yes is right. -/
theorem overlaps_partial (b c : B2 K) (hb : ∃ p, b.containsB p) (h : b.overlaps c) : ∃ p, b.containsB p ∧ c.containsB p := by
  obtain ⟨p, hp⟩ := hb
  exact ⟨p, hp, (overlaps_iff b c ⟨p, hp⟩).1 h p hp⟩

/-- **C139, violated.** There is no box whose centre can be asked for. -/
theorem center_refuted (b : B2 K) : ∀ p, b.center ≠ .ok p := by
  intro p h
  cases h

/-- **C139, axes.** The major axis is one along which no other is longer, the minor one along which no other is shorter. -/
theorem axes [AddGroup K] (b : B2 K) :
    (b.majorAxis = 0 ∧ |b.max.y - b.min.y| < |b.max.x - b.min.x| ∨ b.majorAxis = 1 ∧ |b.max.x - b.min.x| ≤ |b.max.y - b.min.y|) ∧
    (b.minorAxis = 0 ∧ |b.max.x - b.min.x| < |b.max.y - b.min.y| ∨ b.minorAxis = 1 ∧ |b.max.y - b.min.y| ≤ |b.max.x - b.min.x|) := by
  unfold majorAxis minorAxis
  constructor
  · split_ifs with h
    · exact Or.inl ⟨rfl, h⟩
    · exact Or.inr ⟨rfl, not_lt.1 h⟩
  · split_ifs with h
    · exact Or.inl ⟨rfl, h⟩
    · exact Or.inr ⟨rfl, not_lt.1 h⟩

/-- Boxes with points. -/
example : ∃ p, (⟨⟨0, 0⟩, ⟨2, 1⟩⟩ : B2 ℤ).containsB p := ⟨⟨1, 1⟩, by simp [containsB, le2]⟩
example : (⟨⟨0, 0⟩, ⟨2, 1⟩⟩ : B2 ℤ).overlaps ⟨⟨-1, -1⟩, ⟨3, 3⟩⟩ := by simp [overlaps, le2]

end Feign.B2
