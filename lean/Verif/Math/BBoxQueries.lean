import Verif.Math.BBoxProps

/-!
# What the queries on boxes say (C24, C25)
-/

set_option linter.unusedSectionVars false

namespace Feign
namespace B3
variable {K : Type} [Field K] [LinearOrder K] [IsStrictOrderedRing K]

/-- `contains` of a box that has points: all of them, those on its boundary too, are strictly inside. -/
theorem containsBox_iff (b c : B3 K) (hc : c.min.le c.max) :
    b.containsBox c ↔ ∀ p, c.containsB p → b.contains p := by
  constructor
  · rintro ⟨⟨h1, h2, h3⟩, h4, h5, h6⟩ p ⟨⟨a1, a2, a3⟩, a4, a5, a6⟩
    exact ⟨⟨by linarith, by linarith, by linarith⟩, by linarith, by linarith, by linarith⟩
  · intro h
    exact ⟨(h c.min ⟨V3.le_refl _, hc⟩).1, (h c.max ⟨hc, V3.le_refl _⟩).2⟩

/-- `containsOrOnBoundry` of a box that has points: all of them are in the other. -/
theorem containsBoxB_iff (b c : B3 K) (hc : c.min.le c.max) :
    b.containsBoxB c ↔ ∀ p, c.containsB p → b.containsB p := by
  constructor
  · rintro ⟨h1, h2⟩ p ⟨a1, a2⟩
    exact ⟨V3.le_trans h1 a1, V3.le_trans a2 h2⟩
  · intro h
    exact ⟨(h c.min ⟨V3.le_refl _, hc⟩).1, (h c.max ⟨hc, V3.le_refl _⟩).2⟩

/-- What `overlaps` does say: every point of the receiver is in the argument. -/
theorem overlaps_iff (b c : B3 K) (hb : b.min.le b.max) :
    b.overlaps c ↔ ∀ p, b.containsB p → c.containsB p :=
  containsBoxB_iff c b hb

/-- What `overlapExcludeBoundry` does say: every point of the receiver is strictly inside the argument. -/
theorem overlapExcl_iff (b c : B3 K) (hb : b.min.le b.max) :
    b.overlapExcl c ↔ ∀ p, b.containsB p → c.contains p :=
  containsBox_iff c b hb

/-- The centre is the point about which the box is symmetric. -/
theorem center_symmetric (b : B3 K) (p q : V3 K) (h : p + q = b.center + b.center) : b.containsB p ↔ b.containsB q := by
  have hx := congrArg V3.x h
  have hy := congrArg V3.y h
  have hz := congrArg V3.z h
  simp [center] at hx hy hz
  have e1 : p.x + q.x = b.max.x + b.min.x := by rw [hx]; ring
  have e2 : p.y + q.y = b.max.y + b.min.y := by rw [hy]; ring
  have e3 : p.z + q.z = b.max.z + b.min.z := by rw [hz]; ring
  constructor
  · rintro ⟨⟨h1, h2, h3⟩, h4, h5, h6⟩
    exact ⟨⟨by linarith, by linarith, by linarith⟩, by linarith, by linarith, by linarith⟩
  · rintro ⟨⟨h1, h2, h3⟩, h4, h5, h6⟩
    exact ⟨⟨by linarith, by linarith, by linarith⟩, by linarith, by linarith, by linarith⟩

/-- The centre is in every box that has points. -/
theorem center_mem (b : B3 K) (hb : b.min.le b.max) : b.containsB b.center := by
  obtain ⟨h1, h2, h3⟩ := hb
  refine ⟨⟨?_, ?_, ?_⟩, ?_, ?_, ?_⟩ <;> simp [center] <;> linarith

/-- The extents lead from one corner to the other. -/
theorem extents_corner (b : B3 K) : b.min + b.extents = b.max := by
  ext <;> simp [extents]

/-- The surface is that of a box with edges `u`, `v`, `w`. -/
theorem surfaceArea_edges (p : V3 K) (u v w : K) :
    (⟨p, p + ⟨u, v, w⟩⟩ : B3 K).surfaceArea = 2 * (u * v) + 2 * (v * w) + 2 * (w * u) := by
  simp [surfaceArea]; ring

/-- **C25.** Each part has edges of half the length. -/
theorem octants_size (b s : B3 K) (hs : s ∈ b.splitIntoEight) :
    s.max = s.min + (b.max - b.min).smul (1 / 2) := by
  have h := octants_equal b s hs
  rw [← extents_corner s, h]
  rfl

/-- **C25.** Each part has a quarter of the surface. -/
theorem octants_surface (b s : B3 K) (hs : s ∈ b.splitIntoEight) : s.surfaceArea = b.surfaceArea / 4 := by
  have h := octants_size b s hs
  have h1 := congrArg V3.x h
  have h2 := congrArg V3.y h
  have h3 := congrArg V3.z h
  simp at h1 h2 h3
  simp only [surfaceArea, V3.sub_x, V3.sub_y, V3.sub_z, h1, h2, h3]
  ring

/-- A box in another, its centre and its surface. -/
example : (⟨⟨0, 0, 0⟩, ⟨3, 4, 5⟩⟩ : B3 ℚ).containsBox ⟨⟨1, 1, 1⟩, ⟨2, 3, 4⟩⟩ ∧
    (⟨⟨0, 0, 0⟩, ⟨3, 4, 5⟩⟩ : B3 ℚ).center = ⟨3 / 2, 2, 5 / 2⟩ ∧
    (⟨⟨0, 0, 0⟩, ⟨3, 4, 5⟩⟩ : B3 ℚ).surfaceArea = 94 := by
  refine ⟨⟨⟨by norm_num, by norm_num, by norm_num⟩, by norm_num, by norm_num, by norm_num⟩, ?_, ?_⟩
  · ext <;> norm_num [center]
  · norm_num [surfaceArea]

end B3
end Feign
