import Verif.Integrators.VolTrans
import Mathlib.Tactic.NormNum
import Mathlib.Algebra.Order.Ring.Rat

/-!
# C88: the transmittance view shows the transmittance of the medium along the camera ray
-/

set_option linter.unusedSectionVars false

namespace Feign.Integrators

variable {K M : Type} [Field K] [LinearOrder K] [IsStrictOrderedRing K]

/-- The medium lies between the distances `a < b` on the camera ray, with a boundary at both ends, and nothing else is on
the ray: from distance `s` on, the next end further than `eps` away is hit. -/
def slab (eps a b : K) (m : M) (s : K) : Option (TransHit K M) :=
  if s + eps ≤ a then some ⟨a - s, some (some (some m))⟩
  else if s + eps ≤ b then some ⟨b - s, some (some (some m))⟩
  else none

/-- C88, for a camera outside the medium: what is returned is the transmittance of the medium from `Epsilon` behind the
entry to the exit. (`_partial`: camera
at least `Epsilon` in front of a medium at least `Epsilon` thick, and the first `Epsilon` of the medium is not counted.) -/
theorem trans_view_partial (eps a b : K) (h0 : 0 < eps) (ha : eps ≤ a) (hb : a + eps ≤ b) (m : M)
    (trans : M → K → K → K → V3 K) : transLi eps (slab eps a b m) trans = .ok (trans m a eps (b - a)) := by
  have h2 : ¬ (a + eps ≤ a) := by
    intro h
    have : eps ≤ 0 := by simpa using h
    exact absurd h0 (not_lt.2 this)
  simp only [transLi, slab, zero_add, if_pos ha, sub_zero, if_neg h2, if_pos hb]

/-- Without anything on the ray, or without a medium behind the first surface, the transmittance is one. -/
theorem trans_view_clear (eps : K) (hit : K → Option (TransHit K M)) (trans : M → K → K → K → V3 K)
    (h : ∀ x, hit 0 = some x → x.boundary = none ∨ x.boundary = some (some none)) : transLi eps hit trans = .ok white := by
  unfold transLi
  cases hh : hit 0 with
  | none => rfl
  | some x => rcases h x hh with h | h <;> simp only [h]

/-- Transmittance of a medium that is only there between the distances `a` and `b` and blocks all light there: one if
the part of the ray looked at misses it. -/
def opaqueSlab (a b : ℚ) (_ : Unit) (start near far : ℚ) : V3 ℚ :=
  if start + near < b ∧ a < start + far then 0 else white

/-- C88 fails for a camera inside the medium: the boundary it looks at is taken for the entry, nothing is hit behind it,
and the old distance is used to look at a piece of the ray outside the medium. Here the medium around the camera blocks
all light, and full transmittance is returned. -/
theorem trans_view_inside_refuted :
    transLi (1 / 1000) (slab (1 / 1000) (-1) 2 ()) (opaqueSlab (-1) 2) = .ok white := by decide +kernel

/-- C88 fails for a medium that has no other side (an open mesh): the transmittance is taken over the distance from the
camera to the medium. A medium 1 from the camera that blocks everything from 3 on is reported as clear. -/
theorem trans_view_open_refuted :
    transLi (1 / 1000) (fun s => if s = 0 then some ⟨1, some (some (some ()))⟩ else none) (opaqueSlab 3 100) = .ok white ∧
    opaqueSlab 3 100 () 1 (1 / 1000) 99 = 0 := by decide +kernel

/-- A mesh with only an outside medium is a null dereference. -/
theorem trans_view_no_inside_refuted (eps t : K) (hit : K → Option (TransHit K M)) (h : hit 0 = some ⟨t, some none⟩)
    (trans : M → K → K → K → V3 K) : (transLi eps hit trans).isUb = true := by
  simp only [transLi, h]
  rfl

/-- A slab from 1 to 3 meets the hypotheses; it blocks the light. -/
example : transLi (1 / 1000) (slab (1 / 1000) 1 3 ()) (opaqueSlab 1 3) = .ok 0 := by decide +kernel

example : (0 : ℚ) < 1 / 1000 ∧ (1 / 1000 : ℚ) ≤ 1 ∧ (1 : ℚ) + 1 / 1000 ≤ 3 := by norm_num

end Feign.Integrators
