import Verif.Moved.Spec
import Verif.Sdf.MarchProps
import Mathlib.Tactic.Ring
import Mathlib.Tactic.Linarith

/-!
# Moving a scene: lemmas
-/

set_option linter.unusedSectionVars false

namespace Feign
open V3

section
variable {K : Type} [CommRing K]

theorem moved_sub (p q v : V3 K) : p + v - (q + v) = p - q := by
  ext <;> simp only [sub_x, sub_y, sub_z, add_x, add_y, add_z] <;> ring

theorem moved_sub_right (p e v : V3 K) : p + v - e = p - e + v := by
  ext <;> simp only [sub_x, sub_y, sub_z, add_x, add_y, add_z] <;> ring

theorem moved_add_right (p e v : V3 K) : p + v + e = p + e + v := by
  ext <;> simp only [add_x, add_y, add_z] <;> ring

theorem moved_point (v : V3 K) (r : Ray K) (t : K) : (r.moved v).point t = r.point t + v := by
  unfold Ray.point Ray.moved
  exact moved_add_right _ _ _

theorem moved_sub_cancel (p v : V3 K) : p + v - v = p := by
  ext <;> simp only [sub_x, sub_y, sub_z, add_x, add_y, add_z] <;> ring

end

namespace Sdf

/-! ## Distance functions -/

theorem eval_moved (v : V3 ℝ) (s : Shape) (p : V3 ℝ) : (s.moved v).eval (p + v) = s.eval p := by
  cases s with
  | sphere c r => simp only [Shape.moved, Shape.eval, sphereEval, moved_sub]
  | plane c n => simp only [Shape.moved, Shape.eval, planeEval, moved_sub]
  | box t b =>
    simp only [Shape.moved, Shape.eval, boxEval, add_x, add_y, add_z]
    have h1 : ∀ a b c : ℝ, a + c - (b + c) = a - b := fun a b c => by ring
    have h2 : ∀ p a b c : ℝ, p + c - (a + c + (b + c)) / 2 = p - (a + b) / 2 := fun p a b c => by ring
    simp only [h1, h2]
  | cylinder a b r => simp only [Shape.moved, Shape.eval, cylinderEval, moved_sub]
  | cone a b r s => simp only [Shape.moved, Shape.eval, coneEval, moved_sub]

/-- The distance functions of the moved shapes. -/
theorem evals_moved (v : V3 ℝ) (ss : List Shape) :
    evals (ss.map (Shape.moved v)) = (evals ss).map fun f q => f (q - v) := by
  unfold evals
  rw [List.map_map, List.map_map]
  congr 1
  funext s
  funext q
  show (s.moved v).eval q = s.eval (q - v)
  rw [← eval_moved v s (q - v)]
  congr 1
  ext <;> simp

theorem sdEvaluateFrom_moved (v p : V3 ℝ) (fs : List (V3 ℝ → Option ℝ)) : ∀ i best,
    sdEvaluateFrom (p + v) (fs.map fun f q => f (q - v)) i best = sdEvaluateFrom p fs i best := by
  induction fs with
  | nil => intro i best; rfl
  | cons f fs ih =>
    intro i best
    simp only [List.map_cons, sdEvaluateFrom, moved_sub_cancel]
    exact ih _ _

theorem sdEvaluate_moved (v p : V3 ℝ) (fs : List (V3 ℝ → Option ℝ)) :
    sdEvaluate (fs.map fun f q => f (q - v)) (p + v) = sdEvaluate fs p := sdEvaluateFrom_moved v p fs 0 none

theorem sdNormal_moved (v p : V3 ℝ) (fs : List (V3 ℝ → Option ℝ)) :
    sdNormal (fs.map fun f q => f (q - v)) (p + v) = sdNormal fs p := by
  have h : ∀ e, sdDiff (fs.map fun f q => f (q - v)) (p + v) e = sdDiff fs p e := by
    intro e
    unfold sdDiff
    rw [moved_add_right, moved_sub_right, sdEvaluate_moved, sdEvaluate_moved]
  unfold sdNormal
  rw [h, h, h]

/-- An outcome, moved. -/
def movedRes (v : V3 ℝ) : Res March → Res March
  | .ok m => .ok (m.moved v)
  | .throw e => .throw e
  | .ub e => .ub e

theorem march_moved (v : V3 ℝ) (fs : List (V3 ℝ → Option ℝ)) (r : Ray ℝ) (far : Ext ℝ) (n : ℕ) : ∀ d,
    march (fs.map fun f q => f (q - v)) (r.moved v) far n d = movedRes v (march fs r far n d) := by
  induction n with
  | zero => intro d; rfl
  | succ n ih =>
    intro d
    unfold march
    by_cases hf : Ext.fin d ≤ far
    · rw [if_pos hf, if_pos hf]
      dsimp only
      rw [moved_point, sdEvaluate_moved]
      cases sdEvaluate fs (r.point d) with
      | none => rfl
      | some b =>
        obtain ⟨sd, idx⟩ := b
        dsimp only
        by_cases hs : sd ≤ eps
        · rw [if_pos hs, if_pos hs, sdNormal_moved]
          cases sdNormal fs (r.point d) with
          | none => rfl
          | some nn =>
            dsimp only
            by_cases hl : nn.norm < eps
            · rw [if_pos hl, if_pos hl]; rfl
            · rw [if_neg hl, if_neg hl, moved_add_right]; rfl
        · rw [if_neg hs, if_neg hs]
          exact ih _
    · rw [if_neg hf, if_neg hf]; rfl

theorem slabNF_moved (o d mn mx c : ℝ) (s : Bool × Ext ℝ × Ext ℝ) :
    slabNF (o + c) d (mn + c) (mx + c) s = slabNF o d mn mx s := by
  unfold slabNF
  have h1 : ∀ a b : ℝ, a + c - (b + c) = a - b := fun a b => by ring
  have h2 : (o + c < mn + c ∨ o + c > mx + c) ↔ (o < mn ∨ o > mx) := by
    rw [gt_iff_lt, gt_iff_lt, add_lt_add_iff_right, add_lt_add_iff_right]
  simp only [h1]
  by_cases ha : s.1 = false
  · rw [if_pos ha, if_pos ha]
  · rw [if_neg ha, if_neg ha]
    by_cases hd : d = 0
    · rw [if_pos hd, if_pos hd]
      by_cases ho : o < mn ∨ o > mx
      · rw [if_pos ho, if_pos (h2.mpr ho)]
      · rw [if_neg ho, if_neg (fun e => ho (h2.mp e))]
    · rw [if_neg hd, if_neg hd]

theorem boxNearFar_moved (v : V3 ℝ) (b : B3 ℝ) (r : Ray ℝ) : boxNearFar (b.moved v) (r.moved v) = boxNearFar b r := by
  unfold boxNearFar B3.moved Ray.moved
  simp only [add_x, add_y, add_z, slabNF_moved]

theorem expandBox_moved (v : V3 ℝ) (b c : B3 ℝ) : (b.moved v).expandBox (c.moved v) = (b.expandBox c).moved v := by
  unfold B3.expandBox B3.moved V3.minV V3.maxV
  have h1 : ∀ a b c : ℝ, (if a + c < b + c then a + c else b + c) = (if a < b then a else b) + c := by
    intro a b c
    by_cases h : a < b
    · rw [if_pos h, if_pos (by linarith)]
    · rw [if_neg h, if_neg (by linarith)]
  have h2 : ∀ a b c : ℝ, (if a + c > b + c then a + c else b + c) = (if a > b then a else b) + c := by
    intro a b c
    by_cases h : a > b
    · rw [if_pos h, if_pos (by linarith)]
    · rw [if_neg h, if_neg (by linarith)]
  congr 1 <;> ext <;> simp only [add_x, add_y, add_z, h1, h2]

theorem sceneBox_moved (v : V3 ℝ) (bs : List (B3 ℝ)) :
    sceneBox (bs.map (B3.moved v)) = (sceneBox bs).map (B3.moved v) := by
  cases bs with
  | nil => rfl
  | cons b bs =>
    simp only [List.map_cons, sceneBox, Option.map_some]
    congr 1
    induction bs generalizing b with
    | nil => rfl
    | cons c cs ih =>
      simp only [List.map_cons, List.foldl_cons]
      rw [expandBox_moved]
      exact ih _

theorem boundingBox_moved (v : V3 ℝ) (s : Shape) : (s.moved v).boundingBox = s.boundingBox.map (B3.moved v) := by
  cases s with
  | sphere c r =>
    simp only [Shape.moved, Shape.boundingBox]
    by_cases h : 2 * r ≥ 0
    · rw [if_pos h, if_pos h]
      simp only [Option.map_some, B3.moved, Option.some.injEq, B3.mk.injEq]
      constructor <;> ext <;> simp only [add_x, add_y, add_z] <;> ring
    · rw [if_neg h, if_neg h]; rfl
  | plane c n =>
    simp only [Shape.moved, Shape.boundingBox, Option.map_some, B3.moved, Option.some.injEq, B3.mk.injEq]
    constructor <;> ext <;> simp only [add_x, add_y, add_z, sub_x, sub_y, sub_z] <;> ring
  | box t b => rfl
  | cylinder a b r =>
    simp only [Shape.moved, Shape.boundingBox, Option.map_some, B3.moved, Option.some.injEq, B3.mk.injEq]
    constructor <;> ext <;> simp only [add_x, add_y, add_z, sub_x, sub_y, sub_z] <;> ring
  | cone a b r s =>
    simp only [Shape.moved, Shape.boundingBox, Option.map_some, B3.moved, Option.some.injEq, B3.mk.injEq]
    constructor <;> ext <;> simp only [add_x, add_y, add_z, sub_x, sub_y, sub_z] <;> ring

theorem boxes_moved (v : V3 ℝ) (ss : List Shape) :
    (ss.map (Shape.moved v)).mapM Shape.boundingBox = (ss.mapM Shape.boundingBox).map (List.map (B3.moved v)) := by
  induction ss with
  | nil => rfl
  | cons s ss ih =>
    simp only [List.map_cons, List.mapM_cons, boundingBox_moved, ih]
    cases s.boundingBox with
    | none => rfl
    | some b =>
      cases ss.mapM Shape.boundingBox with
      | none => rfl
      | some bs => rfl

end Sdf
end Feign
