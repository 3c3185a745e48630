import Verif.Sdf.Order
import Verif.Sdf.WhittedPicture

/-!
# C143: the order of the lamps does not matter to the light
-/

set_option linter.unusedSectionVars false
set_option linter.unusedVariables false
set_option linter.unusedSimpArgs false

namespace Feign.Integrators

open Sampling MeasureTheory Bsdf Lights
open scoped ENNReal

/-- Lamps in another order send the same light to a hit point, on average over the choice of a lamp. -/
theorem direct_perm (S : Room) (h : S.Lawful) {lamps lamps' : List Lamp} (hp : lamps.Perm lamps') (hl : ∀ l ∈ lamps, NonNeg l.1)
    (blocked : Blocked) (i : Fin 3) (r : Ray) (hne : ∀ l ∈ lamps, l.2 ≠ S.point r) :
    (S.lit lamps blocked).world.direct i r = (S.lit lamps' blocked).world.direct i r := by
  by_cases hm : S.material r = .diffuse
  · rw [lamps_direct S h lamps hl blocked i r hm hne,
      lamps_direct S h lamps' (fun l h => hl l (hp.mem_iff.2 h)) blocked i r hm fun l h => hne l (hp.mem_iff.2 h), (hp.map _).sum_eq]
  · have hd : ∀ ls, (S.lit ls blocked).world.delta r = true := by
      intro ls
      show (S.material r).isDelta = true
      cases hmm : S.material r with
      | diffuse => exact absurd hmm hm
      | mirror => rfl
      | glass => rfl
    rw [World.direct, World.direct, if_pos (hd _), if_pos (hd _)]

/-- The light that paths carry back, and the light seen through mirrors and glass. -/
theorem light_perm (S : Room) (h : S.Lawful) {lamps lamps' : List Lamp} (hp : lamps.Perm lamps') (hl : ∀ l ∈ lamps, NonNeg l.1)
    (blocked : Blocked) (hne : ∀ r, S.seen r = true → ∀ l ∈ lamps, l.2 ≠ S.point r) (i : Fin 3) (n : ℕ) :
    (∀ look r, (S.lit lamps blocked).world.carried i n look r = (S.lit lamps' blocked).world.carried i n look r) ∧
    ∀ r, (S.lit lamps blocked).world.seenThrough i n r = (S.lit lamps' blocked).world.seenThrough i n r := by
  have dir : ∀ r, S.seen r = true → (S.lit lamps blocked).world.direct i r = (S.lit lamps' blocked).world.direct i r :=
    fun r hr => direct_perm S h hp hl blocked i r (hne r hr)
  have esc : ∀ ls r, (S.lit ls blocked).world.escapes r = !S.seen r := fun _ _ => rfl
  have sc : ∀ r ω, (S.lit lamps blocked).world.scatter r ω = (S.lit lamps' blocked).world.scatter r ω := fun _ _ => rfl
  have de : ∀ r, (S.lit lamps blocked).world.delta r = (S.lit lamps' blocked).world.delta r := fun _ => rfl
  have em : ∀ r, (S.lit lamps blocked).world.emitted r = (S.lit lamps' blocked).world.emitted r := fun _ => rfl
  have en : ∀ r, (S.lit lamps blocked).world.env r = (S.lit lamps' blocked).world.env r := fun _ => rfl
  induction n with
  | zero => exact ⟨fun _ _ => rfl, fun _ => rfl⟩
  | succ n ih =>
    obtain ⟨ih1, ih2⟩ := ih
    constructor
    · intro look r
      rw [World.carried, World.carried, esc, esc]
      cases hs : S.seen r with
      | false => simp [en]
      | true => simp only [dir r hs, sc, de, em, en, ih1]
    · intro r
      rw [World.seenThrough, World.seenThrough, esc, esc]
      cases hs : S.seen r with
      | false => simp [en]
      | true => simp only [dir r hs, sc, de, em, en, ih2]

/-- One lamp above the floor and one below it. -/
noncomputable def aboveBelow : List Lamp := [(⟨1, 1, 1⟩, ⟨0, 0, 1⟩), (⟨1, 1, 1⟩, ⟨0, 0, -1⟩)]

/-- **C143 refuted for single samples.** A white floor, a lamp above and a lamp below it. With the same random numbers, the first of them below
one half, the floor is lit if the upper lamp comes first and dark if it comes second. -/
theorem lamp_samples_refuted (ω : Stream) (h0 : 0 ≤ ω 0) (h1 : ω 0 < 1 / 2) (i : Fin 3) :
    let r : Ray := (⟨0, 0, 1⟩, ⟨0, 0, -1⟩)
    let S := fun lamps => (floor 1).lit lamps fun _ _ _ => false
    aboveBelow.Perm aboveBelow.reverse ∧ 0 < (total ((S aboveBelow).lights r ω).1).get i ∧
      (total ((S aboveBelow.reverse).lights r ω).1).get i = 0 := by
  intro r S
  have hpi := Real.pi_pos
  have hsel : (naiveSelect 2 (ω 0)).1 = ((0 : ℕ) : ℤ) :=
    (naiveSelect_index 2 (by norm_num) (ω 0) h0 0).2 ⟨by simpa using h0, by norm_num; linarith⟩
  have hpt : (floor 1).point r = ⟨0, 0, 0⟩ := by ext <;> simp [floor, r]
  have hai : ((floor 1).albedo r).get i = 1 := by fin_cases i <;> rfl
  have hli : (⟨1, 1, 1⟩ : V3 ℝ).get i = 1 := by fin_cases i <;> rfl
  have up : (floor 1).lampAt (fun _ _ _ => false) i r (⟨1, 1, 1⟩, ⟨0, 0, 1⟩) = 1 / Real.pi * (1 / (4 * Real.pi)) := by
    simp only [Room.lampAt, hpt, hai, hli]
    have e : ((⟨0, 0, 1⟩ : V3 ℝ) - ⟨0, 0, 0⟩).sqrNorm = 1 := by simp [V3.sqrNorm]
    rw [e, Real.sqrt_one, if_neg]
    · simp [floor, V3.dot]
    · simp [floor, V3.dot, r]
  have down : (floor 1).lampAt (fun _ _ _ => false) i r (⟨1, 1, 1⟩, ⟨0, 0, -1⟩) = 0 := by
    simp only [Room.lampAt, hpt]
    have e : ((⟨0, 0, -1⟩ : V3 ℝ) - ⟨0, 0, 0⟩).sqrNorm = 1 := by simp [V3.sqrNorm]
    rw [e, Real.sqrt_one, if_pos]
    right; right
    simp [floor, V3.dot]
  have val : ∀ a b : Lamp, (total ((S [a, b]).lights r ω).1).get i = 2 * (floor 1).lampAt (fun _ _ _ => false) i r a := by
    intro a b
    have e : total ((S [a, b]).lights r ω).1 = picked (floor 1) [a, b] (fun _ _ _ => false) r (naiveSelect 2 (ω 0)).1 :=
      congrArg Prod.fst (total_lampLight (floor 1) (floor_lawful 1 zero_le_one) [a, b] (fun _ _ _ => false) r ω (by simp))
    rw [e, hsel, picked, getAt_nat _ _ (by simp : 0 < [a, b].length)]
    simp only [get_smul, lampColour_get]
    simp
    ring
  refine ⟨(List.reverse_perm _).symm, ?_, ?_⟩
  · show 0 < (total ((S [_, _]).lights r ω).1).get i
    rw [val, up]
    positivity
  · show (total ((S [_, _]).lights r ω).1).get i = 0
    rw [val, down, mul_zero]

/-- Such random numbers. -/
example : ∃ ω : Stream, 0 ≤ ω 0 ∧ ω 0 < 1 / 2 := ⟨fun _ => 0, le_rfl, by norm_num⟩

end Feign.Integrators

namespace Feign.Sdf

open Integrators Sampling MeasureTheory
open scoped ENNReal

variable {ss : List Shape} {looks : ℕ → Look} {env : V3 ℝ → V3 ℝ} {lamps lamps' : List Lamp} {ρ E I δ : ℝ}

/-- **C143, scenes of distance functions.** Lamps that stand apart from the solids may be listed in any order: the light that paths of
any number of segments carry back along any ray is the same, and so is the light seen through any number of mirrors and panes of glass. -/
theorem lamp_order_free (h : Setting ss looks env lamps ρ E I δ) (hδ : 0 < δ) (hp : lamps.Perm lamps') (box : Option (B3 ℝ)) (k : Fin 3)
    (n : ℕ) :
    (∀ look r, (litRoom (evals ss) box looks env lamps).world.carried k n look r =
      (litRoom (evals ss) box looks env lamps').world.carried k n look r) ∧
    ∀ r, (litRoom (evals ss) box looks env lamps).world.seenThrough k n r =
      (litRoom (evals ss) box looks env lamps').world.seenThrough k n r := by
  refine light_perm (room (evals ss) box looks env) (litRoom_lawful h box).1 hp h.lamps_nonneg _ ?_ k n
  intro r hs l hl e
  have := lamp_far h.shapes (box := box) (looks := looks) (env := env) hδ.le (h.apart l hl) hs
  rw [← e] at this
  have h0 : (l.2 - l.2).sqrNorm = 0 := by simp [V3.sqrNorm]
  rw [h0] at this
  nlinarith

end Feign.Sdf
