import Verif.Sdf.LampOrder

/-!
# C145: only the total intensity of the lamps in each place matters to the light
-/

set_option linter.unusedSectionVars false
set_option linter.unusedVariables false
set_option linter.unusedSimpArgs false

namespace Feign.Integrators

open Sampling MeasureTheory Bsdf Lights
open scoped ENNReal

open Classical in
/-- The total intensity of the lamps in place `p`. -/
noncomputable def shine (lamps : List Lamp) (p : V3 ℝ) (i : Fin 3) : ℝ := ((lamps.filter fun l => l.2 = p).map fun l => l.1.get i).sum

theorem shine_cons (l : Lamp) (lamps : List Lamp) (p : V3 ℝ) (i : Fin 3) [Decidable (l.2 = p)] :
    shine (l :: lamps) p i = (if l.2 = p then l.1.get i else 0) + shine lamps p i := by
  unfold shine
  by_cases h : l.2 = p
  · simp [List.filter_cons, h]
  · simp [List.filter_cons, h]

open Classical in
/-- A sum over lamps of values in proportion to the intensity is a sum over places. -/
theorem sum_places (K : V3 ℝ → ℝ) (i : Fin 3) (lamps : List Lamp) (P : Finset (V3 ℝ)) (hP : ∀ l ∈ lamps, l.2 ∈ P) :
    (lamps.map fun l => K l.2 * l.1.get i).sum = ∑ p ∈ P, K p * shine lamps p i := by
  induction lamps with
  | nil => simp [shine]
  | cons l lamps ih =>
    have hl := hP l List.mem_cons_self
    rw [List.map_cons, List.sum_cons, ih fun x hx => hP x (List.mem_cons_of_mem _ hx)]
    simp only [shine_cons, mul_add, Finset.sum_add_distrib]
    congr 1
    simp [Finset.sum_ite_eq, hl]

open Classical in
theorem sum_shine (K : V3 ℝ → ℝ) (i : Fin 3) {lamps lamps' : List Lamp} (h : ∀ p, shine lamps p i = shine lamps' p i) :
    (lamps.map fun l => K l.2 * l.1.get i).sum = (lamps'.map fun l => K l.2 * l.1.get i).sum := by
  let P : Finset (V3 ℝ) := (lamps.map (·.2)).toFinset ∪ (lamps'.map (·.2)).toFinset
  rw [sum_places K i lamps P, sum_places K i lamps' P]
  · simp only [h]
  · intro l hl
    exact Finset.mem_union_right _ (List.mem_toFinset.2 (List.mem_map_of_mem hl))
  · intro l hl
    exact Finset.mem_union_left _ (List.mem_toFinset.2 (List.mem_map_of_mem hl))

/-- What a lamp adds is in proportion to its intensity. -/
theorem lampAt_share (S : Room) (blocked : Blocked) (i : Fin 3) (r : Ray) :
    ∃ K : V3 ℝ → ℝ, ∀ l, S.lampAt blocked i r l = K l.2 * l.1.get i := by
  refine ⟨fun p => S.lampAt blocked i r (⟨1, 1, 1⟩, p), fun l => ?_⟩
  have h1 : (⟨1, 1, 1⟩ : V3 ℝ).get i = 1 := by fin_cases i <;> rfl
  simp only [Room.lampAt, h1]
  split
  · simp
  · ring

theorem direct_shine (S : Room) (h : S.Lawful) {lamps lamps' : List Lamp} (i : Fin 3) (hs : ∀ p, shine lamps p i = shine lamps' p i)
    (hl : ∀ l ∈ lamps, NonNeg l.1) (hl' : ∀ l ∈ lamps', NonNeg l.1) (blocked : Blocked) (r : Ray)
    (hne : ∀ l ∈ lamps, l.2 ≠ S.point r) (hne' : ∀ l ∈ lamps', l.2 ≠ S.point r) :
    (S.lit lamps blocked).world.direct i r = (S.lit lamps' blocked).world.direct i r := by
  by_cases hm : S.material r = .diffuse
  · obtain ⟨K, hK⟩ := lampAt_share S blocked i r
    rw [lamps_direct S h lamps hl blocked i r hm hne, lamps_direct S h lamps' hl' blocked i r hm hne', funext hK, sum_shine K i hs]
  · have hd : ∀ ls, (S.lit ls blocked).world.delta r = true := by
      intro ls
      show (S.material r).isDelta = true
      cases hmm : S.material r with
      | diffuse => exact absurd hmm hm
      | mirror => rfl
      | glass => rfl
    rw [World.direct, World.direct, if_pos (hd _), if_pos (hd _)]

/-- The light that paths carry back, and the light seen through mirrors and glass. -/
theorem light_shine (S : Room) (h : S.Lawful) {lamps lamps' : List Lamp} (i : Fin 3) (hp : ∀ p, shine lamps p i = shine lamps' p i)
    (hl : ∀ l ∈ lamps, NonNeg l.1) (hl' : ∀ l ∈ lamps', NonNeg l.1)
    (blocked : Blocked) (hne : ∀ r, S.seen r = true → ∀ l ∈ lamps, l.2 ≠ S.point r)
    (hne' : ∀ r, S.seen r = true → ∀ l ∈ lamps', l.2 ≠ S.point r) (n : ℕ) :
    (∀ look r, (S.lit lamps blocked).world.carried i n look r = (S.lit lamps' blocked).world.carried i n look r) ∧
    ∀ r, (S.lit lamps blocked).world.seenThrough i n r = (S.lit lamps' blocked).world.seenThrough i n r := by
  have dir : ∀ r, S.seen r = true → (S.lit lamps blocked).world.direct i r = (S.lit lamps' blocked).world.direct i r :=
    fun r hr => direct_shine S h i hp hl hl' blocked r (hne r hr) (hne' r hr)
  have esc : ∀ ls r, (S.lit ls blocked).world.escapes r = !S.seen r := fun _ _ => rfl
  have sc : ∀ r ω, (S.lit lamps blocked).world.scatter r ω = (S.lit lamps' blocked).world.scatter r ω := fun _ _ => rfl
  have de : ∀ r, (S.lit lamps blocked).world.delta r = (S.lit lamps' blocked).world.delta r := fun _ => rfl
  have em : ∀ r, (S.lit lamps blocked).world.emitted r = (S.lit lamps' blocked).world.emitted r := fun _ => rfl
  have en : ∀ r, (S.lit lamps blocked).world.env r = (S.lit lamps' blocked).world.env r := fun _ => rfl
  induction n with
  | zero => exact ⟨fun _ _ => rfl, fun _ => rfl⟩
  | succ n ih =>
    obtain ⟨ih1, ih2⟩ := ih
    constructor
    · intro look r
      rw [World.carried, World.carried, esc, esc]
      cases hs : S.seen r with
      | false => simp [en]
      | true => simp only [dir r hs, sc, de, em, en, ih1]
    · intro r
      rw [World.seenThrough, World.seenThrough, esc, esc]
      cases hs : S.seen r with
      | false => simp [en]
      | true => simp only [dir r hs, sc, de, em, en, ih2]

/-- Two lamps in one place shine like one lamp of their total intensity. -/
theorem shine_merge (a b p : V3 ℝ) (lamps : List Lamp) (q : V3 ℝ) (i : Fin 3) :
    shine ((a, p) :: (b, p) :: lamps) q i = shine ((a + b, p) :: lamps) q i := by
  classical
  simp only [shine_cons]
  have : (a + b).get i = a.get i + b.get i := by fin_cases i <;> rfl
  rw [this]
  split <;> ring

/-- A dark lamp does not shine. -/
theorem shine_dark (p : V3 ℝ) (lamps : List Lamp) (q : V3 ℝ) (i : Fin 3) : shine ((0, p) :: lamps) q i = shine lamps q i := by
  classical
  have : (0 : V3 ℝ).get i = 0 := by fin_cases i <;> rfl
  simp [shine_cons, this]

end Feign.Integrators

namespace Feign.Sdf

open Integrators Sampling MeasureTheory
open scoped ENNReal

variable {ss : List Shape} {looks : ℕ → Look} {env : V3 ℝ → V3 ℝ} {lamps lamps' : List Lamp} {ρ E I δ ρ' E' I' δ' : ℝ}

/-- **C145, scenes of distance functions.** Two lists of lamps that stand apart from the solids have the same total intensity in every place.
Then the light that paths of any number of segments carry back along any ray is the same, and so is the light seen through any number of
mirrors and panes of glass. -/
theorem lamp_sum (h : Setting ss looks env lamps ρ E I δ) (hδ : 0 < δ) (h' : Setting ss looks env lamps' ρ' E' I' δ') (hδ' : 0 < δ')
    (k : Fin 3) (hp : ∀ p, shine lamps p k = shine lamps' p k) (box : Option (B3 ℝ)) (n : ℕ) :
    (∀ look r, (litRoom (evals ss) box looks env lamps).world.carried k n look r =
      (litRoom (evals ss) box looks env lamps').world.carried k n look r) ∧
    ∀ r, (litRoom (evals ss) box looks env lamps).world.seenThrough k n r =
      (litRoom (evals ss) box looks env lamps').world.seenThrough k n r := by
  have far : ∀ {ls : List Lamp} {ρ E I δ : ℝ}, Setting ss looks env ls ρ E I δ → 0 < δ →
      ∀ r, (room (evals ss) box looks env).seen r = true → ∀ l ∈ ls, l.2 ≠ (room (evals ss) box looks env).point r := by
    intro ls ρ E I δ h hδ r hs l hl e
    have := lamp_far h.shapes (box := box) (looks := looks) (env := env) hδ.le (h.apart l hl) hs
    rw [← e] at this
    have h0 : (l.2 - l.2).sqrNorm = 0 := by simp [V3.sqrNorm]
    rw [h0] at this
    nlinarith
  exact light_shine (room (evals ss) box looks env) (litRoom_lawful h box).1 k hp h.lamps_nonneg h'.lamps_nonneg _ (far h hδ) (far h' hδ') n

end Feign.Sdf
