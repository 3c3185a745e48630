import Verif.Integrators.LitLemmas

/-! # C100: light from point lights -/

set_option linter.unusedSectionVars false
set_option linter.unusedVariables false

namespace Feign.Integrators

open Sampling MeasureTheory Bsdf Lights
open scoped ENNReal

/-- **C100, direct light.** Point lights, none of them at the hit point. The random choice of one light, divided by its
probability, adds on average what all lights together send to the surface. (`lamps` may be empty.) -/
theorem lamps_direct (S : Room) (h : S.Lawful) (lamps : List Lamp) (hl : ∀ l ∈ lamps, NonNeg l.1) (blocked : Blocked)
    (i : Fin 3) (r : Ray) (hm : S.material r = .diffuse) (hp : ∀ l ∈ lamps, l.2 ≠ S.point r) :
    (S.lit lamps blocked).world.direct i r = ENNReal.ofReal ((lamps.map (S.lampAt blocked i r)).sum) := by
  have hd : (S.lit lamps blocked).world.delta r = false := by simp [Room.world, Room.lit, hm, Material.isDelta]
  rw [World.direct, hd]
  simp only [Bool.false_eq_true, if_false]
  have hw : ∀ ω, (S.lit lamps blocked).world.lights r ω = lampLight S lamps blocked r ω := fun _ => rfl
  simp only [hw]
  by_cases hn : lamps.length = 0
  · have e : ∀ ω, lampLight S lamps blocked r ω = ([⟨false, 0, 0⟩], ω) := by
      intro ω; rw [lampLight, if_pos hn]
    simp only [e, total_none, get_zero]
    rw [List.length_eq_zero_iff.1 hn]
    simp
  · have hn0 : 0 < lamps.length := Nat.pos_of_ne_zero hn
    have hn' : (0 : ℝ) < lamps.length := by exact_mod_cast hn0
    have e : ∀ ω, total (lampLight S lamps blocked r ω).1 =
        picked S lamps blocked r (naiveSelect lamps.length (ω 0)).1 :=
      fun ω => congrArg Prod.fst (total_lampLight S h lamps blocked r ω hn)
    simp only [e]
    let f : ℝ → ℝ := fun c => (picked S lamps blocked r (naiveSelect lamps.length c).1).get i
    have hf : Measurable f := ((measurable_get i).comp
      (measurable_from_top (f := fun k : ℤ => picked S lamps blocked r k))).comp (measurable_index _)
    have hf0 : ∀ c, 0 ≤ f c := fun c => (picked_nonneg S h lamps hl blocked r _).get i
    let g : ℕ → ℝ := fun k => (picked S lamps blocked r k).get i
    have hcell : ∀ k, k < lamps.length → ∀ c : ℝ, (k : ℝ) / lamps.length ≤ c → c < ((k : ℝ) + 1) / lamps.length →
        f c = g k := by
      intro k hk c h0 h1
      have hc : 0 ≤ c := le_trans (by positivity) h0
      show (picked S lamps blocked r (naiveSelect lamps.length c).1).get i = _
      rw [(naiveSelect_index _ hn0 c hc k).2 ⟨h0, h1⟩]
    have step : ∫⁻ ω : Stream, ENNReal.ofReal (f (ω 0)) ∂uniform = ∫⁻ c, ENNReal.ofReal (f c) ∂unit := by
      have hm1 : Measurable fun ω : Stream => ENNReal.ofReal (f (ω 0)) :=
        (hf.comp (measurable_pi_apply 0)).ennreal_ofReal
      rw [lintegral_cons _ hm1]
      simp [cons]
    refine Eq.trans step ?_
    -- the values are bounded, so the integral is an ordinary one
    have hbound : ∀ᵐ c ∂unit, ‖f c‖ ≤ ∑ k ∈ Finset.range lamps.length, g k := by
      rw [unit]
      refine (ae_restrict_iff' measurableSet_Ioo).2 (Filter.Eventually.of_forall fun c hc => ?_)
      obtain ⟨k, hk, hs⟩ := naiveSelect_range lamps.length hn0 c hc.1.le hc.2
      have hfc : f c = g k := by
        show (picked S lamps blocked r (naiveSelect lamps.length c).1).get i = _
        rw [hs]
      rw [Real.norm_eq_abs, abs_of_nonneg (hf0 c), hfc]
      exact Finset.single_le_sum (f := g) (fun j _ => (picked_nonneg S h lamps hl blocked r _).get i)
        (Finset.mem_range.2 hk)
    have hint : Integrable f unit := Integrable.of_bound hf.aestronglyMeasurable _ hbound
    rw [← ofReal_integral_eq_lintegral_ofReal hint (Filter.Eventually.of_forall hf0)]
    congr 1
    rw [unit, ← integral_Ioc_eq_integral_Ioo, ← intervalIntegral.integral_of_le zero_le_one,
      integral_cells lamps.length hn0 f g hcell, Finset.mul_sum, ← Fin.sum_univ_getElem,
      ← Fin.sum_univ_eq_sum_range (fun k => 1 / (lamps.length : ℝ) * g k)]
    have hlen : (lamps.map (S.lampAt blocked i r)).length = lamps.length := by simp
    refine Fintype.sum_equiv (finCongr hlen.symm) _ _ fun k => ?_
    simp only [finCongr_apply, Fin.val_cast, List.getElem_map]
    show 1 / (lamps.length : ℝ) * (picked S lamps blocked r ((k : ℕ) : ℤ)).get i = _
    rw [picked, getAt_nat _ _ k.2]
    simp only [get_smul, lampColour_get]
    field_simp

/-- **C100, a diffuse surface under point lights.** Light arriving along a ray that hits a diffuse surface: what the
surface emits, what the lamps send to it, and Lambert's integral of the light that arrives over other surfaces. -/
theorem lamps_light (S : Room) (h : S.Lawful) (lamps : List Lamp) (hl : ∀ l ∈ lamps, NonNeg l.1) (blocked : Blocked)
    (hb : Measurable fun q : V3 ℝ × V3 ℝ × ℝ => blocked q.1 q.2.1 q.2.2)
    (i : Fin 3) (look : Bool) (r : Ray) (hs : S.seen r = true) (hm : S.material r = .diffuse)
    (hp : ∀ l ∈ lamps, l.2 ≠ S.point r) :
    (S.lit lamps blocked).world.light i look r =
      (if look then ENNReal.ofReal ((S.emitted r).get i) else 0) +
      ENNReal.ofReal ((lamps.map (S.lampAt blocked i r)).sum) +
      open Classical in if S.Front r then S.lambert i r ((S.lit lamps blocked).world.light i false) else 0 := by
  rw [diffuse_light (S.lit lamps blocked) (lit_lawful S h lamps hl blocked hb) i look r hs hm,
    lamps_direct S h lamps hl blocked i r hm hp]
  rfl

/-- Two lamps above the white floor, at heights 1 and 2; whatever is further away than 3/2 is hidden. Seen from above, the
floor below the lamps shows the light of the lower lamp alone, `(1/π) · 1 · 4π/(4π · 1²)`, and the light that arrives
from the sky. -/
example (i : Fin 3) :
    let I : V3 ℝ := ⟨4 * Real.pi, 4 * Real.pi, 4 * Real.pi⟩
    let S := (floor 1).lit [(I, ⟨0, 0, 1⟩), (I, ⟨0, 0, 2⟩)] fun _ _ far => decide (3 / 2 < far)
    S.world.light i true (⟨0, 0, 1⟩, ⟨0, 0, -1⟩) = ENNReal.ofReal (1 / Real.pi) +
      (floor 1).lambert i (⟨0, 0, 1⟩, ⟨0, 0, -1⟩) (S.world.light i false) := by
  classical
  intro I S
  have hpi := Real.pi_pos
  have hI : NonNeg I := ⟨by positivity, by positivity, by positivity⟩
  have hIi : I.get i = 4 * Real.pi := by fin_cases i <;> rfl
  have hb : Measurable fun q : V3 ℝ × V3 ℝ × ℝ => decide (3 / 2 < q.2.2) := by
    have hs : MeasurableSet {q : V3 ℝ × V3 ℝ × ℝ | 3 / 2 < q.2.2} :=
      measurableSet_lt measurable_const (measurable_snd.comp measurable_snd)
    refine measurable_to_bool ?_
    convert hs using 1
    ext q
    simp
  have hpt : (floor 1).point (⟨0, 0, 1⟩, ⟨0, 0, -1⟩) = ⟨0, 0, 0⟩ := by ext <;> simp [floor]
  have hf : (floor 1).Front (⟨0, 0, 1⟩, ⟨0, 0, -1⟩) := by simp [Room.Front, floor, V3.dot]
  have hai : ((floor 1).albedo (⟨0, 0, 1⟩, ⟨0, 0, -1⟩)).get i = 1 := by fin_cases i <;> rfl
  have h := lamps_light (floor 1) (floor_lawful 1 zero_le_one) [(I, ⟨0, 0, 1⟩), (I, ⟨0, 0, 2⟩)]
    (by intro l hl; simp at hl; rcases hl with rfl | rfl <;> exact hI) (fun _ _ far => decide (3 / 2 < far)) hb i true
    (⟨0, 0, 1⟩, ⟨0, 0, -1⟩) (by simp [floor]) rfl
    (by intro l hl; rw [hpt]; simp at hl; rcases hl with rfl | rfl <;> simp)
  refine h.trans ?_
  have h1 : (floor 1).lampAt (fun _ _ far => decide (3 / 2 < far)) i (⟨0, 0, 1⟩, ⟨0, 0, -1⟩) (I, ⟨0, 0, 1⟩) = 1 / Real.pi := by
    simp only [Room.lampAt, hpt, hai, hIi]
    have e : ((⟨0, 0, 1⟩ : V3 ℝ) - ⟨0, 0, 0⟩).sqrNorm = 1 := by simp [V3.sqrNorm]
    rw [e, Real.sqrt_one]
    rw [if_neg]
    · simp [floor, V3.dot]
    · simp [floor, V3.dot]
      norm_num
  have h2 : (floor 1).lampAt (fun _ _ far => decide (3 / 2 < far)) i (⟨0, 0, 1⟩, ⟨0, 0, -1⟩) (I, ⟨0, 0, 2⟩) = 0 := by
    simp only [Room.lampAt, hpt]
    have e : Real.sqrt ((⟨0, 0, 2⟩ : V3 ℝ) - ⟨0, 0, 0⟩).sqrNorm = 2 := by
      have e' : ((⟨0, 0, 2⟩ : V3 ℝ) - ⟨0, 0, 0⟩).sqrNorm = 2 * 2 := by simp [V3.sqrNorm]
      rw [e', Real.sqrt_mul_self (by norm_num)]
    rw [e, if_pos]
    left
    rw [decide_eq_true_iff]
    norm_num
  rw [if_pos hf, List.map_cons, List.map_cons, h1, h2]
  have hem : ((floor 1).emitted (⟨0, 0, 1⟩, ⟨0, 0, -1⟩)).get i = 0 := get_zero i
  rw [hem]
  simp
  rfl

end Feign.Integrators
