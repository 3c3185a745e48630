import Verif.Integrators.LitSpec
import Verif.Integrators.RoomProps
import Verif.Lights.NeeProps
import Mathlib.MeasureTheory.Function.Floor

/-! # Scenes lit by point lights: lemmas -/

set_option linter.unusedSectionVars false
set_option linter.unusedSimpArgs false
set_option linter.unusedVariables false

namespace Feign.Integrators

open Sampling MeasureTheory Warp Bsdf Lights
open scoped ENNReal

/-- The same, with all three channels. -/
noncomputable def lampColour (S : Room) (blocked : Blocked) (r : Ray) (l : Lamp) : V3 ℝ :=
  if blocked (S.point r) ((l.2 - S.point r).smul (1 / (l.2 - S.point r).norm)) ((l.2 - S.point r).norm - 1 / 1000) = true ∨
      (S.wi r).z ≤ 0 ∨ (S.frame r).n.dot ((l.2 - S.point r).smul (1 / (l.2 - S.point r).norm)) ≤ 0 then 0
  else (l.1.smul (1 / (4 * Real.pi * (l.2 - S.point r).sqrNorm) *
    (S.frame r).n.dot ((l.2 - S.point r).smul (1 / (l.2 - S.point r).norm)))) * (S.albedo r).smul (1 / Real.pi)

theorem norm_eq (v : V3 ℝ) : v.norm = Real.sqrt v.sqrNorm := by
  unfold V3.norm V3.sqrNorm
  rfl

theorem lampColour_get (S : Room) (blocked : Blocked) (i : Fin 3) (r : Ray) (l : Lamp) :
    (lampColour S blocked r l).get i = S.lampAt blocked i r l := by
  unfold lampColour Room.lampAt
  rw [norm_eq]
  dsimp only
  have hw : (S.wi r).z = (-r.2).dot (S.frame r).n := rfl
  rw [hw]
  split_ifs
  · exact get_zero i
  · rw [get_mul, get_smul, get_smul]
    ring

theorem total_single (a : ShadowRay ℝ) : total [a] = if a.valid then a.throughput * a.albedo else 0 := by
  unfold total
  have hz : ∀ v : V3 ℝ, v + 0 = v := by intro v; ext <;> simp
  cases h : a.valid <;> simp [h, hz]

/-- The sample of one lamp, before it is divided by the choice probability. -/
theorem lamp_total (S : Room) (h : S.Lawful) (blocked : Blocked) (r : Ray) (l : Lamp) (u : V2 ℝ) (choice : ℝ)
    (hne : l.2 ≠ S.point r) :
    ∃ e, lightEval (queries blocked (S.point r)) ⟨S.point r, (S.frame r).n, S.frame r, 0⟩ (S.frame r).n false choice
        (.point l.1 l.2) u = .ok e ∧
      total [shadowRay (S.albedo r) (S.wi r) e] = (lampColour S blocked r l).smul (1 / choice) := by
  have ho := h.frame r
  have hn : (l.2 - S.point r).norm ≠ 0 := by
    intro hn
    apply hne
    have hx := mul_self_nonneg (l.2 - S.point r).x
    have hy := mul_self_nonneg (l.2 - S.point r).y
    have hz := mul_self_nonneg (l.2 - S.point r).z
    rw [norm_eq, Real.sqrt_eq_zero (by simp only [V3.sqrNorm]; linarith), V3.sqrNorm] at hn
    have ex : (l.2 - S.point r).x = 0 := mul_self_eq_zero.1 (by linarith)
    have ey : (l.2 - S.point r).y = 0 := mul_self_eq_zero.1 (by linarith)
    have ez : (l.2 - S.point r).z = 0 := mul_self_eq_zero.1 (by linarith)
    rw [V3.sub_x] at ex
    rw [V3.sub_y] at ey
    rw [V3.sub_z] at ez
    ext <;> linarith
  set w := (l.2 - S.point r).smul (1 / (l.2 - S.point r).norm) with hw
  have hnz : (l.2 - S.point r).normalized = some w := by
    rw [V3.normalized, if_neg hn, hw]
    congr 1
    ext <;> simp only [V3.smul_x, V3.smul_y, V3.smul_z] <;> ring
  simp only [lightEval, Light.sampleNee, hnz, Option.map_some, Res.bind_ok, initialCheck, Light.needsCheck,
    Bool.false_eq_true, if_false, queries, Bool.not_false, Bool.and_true, one_ne_zero, mul_one]
  rw [← norm_eq]
  have heps : Lights.eps = 1 / 1000 := rfl
  rw [heps]
  have hloc : ((S.frame r).toLocal w).z = (S.frame r).n.dot w := by
    simp only [Frame.toLocal, V3.dot]
    ring
  unfold lampColour
  rw [← hw]
  have hzs : ∀ c : ℝ, (0 : V3 ℝ).smul c = 0 := by
    intro c; ext <;> simp
  have h0m : ∀ v : V3 ℝ, (0 : V3 ℝ) * v = 0 := by
    intro v
    ext
    · show (0 : ℝ) * v.x = 0; ring
    · show (0 : ℝ) * v.y = 0; ring
    · show (0 : ℝ) * v.z = 0; ring
  have hm0 : ∀ v : V3 ℝ, v * (0 : V3 ℝ) = 0 := by
    intro v
    ext
    · show v.x * (0 : ℝ) = 0; ring
    · show v.y * (0 : ℝ) = 0; ring
    · show v.z * (0 : ℝ) = 0; ring
  by_cases hb : blocked (S.point r) w ((l.2 - S.point r).norm - 1 / 1000) = true
  · rw [if_pos hb, if_pos (Or.inl hb), hzs]
    exact ⟨_, rfl, by rw [total_single]; rfl⟩
  · rw [if_neg hb]
    refine ⟨_, rfl, ?_⟩
    rw [total_single]
    simp only [shadowRay, toEntry, if_true, diffuseEval, hloc]
    by_cases hf : (S.wi r).z ≤ 0
    · rw [if_pos (Or.inl hf), if_pos (Or.inr (Or.inl hf)), hm0, hzs]
    · by_cases hc : (S.frame r).n.dot w ≤ 0
      · rw [if_pos (Or.inr hc), if_pos (Or.inr (Or.inr hc)), hm0, hzs]
      · rw [if_neg (not_or.2 ⟨hf, hc⟩), if_neg (not_or.2 ⟨hb, not_or.2 ⟨hf, hc⟩⟩)]
        have hct : cosTerm ((S.frame r).n.dot w) = (S.frame r).n.dot w := by
          rw [cosTerm, if_neg]
          rw [heps]
          linarith [not_le.1 hc]
        rw [hct]
        ext
        · show l.1.x * _ * _ * _ * _ * 1 * (_ * _) = l.1.x * _ * (_ * _) * _
          ring
        · show l.1.y * _ * _ * _ * _ * 1 * (_ * _) = l.1.y * _ * (_ * _) * _
          ring
        · show l.1.z * _ * _ * _ * _ * 1 * (_ * _) = l.1.z * _ * (_ * _) * _
          ring

/-- A lamp at the shaded point gives nothing in the model (in the program: NaN). -/
theorem lampColour_at (S : Room) (blocked : Blocked) (r : Ray) (l : Lamp) (h : l.2 = S.point r) :
    lampColour S blocked r l = 0 := by
  have hz : (l.2 - S.point r) = 0 := by
    rw [h]; ext <;> simp
  unfold lampColour
  rw [hz]
  have hs : ∀ c : ℝ, (0 : V3 ℝ).smul c = 0 := by
    intro c; ext <;> simp
  rw [hs]
  rw [if_pos (Or.inr (Or.inr (by simp [V3.dot])))]

/-- The colour of the sample for light number `k`. -/
noncomputable def picked (S : Room) (lamps : List Lamp) (blocked : Blocked) (r : Ray) (k : ℤ) : V3 ℝ :=
  match getAt lamps k with
  | .ok l => (lampColour S blocked r l).smul lamps.length
  | _ => 0

theorem getAt_map {α β : Type} (f : α → β) (l : List α) (k : ℤ) :
    getAt (l.map f) k = match getAt l k with
      | .ok a => .ok (f a)
      | .throw m => .throw m
      | .ub m => .ub m := by
  unfold getAt
  split_ifs with h
  · rfl
  · rw [List.getElem?_map]
    cases l[k.toNat]? <;> rfl

theorem total_lampLight (S : Room) (h : S.Lawful) (lamps : List Lamp) (blocked : Blocked) (r : Ray) (ω : Stream)
    (hn : lamps.length ≠ 0) :
    (total (lampLight S lamps blocked r ω).1, (lampLight S lamps blocked r ω).2) =
      (picked S lamps blocked r (naiveSelect lamps.length (ω 0)).1, drop 3 ω) := by
  have hd : (next2 (next ω).2).2 = drop 3 ω := by
    funext n; rfl
  have hlen : (lamps.map fun l => Light.point l.1 l.2).length ≠ 0 := by simpa using hn
  unfold lampLight
  rw [if_neg hn]
  have hc : (next ω).1 = ω 0 := rfl
  rw [hc, hd]
  unfold evalOne chooseEmitter picked
  rw [List.length_map, List.length_map, if_neg hn, List.map_map]
  simp only [getAt_map]
  cases hg : getAt lamps (naiveSelect lamps.length (ω 0)).1 with
  | ub m => rfl
  | «throw» m => rfl
  | ok l =>
    have h0 : 0 ≤ (naiveSelect lamps.length (ω 0)).1 := by
      by_contra hneg
      rw [getAt, if_pos (not_le.1 hneg)] at hg
      cases hg
    have hpdf : (naiveSelect lamps.length (ω 0)).2 = 1 / (lamps.length : ℝ) := rfl
    simp only [Function.comp, Light.meshNode, Res.bind_ok, Int.toNat_of_nonneg h0, hg, getAt_map, hpdf]
    by_cases he : l.2 = S.point r
    · rw [lampColour_at S blocked r l he]
      have hzero : (l.2 - S.point r) = 0 := by
        rw [he]; ext <;> simp
      have hnz : (l.2 - S.point r).normalized = none := by
        rw [hzero, V3.normalized, if_pos]
        simp [V3.norm]
      simp only [lightEval, Light.sampleNee, hnz, Option.map_none, Res.bind_ok, Res.pure_eq, List.map_cons,
        List.map_nil, total_single, shadowRay, toEntry, Bool.false_eq_true, if_false]
      congr 1
      ext <;> simp
    · obtain ⟨e, h1, h2⟩ := lamp_total S h blocked r l
        ⟨(next2 (next ω).2).1.1, (next2 (next ω).2).1.2⟩ (1 / lamps.length) he
      rw [h1]
      simp only [Res.bind_ok, Res.pure_eq, List.map_cons, List.map_nil, h2, one_div_one_div]

theorem measurable_blocked {α : Type} [MeasurableSpace α] {blocked : Blocked}
    (hb : Measurable fun q : V3 ℝ × V3 ℝ × ℝ => blocked q.1 q.2.1 q.2.2) {p d : α → V3 ℝ} {t : α → ℝ}
    (hp : Measurable p) (hd : Measurable d) (ht : Measurable t) : MeasurableSet {a | blocked (p a) (d a) (t a) = true} :=
  (hb.comp (hp.prodMk (hd.prodMk ht))) (t := {true}) MeasurableSpace.measurableSet_top

theorem measurable_norm {α : Type} [MeasurableSpace α] {v : α → V3 ℝ} (hv : Measurable v) :
    Measurable fun a => (v a).norm := by
  unfold V3.norm
  fun_prop

theorem measurable_sqrNorm {α : Type} [MeasurableSpace α] {v : α → V3 ℝ} (hv : Measurable v) :
    Measurable fun a => (v a).sqrNorm := by
  unfold V3.sqrNorm
  fun_prop

theorem measurable_lampColour (S : Room) (h : S.Lawful) (blocked : Blocked)
    (hb : Measurable fun q : V3 ℝ × V3 ℝ × ℝ => blocked q.1 q.2.1 q.2.2) (l : Lamp) :
    Measurable fun r => lampColour S blocked r l := by
  have hv : Measurable fun r => l.2 - S.point r := by
    have hp := h.point
    apply measurable_of <;> simp only [V3.sub_x, V3.sub_y, V3.sub_z] <;> fun_prop
  have hn := measurable_norm hv
  have hq := measurable_sqrNorm hv
  have hw : Measurable fun r => (l.2 - S.point r).smul (1 / (l.2 - S.point r).norm) :=
    measurable_V3smul hv (measurable_const.div hn)
  have hc := measurable_dot h.frame_n hw
  have hz : Measurable fun r => (S.wi r).z := measurable_z.comp (measurable_wi S h)
  unfold lampColour
  refine Measurable.ite ((measurable_blocked hb h.point hw (hn.sub measurable_const)).union
    ((measurableSet_le hz measurable_const).union (measurableSet_le hc measurable_const))) measurable_const ?_
  exact measurable_V3mul (measurable_V3smul measurable_const ((measurable_const.div (measurable_const.mul hq)).mul hc))
    (measurable_V3smul h.albedo measurable_const)

theorem measurable_picked (S : Room) (h : S.Lawful) (lamps : List Lamp) (blocked : Blocked)
    (hb : Measurable fun q : V3 ℝ × V3 ℝ × ℝ => blocked q.1 q.2.1 q.2.2) (k : ℤ) :
    Measurable fun r => picked S lamps blocked r k := by
  unfold picked
  cases getAt lamps k with
  | ok l => exact measurable_V3smul (measurable_lampColour S h blocked hb l) measurable_const
  | ub m => exact measurable_const
  | «throw» m => exact measurable_const

theorem measurable_index (n : ℕ) : Measurable fun c : ℝ => (naiveSelect n c).1 := by
  unfold naiveSelect truncInt
  have hm : Measurable fun c : ℝ => c * (n : ℝ) := measurable_id.mul measurable_const
  exact Measurable.ite (measurableSet_le measurable_const hm) (Int.measurable_floor.comp hm)
    (Int.measurable_ceil.comp hm)

theorem lampColour_nonneg (S : Room) (h : S.Lawful) (blocked : Blocked) (r : Ray) (l : Lamp) (hl : NonNeg l.1) :
    NonNeg (lampColour S blocked r l) := by
  unfold lampColour
  split_ifs with hc
  · exact NonNeg.zero
  · push Not at hc
    have ha := h.albedo_nonneg r
    have hq : 0 ≤ (l.2 - S.point r).sqrNorm := by
      unfold V3.sqrNorm
      nlinarith [mul_self_nonneg (l.2 - S.point r).x, mul_self_nonneg (l.2 - S.point r).y,
        mul_self_nonneg (l.2 - S.point r).z]
    have hp := Real.pi_pos
    have hk : 0 ≤ 1 / (4 * Real.pi * (l.2 - S.point r).sqrNorm) *
        (S.frame r).n.dot ((l.2 - S.point r).smul (1 / (l.2 - S.point r).norm)) :=
      mul_nonneg (by positivity) hc.2.2.le
    have hp' : 0 ≤ 1 / Real.pi := by positivity
    exact ⟨mul_nonneg (mul_nonneg hl.1 hk) (mul_nonneg ha.1 hp'),
      mul_nonneg (mul_nonneg hl.2.1 hk) (mul_nonneg ha.2.1 hp'),
      mul_nonneg (mul_nonneg hl.2.2 hk) (mul_nonneg ha.2.2 hp')⟩

theorem getAt_mem {α : Type} (l : List α) (k : ℤ) (a : α) (h : getAt l k = .ok a) : a ∈ l := by
  unfold getAt at h
  by_cases hk : k < 0
  · rw [if_pos hk] at h; cases h
  · rw [if_neg hk] at h
    cases hg : l[k.toNat]? with
    | none => rw [hg] at h; cases h
    | some b =>
      rw [hg] at h
      cases h
      exact List.mem_of_getElem? hg

theorem picked_nonneg (S : Room) (h : S.Lawful) (lamps : List Lamp) (hl : ∀ l ∈ lamps, NonNeg l.1) (blocked : Blocked)
    (r : Ray) (k : ℤ) : NonNeg (picked S lamps blocked r k) := by
  unfold picked
  cases hg : getAt lamps k with
  | ok l =>
    obtain ⟨hx, hy, hz⟩ := lampColour_nonneg S h blocked r l (hl l (getAt_mem _ _ _ hg))
    have hn : (0 : ℝ) ≤ lamps.length := Nat.cast_nonneg _
    exact ⟨mul_nonneg hx hn, mul_nonneg hy hn, mul_nonneg hz hn⟩
  | ub m => exact NonNeg.zero
  | «throw» m => exact NonNeg.zero

theorem total_none : total [⟨false, 0, 0⟩] = 0 := by
  rw [total_single]; rfl

theorem lit_lawful (S : Room) (h : S.Lawful) (lamps : List Lamp) (hl : ∀ l ∈ lamps, NonNeg l.1) (blocked : Blocked)
    (hb : Measurable fun q : V3 ℝ × V3 ℝ × ℝ => blocked q.1 q.2.1 q.2.2) : (S.lit lamps blocked).Lawful := by
  by_cases hn : lamps.length = 0
  · have e : ∀ r ω, lampLight S lamps blocked r ω = ([⟨false, 0, 0⟩], ω) := by
      intro r ω; rw [lampLight, if_pos hn]
    refine { h with lights := ?_, lights_fresh := ?_, lights_nonneg := ?_ }
    · simp only [Room.lit, e, total_none]
      exact measurable_const.prodMk measurable_snd
    · intro r
      simp only [Room.lit, e, total_none]
      exact fresh_pure 0
    · intro r ω
      simp only [Room.lit, e, total_none]
      exact NonNeg.zero
  · have e := fun r ω => total_lampLight S h lamps blocked r ω hn
    refine { h with lights := ?_, lights_fresh := ?_, lights_nonneg := ?_ }
    · simp only [Room.lit, e]
      refine Measurable.prodMk ?_ ((measurable_drop 3).comp measurable_snd)
      have hp : Measurable fun q : Ray × ℤ => picked S lamps blocked q.1 q.2 :=
        measurable_from_prod_countable_left fun k => measurable_picked S h lamps blocked hb k
      exact hp.comp (measurable_fst.prodMk ((measurable_index _).comp ((measurable_pi_apply 0).comp measurable_snd)))
    · intro r
      simp only [Room.lit, e]
      have hm : Measurable fun c : ℝ => picked S lamps blocked r (naiveSelect lamps.length c).1 :=
        (measurable_from_top (f := fun k : ℤ => picked S lamps blocked r k)).comp (measurable_index _)
      have hk : Measurable fun p : ℝ × Stream => (picked S lamps blocked r (naiveSelect lamps.length p.1).1, drop 2 p.2) :=
        (hm.comp measurable_fst).prodMk ((measurable_drop 2).comp measurable_snd)
      have := fresh_bind (k := fun p : ℝ × Stream =>
        (picked S lamps blocked r (naiveSelect lamps.length p.1).1, drop 2 p.2)) fresh_next hk
        (fun a => fresh_map (m := fun _ => picked S lamps blocked r (naiveSelect lamps.length a).1) fresh_next2
          measurable_const)
      exact this
    · intro r ω
      have := congrArg Prod.fst (e r ω)
      simp only [Room.lit]
      dsimp only at this
      rw [this]
      exact picked_nonneg S h lamps hl blocked r _

end Feign.Integrators
