import Verif.Integrators.MistSpec
import Verif.Integrators.WalkLemmas

/-! # The mean of a radiance traced through media: lemmas -/

set_option linter.unusedSectionVars false
set_option linter.unusedSimpArgs false
set_option linter.unusedVariables false

namespace Feign.Integrators

open Sampling MeasureTheory Warp
open scoped ENNReal

variable {R M : Type}

/-! ## The loop without index and closure -/

/-- The flight through the medium, if there is one. -/
noncomputable def Mist.fly (W : Mist R M) : Option M → R → Stream → Flight × Stream
  | none, _, ω => ((white, false, 0), ω)
  | some m, r, ω => W.free m r ω

/-- Total of the light samples at a scattering point. -/
noncomputable def Mist.lamps (W : Mist R M) : Option M → R → ℝ → Stream → V3 ℝ × Stream
  | none, _, _, ω => (0, ω)
  | some m, r, t, ω => (Vol.total (fun _ => white) (W.inside m r t ω).1, (W.inside m r t ω).2)

/-- Value of the phase function and direction. -/
noncomputable def Mist.veer (W : Mist R M) : Option M → R → Stream → (ℝ × V3 ℝ) × Stream
  | none, _, ω => ((0, 0), ω)
  | some m, r, ω => ((W.phase m r (W.turn m r ω).1, (W.turn m r ω).1), (W.turn m r ω).2)

/-- Lights and direction at a scattering point. -/
noncomputable def Mist.both (W : Mist R M) (m : Option M) (r : R) (t : ℝ) (ω : Stream) : (V3 ℝ × ℝ × V3 ℝ) × Stream :=
  (((W.lamps m r t ω).1, (W.veer m r (W.lamps m r t ω).2).1), (W.veer m r (W.lamps m r t ω).2).2)

/-- Total of the light samples at a surface. -/
noncomputable def Mist.bulbs (W : Mist R M) (m : Option M) (r : R) (ω : Stream) : V3 ℝ × Stream :=
  (Vol.total (W.mat r) (W.lights m r ω).1, (W.lights m r ω).2)

/-- Division by the probability of going on. -/
noncomputable def cut (β : V3 ℝ) : V3 ℝ := β.smul (1 / min β.maxValue 1)

/-- What a scattering point adds, if `K` is what comes after it. -/
noncomputable def Mist.fog (W : Mist R M) (K : V3 ℝ → Option M → R → Stream → V3 ℝ) (β : V3 ℝ) (m : Option M) (r : R)
    (t : ℝ) (ω : Stream) : V3 ℝ :=
  (β.smul (W.both m r t ω).1.2.1) * (W.both m r t ω).1.1 +
    if (W.both m r t ω).2 0 > min β.maxValue 1 then 0
    else K (cut β) m (W.onward r t (W.both m r t ω).1.2.2) (drop 1 (W.both m r t ω).2)

/-- What a surface adds, if `K` is what comes after it. -/
noncomputable def Mist.surf (W : Mist R M) (K : V3 ℝ → Option M → R → Stream → V3 ℝ) (β : V3 ℝ) (m : Option M) (r : R)
    (ω : Stream) : V3 ℝ :=
  β * (W.bulbs m r ω).1 +
    if (W.bulbs m r ω).2 0 > min β.maxValue 1 ∨ (W.scatter r (drop 1 (W.bulbs m r ω).2)).1.pdf = 0 then 0
    else K (step false β (W.scatter r (drop 1 (W.bulbs m r ω).2)).1) m (W.scatter r (drop 1 (W.bulbs m r ω).2)).1.ray
      (W.scatter r (drop 1 (W.bulbs m r ω).2)).2

/-- The light the loop adds in at most `k` passes. -/
noncomputable def Mist.gather (W : Mist R M) : ℕ → ℕ → V3 ℝ → Option M → R → Stream → V3 ℝ
  | 0, _, _, _, _, _ => 0
  | _ + 1, 0, _, _, _, _ => 0
  | k + 1, n + 1, β, m, r, ω =>
    if isZero β = true then 0
    else if W.escapes r = true then β * W.env r
    else if (W.fly m r ω).1.scatters = true then
      W.fog (W.gather k n) (β * (W.fly m r ω).1.weight) m r (W.fly m r ω).1.t (W.fly m r ω).2
    else if W.null r = true then
      W.gather k (n + 1) (β * (W.fly m r ω).1.weight) (W.beyond m r) (W.past r) (W.fly m r ω).2
    else W.surf (W.gather k n) (β * (W.fly m r ω).1.weight) m r (W.fly m r ω).2

theorem divBy_cut {quot : ℝ → ℝ → ℝ} (hq : IsQuot quot) {β : V3 ℝ} (h : 0 < min β.maxValue 1) :
    divBy quot β (min β.maxValue 1) = cut β := by
  ext <;> simp only [divBy, cut, hq _ _ h.ne', V3.smul_x, V3.smul_y, V3.smul_z] <;> ring

theorem fly_pos [MeasurableSpace R] (W : Mist R M) (h : W.Lawful) (m : Option M) (r : R) (ω : Stream) (i : Fin 3) :
    0 < (W.fly m r ω).1.weight.get i := by
  cases m with
  | none =>
    have : (W.fly none r ω).1.weight = white := rfl
    rw [this]
    fin_cases i <;> exact one_pos
  | some m => exact h.free_pos m r ω i

theorem NonNeg.of_get {v : V3 ℝ} (h : ∀ i, 0 ≤ v.get i) : NonNeg v := ⟨h 0, h 1, h 2⟩

theorem maxValue_pos {v : V3 ℝ} {i : Fin 3} (h : 0 < v.get i) : 0 < v.maxValue := by
  obtain ⟨h1, h2, h3⟩ := le_maxValue v
  fin_cases i
  · exact h.trans_le h1
  · exact h.trans_le h2
  · exact h.trans_le h3

/-- A throughput that is not given up and a weight without black channels go on with a positive probability. -/
theorem weighed_pos {β w : V3 ℝ} (hβ : NonNeg β) (hz : isZero β = false) (hw : ∀ i, 0 < w.get i) :
    NonNeg (β * w) ∧ 0 < min (β * w).maxValue 1 := by
  refine ⟨hβ.mul (NonNeg.of_get fun i => (hw i).le), lt_min ?_ one_pos⟩
  by_contra hc
  have h0 : ∀ i, β.get i = 0 := by
    intro i
    by_contra hi
    have hpos : 0 < β.get i := lt_of_le_of_ne (hβ.get i) (Ne.symm hi)
    exact hc (maxValue_pos (i := i) (by rw [get_mul]; exact mul_pos hpos (hw i)))
  have : isZero β = true := by
    have e1 : β.x = 0 := h0 0
    have e2 : β.y = 0 := h0 1
    have e3 : β.z = 0 := h0 2
    simp [isZero, e1, e2, e3]
  rw [this] at hz
  cases hz

theorem NonNeg.cut {β : V3 ℝ} (hβ : NonNeg β) (h : 0 < min β.maxValue 1) : NonNeg (cut β) :=
  hβ.smul (div_nonneg zero_le_one h.le)

theorem nonNeg_step {delta : Bool} {β : V3 ℝ} {b : Bounce R} (hβ : NonNeg β) (hm : 0 < min β.maxValue 1)
    (ha : NonNeg b.albedo) (hp : 0 ≤ b.pdf) : NonNeg (step delta β b) := by
  refine hβ.mul (ha.smul (div_nonneg ?_ (mul_nonneg hp hm.le)))
  cases delta
  · exact abs_nonneg _
  · exact zero_le_one

theorem step_factor' {delta : Bool} {β : V3 ℝ} {b : Bounce R} (i : Fin 3) (hβ : NonNeg β) (hm : 0 < min β.maxValue 1)
    (hp : b.pdf ≠ 0) :
    ENNReal.ofReal (min β.maxValue 1) * ENNReal.ofReal ((step delta β b).get i) =
      ENNReal.ofReal (β.get i) * ENNReal.ofReal (factor delta i b) := by
  rw [← ENNReal.ofReal_mul hm.le, ← ENNReal.ofReal_mul (hβ.get i)]
  congr 1
  rw [step, get_mul, get_smul, factor, if_neg hp]
  field_simp

theorem cut_factor {β : V3 ℝ} (i : Fin 3) (hm : 0 < min β.maxValue 1) :
    ENNReal.ofReal (min β.maxValue 1) * ENNReal.ofReal ((cut β).get i) = ENNReal.ofReal (β.get i) := by
  rw [← ENNReal.ofReal_mul hm.le]
  congr 1
  rw [cut, get_smul]
  field_simp

/-! ## The loop -/

theorem landed_fly (W : Mist R M) (p : MistState R M) : W.landed p = (W.fly p.1 p.2.1 p.2.2).2 := by
  obtain ⟨m, r, ω⟩ := p
  cases m <;> rfl

theorem total_smul (c : ℝ) (l : List (VRay ℝ)) :
    Vol.total (fun _ => (⟨c, c, c⟩ : V3 ℝ)) l = (Vol.total (fun _ => white) l).smul c := by
  induction l with
  | nil => ext <;> simp [Vol.total]
  | cons a l ih =>
    rw [Vol.total_cons, Vol.total_cons, ih]
    split_ifs
    · have e1 : (a.throughput * (⟨c, c, c⟩ : V3 ℝ)) = a.throughput.smul c := by ext <;> rfl
      have e2 : (a.throughput * (white : V3 ℝ)) = a.throughput := Vol.mul_white _
      rw [e1, e2]
      ext <;> simp only [V3.add_x, V3.add_y, V3.add_z, V3.smul_x, V3.smul_y, V3.smul_z] <;> ring
    · rfl

theorem nullStep_beyond (W : Mist R M) (β : V3 ℝ) (r : R) (st : VolState ℝ M) :
    nullStep β (W.boundary r) st = .next { st with beta := β, media := W.beyond st.media r } := by
  unfold nullStep Mist.beyond
  cases W.boundary r with
  | none => rfl
  | some b =>
    simp only

theorem advance_scatter (W : Mist R M) {m : M} {r : R} {ω : Stream} (he : W.escapes r = false)
    (hs : (W.free m r ω).1.scatters = true) : W.advance (some m, r, ω) =
      (some m, W.onward r (W.free m r ω).1.t (W.turn m r (W.inside m r (W.free m r ω).1.t (W.free m r ω).2).2).1,
        drop 1 (W.turn m r (W.inside m r (W.free m r ω).1.t (W.free m r ω).2).2).2) := by
  simp only [Mist.advance, he, hs, Bool.false_eq_true, if_false, if_true]

theorem advance_arrive (W : Mist R M) {m : Option M} {r : R} {ω : Stream} (he : W.escapes r = false)
    (hs : ¬ (W.fly m r ω).1.scatters = true) : W.advance (m, r, ω) = W.arrive m r (W.fly m r ω).2 := by
  cases m with
  | none => simp only [Mist.advance, he, Bool.false_eq_true, if_false]; rfl
  | some m =>
    have hs' : ¬ (W.free m r ω).1.scatters = true := hs
    simp only [Mist.advance, he, hs', Bool.false_eq_true, if_false]
    rfl

theorem volLoop_gather [MeasurableSpace R] (W : Mist R M) (h : W.Lawful) (hm : W.Matte) (quot : ℝ → ℝ → ℝ)
    (hq : IsQuot quot) (maxBounces : ℕ) (p : MistState R M) (ans : ℕ → VolAnswer ℝ M)
    (hans : ∀ k, ans k = W.answer (W.walk p k)) (k : ℕ) : ∀ (i : ℕ) (st : VolState ℝ M) (v : V3 ℝ),
      NonNeg st.beta → st.closure.acceptsShadows = true → (W.walk p i).1 = st.media →
      volLoop quot maxBounces ans k i st = some v →
      v = st.Li + W.gather k (maxBounces - st.bounces) st.beta st.media (W.walk p i).2.1 (W.walk p i).2.2 := by
  induction k with
  | zero => intro i st v _ _ _ hv; cases hv
  | succ k ih =>
    intro i st v hβ hacc hmed hv
    obtain ⟨Li, β, c, rays, med, bounces⟩ := st
    simp only at hβ hacc hmed ⊢
    subst hmed
    obtain ⟨q, hqd⟩ : ∃ q, q = W.walk p i := ⟨_, rfl⟩
    rw [← hqd] at hv ⊢
    obtain ⟨m, r, ω⟩ := q
    simp only at hv ⊢
    have hnext : W.walk p (i + 1) = W.advance (m, r, ω) := by rw [Mist.walk, ← hqd]
    rw [volLoop, hans i, ← hqd] at hv
    by_cases hb : bounces < maxBounces
    · obtain ⟨n, hn⟩ : ∃ n, maxBounces - bounces = n + 1 := ⟨maxBounces - bounces - 1, by omega⟩
      have hn' : maxBounces - (bounces + 1) = n := by omega
      rw [hn, Mist.gather]
      by_cases hz : isZero β = true
      · simp only [volStep, if_pos hb, if_pos hz] at hv ⊢
        injection hv with hv
        rw [← hv, add_zero]
      · have hz' : isZero β = false := by simpa using hz
        rw [Vol.volStep_eq _ _ _ _ hb hz'] at hv
        simp only [if_neg hz]
        by_cases he : W.escapes r = true
        · simp only [Mist.answer, if_pos he, Vol.happens, Vol.eventStep] at hv ⊢
          injection hv with hv
          exact hv.symm
        · have he' : W.escapes r = false := by simpa using he
          simp only [Mist.answer, if_neg he] at hv ⊢
          obtain ⟨hβw, hpos⟩ := weighed_pos hβ hz' (fly_pos W h m r ω)
          by_cases hs : (W.fly m r ω).1.scatters = true
          · cases m with
            | none => cases hs
            | some m =>
              have hs' : (W.free m r ω).1.scatters = true := hs
              rw [if_pos hs]
              simp only [Vol.happens, Mist.through, hs', if_true, Vol.eventStep, scatterStep, Vol.mediumNee_eq,
                total_smul] at hv
              have hadv := hnext.trans (advance_scatter W he' hs')
              have hfly : W.fly (some m) r ω = W.free m r ω := rfl
              rw [hfly] at hβw hpos ⊢
              have hboth : (W.both (some m) r (W.free m r ω).1.t (W.free m r ω).2) =
                  ((Vol.total (fun _ => white) (W.inside m r (W.free m r ω).1.t (W.free m r ω).2).1,
                    W.phase m r (W.turn m r (W.inside m r (W.free m r ω).1.t (W.free m r ω).2).2).1,
                    (W.turn m r (W.inside m r (W.free m r ω).1.t (W.free m r ω).2).2).1),
                    (W.turn m r (W.inside m r (W.free m r ω).1.t (W.free m r ω).2).2).2) := rfl
              unfold Mist.fog
              rw [hboth]
              simp only [Mist.vertex] at hv ⊢
              have hnee : ∀ (x y : V3 ℝ) (c : ℝ), x * y.smul c = x.smul c * y := by
                intro x y c
                ext
                · show x.x * (y.x * c) = x.x * c * y.x; ring
                · show x.y * (y.y * c) = x.y * c * y.y; ring
                · show x.z * (y.z * c) = x.z * c * y.z; ring
              rw [hnee] at hv
              by_cases hu : (W.turn m r (W.inside m r (W.free m r ω).1.t (W.free m r ω).2).2).2 0 >
                  min (β * (W.free m r ω).1.weight).maxValue 1
              · simp only [hu, if_true] at hv ⊢
                injection hv with hv
                rw [← hv, add_zero]
              · simp only [hu, if_false] at hv ⊢
                have := ih (i + 1) _ v (by
                  simp only
                  rw [divBy_cut hq hpos]
                  exact hβw.cut hpos) hacc (by rw [hadv]) hv
                rw [this, hadv, divBy_cut hq hpos]
                simp only [hn', add_assoc]
          · rw [if_neg hs]
            have harr := hnext.trans (advance_arrive W he' hs)
            have hhap : Vol.happens (.hit (W.through r ω) (W.boundary r) (W.target m r (W.landed (m, r, ω)))) m =
                Vol.arrive (W.fly m r ω).1.weight (W.boundary r) (W.target m r (W.fly m r ω).2) := by
              cases m with
              | none => rfl
              | some m =>
                have hs' : ¬ (W.free m r ω).1.scatters = true := hs
                simp only [Vol.happens, Mist.through, hs', if_false]
                rfl
            rw [hhap] at hv
            by_cases hnull : W.null r = true
            · rw [if_pos hnull]
              simp only [Mist.target, if_pos hnull, Vol.arrive, Vol.eventStep, nullStep_beyond] at hv
              have hst : W.walk p (i + 1) = (W.beyond m r, W.past r, (W.fly m r ω).2) := by
                rw [harr, Mist.arrive, if_pos hnull]
              have := ih (i + 1) _ v hβw hacc (by rw [hst]) hv
              rw [this, hst]
              simp only [hn]
            · rw [if_neg hnull]
              simp only [Mist.target, if_neg hnull, Vol.arrive, Vol.eventStep, Mist.samples, hm.plain r,
                Bool.false_eq_true, if_false, hm.dark r] at hv
              have hst : W.walk p (i + 1) = (m, (W.scatter r (drop 1 (W.lights m r (W.fly m r ω).2).2)).1.ray,
                  (W.scatter r (drop 1 (W.lights m r (W.fly m r ω).2).2)).2) := by
                rw [harr, Mist.arrive, if_neg hnull]
                simp only [Mist.samples, hm.plain r, Bool.false_eq_true, if_false]
              obtain ⟨l, hl⟩ : ∃ l, l = W.lights m r (W.fly m r ω).2 := ⟨_, rfl⟩
              rw [← hl] at hv hst
              obtain ⟨b, hbd⟩ : ∃ b, b = W.scatter r (drop 1 l.2) := ⟨_, rfl⟩
              rw [← hbd] at hv hst
              have hsn := h.scatter_nonneg r (drop 1 l.2)
              rw [← hbd] at hsn
              have hbul : W.bulbs m r (W.fly m r ω).2 = (Vol.total (W.mat r) l.1, l.2) := by rw [hl]; rfl
              unfold Mist.surf
              rw [hbul]
              simp only [← hbd]
              unfold surfaceStep at hv
              simp only [vEvaluate, vSample, Vol.vAccumulate_eq, hacc, Bool.false_eq_true, if_false, if_true] at hv
              generalize hβ' : β * (W.fly m r ω).1.weight = β' at hv hβw hpos ⊢
              have hem : (if c.lastSpec = true then (0 : V3 ℝ) else 0) = 0 := by split_ifs <;> rfl
              have hz0 : ∀ a : V3 ℝ, (0 : V3 ℝ) + a = a := zero_add
              by_cases hu : l.2 0 > min β'.maxValue 1
              · rw [if_pos (Or.inl hu), add_zero]
                rw [if_pos hu] at hv
                injection hv with hv
                rw [← hv]
                cases c.lastSpec <;> simp
              · rw [if_neg hu] at hv
                by_cases hp : b.1.pdf = 0
                · rw [if_pos (Or.inr hp), add_zero]
                  rw [if_pos hp] at hv
                  injection hv with hv
                  rw [← hv]
                  cases c.lastSpec <;> simp
                · rw [if_neg (not_or.2 ⟨hu, hp⟩)]
                  rw [if_neg hp] at hv
                  have hstep : β' * divBy quot (b.1.albedo.smul (if b.1.cos < 0 then -b.1.cos else b.1.cos))
                      (b.1.pdf * min β'.maxValue 1) = step false β' b.1 := by
                    have hm' : b.1.pdf * min β'.maxValue 1 ≠ 0 := mul_ne_zero hp hpos.ne'
                    have hcos : (if b.1.cos < 0 then -b.1.cos else b.1.cos) = |b.1.cos| := by
                      split_ifs with hc
                      · rw [abs_of_neg hc]
                      · rw [abs_of_nonneg (not_lt.1 hc)]
                    simp only [step, hcos, divBy, hq _ _ hm', Bool.false_eq_true, if_false]
                    congr 1
                    ext <;> simp only [V3.smul_x, V3.smul_y, V3.smul_z] <;> ring
                  have := ih (i + 1) _ v (by
                    cases c.lastSpec <;> simp only [Bool.false_eq_true, if_false, if_true] <;> rw [hstep] <;>
                      exact nonNeg_step hβw hpos hsn.1 hsn.2) (by cases c.lastSpec <;> rfl) (by rw [hst]) hv
                  rw [this, hst]
                  cases c.lastSpec <;> simp [hstep, hn', add_assoc]
    · have h0 : maxBounces - bounces = 0 := by omega
      rw [h0, Mist.gather]
      simp only [volStep, if_neg hb] at hv
      injection hv with hv
      rw [← hv, add_zero]

end Feign.Integrators
