import Verif.Image.RoundingLemmas
import Verif.Sampling.LightSelectProps

/-!
# Images computed in single precision (C119)

`render fl` is the render loop with `fl` applied to the result of every operation on the frame buffer; `single` is
rounding to the 24 bits of a `float` (`Verif/Math/Single.lean`). The filter function itself is evaluated without
rounding.
-/

set_option linter.unusedSectionVars false

namespace Feign.Image

open Finset

variable {K : Type} [Field K] [LinearOrder K] [IsStrictOrderedRing K] [FloorRing K]

/-! ### Specification -/

/-- Where the sample is put: the sum of pixel and offset, rounded. -/
def putX (fl : K → K) (obs : ℕ → ℕ → ℕ → Obs K) (k i j : ℕ) : K := fl ((j : K) + (obs k i j).u)
def putY (fl : K → K) (obs : ℕ → ℕ → ℕ → Obs K) (k i j : ℕ) : K := fl ((i : K) + (obs k i j).v)

/-- The rounded filter box around the sample meets the pixel `[x, x+1) × [y, y+1)` or touches its lower edges. -/
def Meets (fl : K → K) (flt : Filter K) (obs : ℕ → ℕ → ℕ → Obs K) (x y k i j : ℕ) : Prop :=
  ((x : K) ≤ fl (putX fl obs k i j + flt.sizeX) ∧ fl (putX fl obs k i j - flt.sizeX) < x + 1) ∧
  ((y : K) ≤ fl (putY fl obs k i j + flt.sizeY) ∧ fl (putY fl obs k i j - flt.sizeY) < y + 1)

instance (fl : K → K) (flt : Filter K) (obs : ℕ → ℕ → ℕ → Obs K) (x y k i j : ℕ) :
    Decidable (Meets fl flt obs x y k i j) := by unfold Meets; infer_instance

/-- Number of samples of the image whose box meets the pixel. -/
def reached (fl : K → K) (flt : Filter K) (w h spp : ℕ) (obs : ℕ → ℕ → ℕ → Obs K) (x y : ℕ) : ℕ :=
  ∑ k ∈ range spp, ∑ i ∈ range h, ∑ j ∈ range w, if Meets fl flt obs x y k i j then 1 else 0

/-- The filter at the (rounded) distance of the pixel centre from the sample. -/
def weightOf (fl : K → K) (flt : Filter K) (obs : ℕ → ℕ → ℕ → Obs K) (x y k i j : ℕ) : K :=
  if Meets fl flt obs x y k i j then
    flt.eval (fl (fl ((x : K) + 1 / 2) - putX fl obs k i j)) (fl (fl ((y : K) + 1 / 2) - putY fl obs k i j))
  else 0

/-- Sum of these weights, without rounding. -/
def sumWeight (fl : K → K) (flt : Filter K) (w h spp : ℕ) (obs : ℕ → ℕ → ℕ → Obs K) (x y : ℕ) : K :=
  ∑ k ∈ range spp, ∑ i ∈ range h, ∑ j ∈ range w, weightOf fl flt obs x y k i j

/-- Sum of weight times radiance, without rounding. -/
def sumRadiance (fl : K → K) (flt : Filter K) (w h spp : ℕ) (obs : ℕ → ℕ → ℕ → Obs K) (x y : ℕ) (c : Fin 3) : K :=
  ∑ k ∈ range spp, ∑ i ∈ range h, ∑ j ∈ range w, weightOf fl flt obs x y k i j * (obs k i j).rad c

/-! ### Proofs -/

private theorem visited_iff (fl : K → K) (flt : Filter K) (w h : ℕ) (hw : fl ((w : K) - 1) = (w : K) - 1)
    (hh : fl ((h : K) - 1) = (h : K) - 1) (obs : ℕ → ℕ → ℕ → Obs K) (x y : ℕ) (hx : x < w) (hy : y < h)
    (q : ℕ × ℕ × ℕ) : Visited fl flt w h obs x y q ↔ Meets fl flt obs x y q.1 q.2.1 q.2.2 := by
  unfold Visited Meets
  rw [mem_splatRange_fl fl _ _ w hw x (by omega) (by omega), mem_splatRange_fl fl _ _ h hh y (by omega) (by omega)]
  simp only [place, putX, putY, Int.cast_natCast]

private theorem seenWeight_eq (fl : K → K) (flt : Filter K) (obs : ℕ → ℕ → ℕ → Obs K) (x y : ℕ) (q : ℕ × ℕ × ℕ)
    (hm : Meets fl flt obs x y q.1 q.2.1 q.2.2) :
    seenWeight fl flt obs x y q = weightOf fl flt obs x y q.1 q.2.1 q.2.2 := by
  unfold weightOf seenWeight
  rw [if_pos hm]
  simp only [place, putX, putY, Int.cast_natCast]

private theorem sum_renderOrder_nat (spp w h : ℕ) (f : ℕ × ℕ × ℕ → ℕ) :
    ((renderOrder spp w h).map f).sum = ∑ k ∈ range spp, ∑ i ∈ range h, ∑ j ∈ range w, f (k, i, j) := by
  have h1 := sum_renderOrder (K := ℚ) spp w h (fun q => (f q : ℚ))
  have h2 : (((renderOrder spp w h).map f).sum : ℚ) = ((renderOrder spp w h).map fun q => (f q : ℚ)).sum := by
    rw [Nat.cast_list_sum, List.map_map]; rfl
  rw [← h2] at h1
  exact_mod_cast h1

private theorem length_filter {α : Type} (p : α → Prop) [DecidablePred p] (l : List α) :
    (l.filter fun q => decide (p q)).length = (l.map fun q => if p q then 1 else 0).sum := by
  induction l with
  | nil => rfl
  | cons q l ih =>
    by_cases hq : p q
    · rw [List.filter_cons_of_pos (by simpa using hq), List.length_cons, List.map_cons, List.sum_cons, ih, if_pos hq,
        add_comm]
    · rw [List.filter_cons_of_neg (by simpa using hq), List.map_cons, List.sum_cons, ih, if_neg hq, zero_add]

/-- **C119, error bound for any rounding.** Let the relative error of each operation be at most `u < 1`, and let the
last row and column be representable. If the filter and the radiance are not negative, a pixel met by `n` samples with
positive total weight differs from the weighted mean by a factor between `(1-u)^(n+2) / (1+u)^n` and
`(1+u)^(n+2) / (1-u)^n`. A pixel without weight is black. -/
theorem pixel_rounding (u : K) (hu0 : 0 ≤ u) (hu1 : u < 1) (fl : K → K) (hf : ∀ x, |fl x - x| ≤ u * |x|)
    (flt : Filter K) (hflt : ∀ x y, 0 ≤ flt.eval x y) (w h spp : ℕ) (hw : fl ((w : K) - 1) = (w : K) - 1)
    (hh : fl ((h : K) - 1) = (h : K) - 1) (obs : ℕ → ℕ → ℕ → Obs K) (hr : ∀ k i j c, 0 ≤ (obs k i j).rad c) :
    ∃ img, render fl flt w h spp obs = .ok img ∧ ∀ (x y : ℕ) (c : Fin 3), x < w → y < h →
      (sumWeight fl flt w h spp obs x y = 0 → img x y c = 0) ∧
      (0 < sumWeight fl flt w h spp obs x y →
        (1 - u) ^ (reached fl flt w h spp obs x y + 2) / (1 + u) ^ reached fl flt w h spp obs x y *
            (sumRadiance fl flt w h spp obs x y c / sumWeight fl flt w h spp obs x y) ≤ img x y c ∧
        img x y c ≤ (1 + u) ^ (reached fl flt w h spp obs x y + 2) / (1 - u) ^ reached fl flt w h spp obs x y *
            (sumRadiance fl flt w h spp obs x y c / sumWeight fl flt w h spp obs x y)) := by
  have hR : RelErr u fl := hf
  obtain ⟨b, e, hb⟩ := accumulate_fl fl flt w h hw hh obs (renderOrder spp w h) (fun _ _ _ => 0)
  refine ⟨normalize fl b, by simp [render, e], fun x y c hx hy => ?_⟩
  set L := (renderOrder spp w h).filter fun q => decide (Visited fl flt w h obs x y q) with hL
  have hmem : ∀ q ∈ L, Meets fl flt obs x y q.1 q.2.1 q.2.2 := by
    intro q hq
    rw [hL, List.mem_filter] at hq
    exact (visited_iff fl flt w h hw hh obs x y hx hy q).1 (by simpa using hq.2)
  have hlen : L.length = reached fl flt w h spp obs x y := by
    rw [hL, length_filter, sum_renderOrder_nat]
    unfold reached
    refine sum_congr rfl fun k _ => sum_congr rfl fun i _ => sum_congr rfl fun j _ => ?_
    exact if_congr (visited_iff fl flt w h hw hh obs x y hx hy (k, i, j)) rfl rfl
  have hsum : ∀ g : ℕ × ℕ × ℕ → K,
      (L.map fun q => seenWeight fl flt obs x y q * g q).sum =
        ∑ k ∈ range spp, ∑ i ∈ range h, ∑ j ∈ range w, weightOf fl flt obs x y k i j * g (k, i, j) := by
    intro g
    rw [hL, sum_filter_ite (Visited fl flt w h obs x y), sum_renderOrder]
    refine sum_congr rfl fun k _ => sum_congr rfl fun i _ => sum_congr rfl fun j _ => ?_
    have hv := visited_iff fl flt w h hw hh obs x y hx hy (k, i, j)
    by_cases hm : Meets fl flt obs x y k i j
    · rw [if_pos (hv.2 hm), seenWeight_eq fl flt obs x y (k, i, j) hm]
    · rw [if_neg (fun h' => hm (hv.1 h')), weightOf, if_neg hm, zero_mul]
  have hnn : ∀ q, 0 ≤ seenWeight fl flt obs x y q := fun q => hflt _ _
  have h1u : (0 : K) < 1 - u := by linarith
  have h1u' : (0 : K) < 1 + u := by linarith
  -- the weight
  have b3 := hb x y 3
  have t3 : ∀ q, term fl (seenWeight fl flt obs x y q) (obs q.1 q.2.1 q.2.2).rad 3 = seenWeight fl flt obs x y q * 1 := by
    intro q; simp [term]
  simp only [t3] at b3
  have w3 := fold_bounds hR hu0 hu1 (fun q => seenWeight fl flt obs x y q * 1) L
    (fun q _ => by rw [mul_one]; exact hnn q) 0 le_rfl
  rw [← b3, zero_add, hsum (fun _ => 1), hlen] at w3
  have hW : (∑ k ∈ range spp, ∑ i ∈ range h, ∑ j ∈ range w, weightOf fl flt obs x y k i j * 1) =
      sumWeight fl flt w h spp obs x y := by simp [sumWeight]
  rw [hW] at w3
  -- the channel
  have bc := hb x y c.castSucc
  have tc : ∀ q, term fl (seenWeight fl flt obs x y q) (obs q.1 q.2.1 q.2.2).rad c.castSucc =
      fl (seenWeight fl flt obs x y q * (obs q.1 q.2.1 q.2.2).rad c) := by
    intro q; simp [term]
  simp only [tc] at bc
  have hprod : ∀ q : ℕ × ℕ × ℕ, 0 ≤ seenWeight fl flt obs x y q * (obs q.1 q.2.1 q.2.2).rad c :=
    fun q => mul_nonneg (hnn q) (hr _ _ _ _)
  have wc := fold_bounds hR hu0 hu1 (fun q => fl (seenWeight fl flt obs x y q * (obs q.1 q.2.1 q.2.2).rad c)) L
    (fun q _ => le_trans (mul_nonneg h1u.le (hprod q)) (hR.bounds (hprod q)).1) 0 le_rfl
  rw [← bc, zero_add, hlen] at wc
  have lo : (1 - u) * sumRadiance fl flt w h spp obs x y c ≤
      (L.map fun q => fl (seenWeight fl flt obs x y q * (obs q.1 q.2.1 q.2.2).rad c)).sum := by
    have := sum_mono (fun q => (1 - u) * (seenWeight fl flt obs x y q * (obs q.1 q.2.1 q.2.2).rad c)) _ L
      fun q _ => (hR.bounds (hprod q)).1
    rwa [List.sum_map_mul_left, hsum (fun q => (obs q.1 q.2.1 q.2.2).rad c)] at this
  have hi : (L.map fun q => fl (seenWeight fl flt obs x y q * (obs q.1 q.2.1 q.2.2).rad c)).sum ≤
      (1 + u) * sumRadiance fl flt w h spp obs x y c := by
    have := sum_mono _ (fun q => (1 + u) * (seenWeight fl flt obs x y q * (obs q.1 q.2.1 q.2.2).rad c)) L
      fun q _ => (hR.bounds (hprod q)).2
    rwa [List.sum_map_mul_left, hsum (fun q => (obs q.1 q.2.1 q.2.2).rad c)] at this
  set n := reached fl flt w h spp obs x y
  set W := sumWeight fl flt w h spp obs x y
  set R := sumRadiance fl flt w h spp obs x y c with hRdef
  have hR0 : 0 ≤ R := by
    rw [hRdef, sumRadiance]
    refine sum_nonneg fun k _ => sum_nonneg fun i _ => sum_nonneg fun j _ => mul_nonneg ?_ (hr _ _ _ _)
    unfold weightOf
    split_ifs
    · exact hflt _ _
    · exact le_rfl
  have pl : 0 < (1 - u) ^ n := pow_pos h1u n
  have pu : 0 < (1 + u) ^ n := pow_pos h1u' n
  have c1 : (1 - u) ^ (n + 1) * R ≤ b x y c.castSucc := by
    rw [pow_succ, mul_assoc]
    exact le_trans (mul_le_mul_of_nonneg_left lo pl.le) wc.1
  have c2 : b x y c.castSucc ≤ (1 + u) ^ (n + 1) * R := by
    rw [pow_succ, mul_assoc]
    exact le_trans wc.2 (mul_le_mul_of_nonneg_left hi pu.le)
  constructor
  · intro h0
    rw [h0, mul_zero, mul_zero] at w3
    unfold normalize
    rw [if_pos (le_antisymm w3.2 w3.1)]
  · intro hWp
    have hb3 : 0 < b x y 3 := lt_of_lt_of_le (mul_pos pl hWp) w3.1
    unfold normalize
    rw [if_neg hb3.ne']
    have hq0 : 0 ≤ b x y c.castSucc / b x y 3 :=
      div_nonneg (le_trans (mul_nonneg (pow_pos h1u _).le hR0) c1) hb3.le
    obtain ⟨q1, q2⟩ := hR.bounds hq0
    constructor
    · refine le_trans ?_ q1
      have : (1 - u) ^ (n + 1) * R / ((1 + u) ^ n * W) ≤ b x y c.castSucc / b x y 3 :=
        div_le_div₀ (le_trans (mul_nonneg (pow_pos h1u _).le hR0) c1) c1 hb3 w3.2
      have h2 := mul_le_mul_of_nonneg_left this h1u.le
      refine le_trans (le_of_eq ?_) h2
      field_simp
      ring
    · refine le_trans q2 ?_
      have : b x y c.castSucc / b x y 3 ≤ (1 + u) ^ (n + 1) * R / ((1 - u) ^ n * W) :=
        div_le_div₀ (mul_nonneg (pow_pos h1u' _).le hR0) c2 (mul_pos pl hWp) w3.1
      have h2 := mul_le_mul_of_nonneg_left this h1u'.le
      refine le_trans h2 (le_of_eq ?_)
      field_simp
      ring

private theorem single_last (w : ℕ) (hw : w ≤ 2 ^ 24) : single ((w : K) - 1) = (w : K) - 1 := by
  have := single_int (K := K) ((w : ℤ) - 1) (by rw [abs_le]; constructor <;> omega)
  push_cast at this
  exact this

/-- The two factors, for relative errors that add up to at most one half. -/
private theorem factors (u : K) (hu0 : 0 ≤ u) (n : ℕ) (hn : (2 * n + 2) * u ≤ 1 / 2) :
    1 - 2 * ((2 * n + 2) * u) ≤ (1 - u) ^ (n + 2) / (1 + u) ^ n ∧
    (1 + u) ^ (n + 2) / (1 - u) ^ n ≤ 1 + 2 * ((2 * n + 2) * u) := by
  have hnn : (0 : K) ≤ n := Nat.cast_nonneg n
  have hu : u ≤ 1 / 4 := by nlinarith [mul_nonneg hnn hu0]
  have h1 : (0 : K) < 1 - u := by linarith
  have h2 : (0 : K) < 1 + u := by linarith
  have hmul : (1 + u) * (1 - u) ≤ 1 := by nlinarith
  have hber := one_add_mul_le_pow (a := -u) (by linarith) (2 * n + 2)
  push_cast at hber
  rw [← sub_eq_add_neg] at hber
  have ha : 0 ≤ (2 * (n : K) + 2) * u := by positivity
  constructor
  · rw [le_div_iff₀ (pow_pos h2 n)]
    have hp : (1 - u) ^ (2 * n + 2) * (1 + u) ^ n ≤ (1 - u) ^ (n + 2) := by
      have e : (1 - u) ^ (2 * n + 2) * (1 + u) ^ n = (1 - u) ^ (n + 2) * ((1 + u) * (1 - u)) ^ n := by
        rw [mul_pow]; ring
      rw [e]
      exact mul_le_of_le_one_right (pow_pos h1 _).le (pow_le_one₀ (mul_pos h2 h1).le hmul)
    refine le_trans (mul_le_mul_of_nonneg_right ?_ (pow_pos h2 n).le) hp
    linarith
  · rw [div_le_iff₀ (pow_pos h1 n)]
    have hp : (1 + u) ^ (n + 2) * (1 - u) ^ (n + 2) ≤ 1 := by
      rw [← mul_pow]; exact pow_le_one₀ (mul_pos h2 h1).le hmul
    have hk : 1 ≤ (1 + 2 * ((2 * n + 2) * u)) * (1 - u) ^ (2 * n + 2) := by
      have : 1 ≤ (1 + 2 * ((2 * n + 2) * u)) * (1 - (2 * n + 2) * u) := by nlinarith
      refine le_trans this (mul_le_mul_of_nonneg_left ?_ (by linarith))
      linarith
    have hq : 0 < (1 - u) ^ (n + 2) := pow_pos h1 _
    refine le_of_mul_le_mul_right ?_ hq
    refine le_trans hp (le_trans hk (le_of_eq ?_))
    ring

/-- **C119, single precision.** In an image with at most `2^24` rows and columns, with a non-negative filter and
radiance, a pixel met by `n` samples, `n < 2^22`, is within a relative error of `(n+1) / 2^22` of the weighted mean of
the samples. -/
theorem pixel_single (flt : Filter K) (hflt : ∀ x y, 0 ≤ flt.eval x y) (w h spp : ℕ) (hw : w ≤ 2 ^ 24)
    (hh : h ≤ 2 ^ 24) (obs : ℕ → ℕ → ℕ → Obs K) (hr : ∀ k i j c, 0 ≤ (obs k i j).rad c) :
    ∃ img, render single flt w h spp obs = .ok img ∧ ∀ (x y : ℕ) (c : Fin 3), x < w → y < h →
      (sumWeight single flt w h spp obs x y = 0 → img x y c = 0) ∧
      (0 < sumWeight single flt w h spp obs x y → reached single flt w h spp obs x y < 2 ^ 22 →
        |img x y c - sumRadiance single flt w h spp obs x y c / sumWeight single flt w h spp obs x y| ≤
          ((reached single flt w h spp obs x y : K) + 1) / 2 ^ 22 *
            (sumRadiance single flt w h spp obs x y c / sumWeight single flt w h spp obs x y)) := by
  obtain ⟨img, e, hi⟩ := pixel_rounding (1 / 2 ^ 24 : K) (by positivity) (by norm_num) single single_err flt hflt w h spp
    (single_last w hw) (single_last h hh) obs hr
  refine ⟨img, e, fun x y c hx hy => ⟨(hi x y c hx hy).1, fun hW hn => ?_⟩⟩
  obtain ⟨l, r⟩ := (hi x y c hx hy).2 hW
  set n := reached single flt w h spp obs x y
  have hA : 0 ≤ sumRadiance single flt w h spp obs x y c / sumWeight single flt w h spp obs x y := by
    refine div_nonneg ?_ hW.le
    unfold sumRadiance
    refine sum_nonneg fun k _ => sum_nonneg fun i _ => sum_nonneg fun j _ => mul_nonneg ?_ (hr _ _ _ _)
    unfold weightOf
    split_ifs
    · exact hflt _ _
    · exact le_rfl
  set A := sumRadiance single flt w h spp obs x y c / sumWeight single flt w h spp obs x y
  have hn' : (n : K) + 1 ≤ 2 ^ 22 := by exact_mod_cast hn
  obtain ⟨f1, f2⟩ := factors (1 / 2 ^ 24 : K) (by positivity) n (by
    rw [mul_one_div, div_le_iff₀ (by positivity)]; norm_num at hn' ⊢; linarith)
  have e2 : 2 * ((2 * (n : K) + 2) * (1 / 2 ^ 24)) = ((n : K) + 1) / 2 ^ 22 := by
    rw [eq_div_iff (by positivity)]; ring
  rw [e2] at f1 f2
  have l2 := le_trans (mul_le_mul_of_nonneg_right f1 hA) l
  have r2 := le_trans r (mul_le_mul_of_nonneg_right f2 hA)
  rw [abs_le]
  constructor <;> nlinarith

/-- **C119, constant scenes.** Where all samples have the value `v ≥ 0`, the pixel is `v` up to the same error. -/
theorem constant_single (flt : Filter K) (hflt : ∀ x y, 0 ≤ flt.eval x y) (w h spp : ℕ) (hw : w ≤ 2 ^ 24)
    (hh : h ≤ 2 ^ 24) (obs : ℕ → ℕ → ℕ → Obs K) (v : Fin 3 → K) (hv : ∀ c, 0 ≤ v c)
    (hr : ∀ k i j, (obs k i j).rad = v) :
    ∃ img, render single flt w h spp obs = .ok img ∧ ∀ (x y : ℕ) (c : Fin 3), x < w → y < h →
      0 < sumWeight single flt w h spp obs x y → reached single flt w h spp obs x y < 2 ^ 22 →
        |img x y c - v c| ≤ ((reached single flt w h spp obs x y : K) + 1) / 2 ^ 22 * v c := by
  obtain ⟨img, e, hi⟩ := pixel_single flt hflt w h spp hw hh obs (fun k i j c => by rw [hr]; exact hv c)
  refine ⟨img, e, fun x y c hx hy hW hn => ?_⟩
  have h1 := (hi x y c hx hy).2 hW hn
  have : sumRadiance single flt w h spp obs x y c = sumWeight single flt w h spp obs x y * v c := by
    unfold sumRadiance sumWeight
    simp only [hr, sum_mul]
  rwa [this, mul_div_cancel_left₀ _ hW.ne'] at h1

/-- Non-vacuity: one pixel, three samples in its middle. -/
example : 0 < sumWeight (K := ℚ) single defaultBox 1 1 3 (fun _ _ _ => ⟨1 / 2, 1 / 2, fun _ => 5⟩) 0 0 ∧
    reached (K := ℚ) single defaultBox 1 1 3 (fun _ _ _ => ⟨1 / 2, 1 / 2, fun _ => 5⟩) 0 0 < 2 ^ 22 := by
  have half : single (1 / 2 : ℚ) = 1 / 2 := by
    have := single_rep (K := ℚ) 1 (-1) (by norm_num)
    norm_num at this ⊢
    exact this
  have one : single (1 / 2 + 1 / 2 : ℚ) = 1 := by
    have := single_int (K := ℚ) 1 (by norm_num); norm_num at this ⊢; exact this
  have hm : ∀ k i, Meets (K := ℚ) single defaultBox (fun _ _ _ => ⟨1 / 2, 1 / 2, fun _ => 5⟩) 0 0 k i 0 ↔
      (0 : ℚ) ≤ single (single ((i : ℚ) + 1 / 2) + 1 / 2) ∧ single (single ((i : ℚ) + 1 / 2) - 1 / 2) < 1 := by
    intro k i
    unfold Meets putX putY
    simp only [defaultBox, boxFilter, Nat.cast_zero, zero_add, half, one, sub_self, single_zero]
    norm_num
  have hw : ∀ k, weightOf (K := ℚ) single defaultBox (fun _ _ _ => ⟨1 / 2, 1 / 2, fun _ => 5⟩) 0 0 k 0 0 = 1 := by
    intro k
    unfold weightOf
    rw [if_pos ((hm k 0).2 (by simp only [Nat.cast_zero, zero_add, half, one, sub_self, single_zero]; norm_num))]
    simp only [putX, putY, Nat.cast_zero, zero_add, half, sub_self, single_zero]
    simp [defaultBox, boxFilter, boxEval]
  constructor
  · simp only [sumWeight, sum_range_one, hw]
    simp
  · refine lt_of_le_of_lt (b := 3) ?_ (by norm_num)
    unfold reached
    simp only [sum_range_one]
    refine le_trans (sum_le_sum fun k _ => (by split_ifs <;> omega : _ ≤ 1)) ?_
    simp

/-- **C03, single precision.** Images with up to `2^24` rows and columns are rendered without touching memory outside
the image, for every filter and all samples. -/
theorem render_single_in_bounds (flt : Filter K) (w h spp : ℕ) (hw : w ≤ 2 ^ 24) (hh : h ≤ 2 ^ 24)
    (obs : ℕ → ℕ → ℕ → Obs K) : ∃ img, render single flt w h spp obs = .ok img :=
  render_in_bounds single flt w h spp (single_last w hw) (single_last h hh) obs

/-- **C05, single precision.** Non-negative radiance gives a non-negative image. -/
theorem render_single_nonneg (flt : Filter K) (hf : ∀ x y, 0 ≤ flt.eval x y) (w h spp : ℕ) (hw : w ≤ 2 ^ 24)
    (hh : h ≤ 2 ^ 24) (obs : ℕ → ℕ → ℕ → Obs K) (hr : ∀ k i j c, 0 ≤ (obs k i j).rad c) :
    ∃ img, render single flt w h spp obs = .ok img ∧ ∀ x y c, 0 ≤ img x y c :=
  render_nonneg single single_mono single_zero flt hf w h spp (single_last w hw) (single_last h hh) obs hr

/-! ### Images wider than `2^24` -/

private theorem single_of (x : K) (L m : ℤ) (hL : (2 : K) ^ L ≤ x ∧ x < 2 ^ (L + 1))
    (hm : nearest (x / 2 ^ (L - 23)) = m) : single x = m * 2 ^ (L - 23) := by
  have hx : 0 < x := lt_of_lt_of_le (two_zpow_pos L) hL.1
  have hl : Int.log 2 |x| = L := by
    rw [abs_of_pos hx]
    have b := log_bounds hx.ne'
    rw [abs_of_pos hx] at b
    have o : (1 : K) < 2 := one_lt_two
    have h1 : L < Int.log 2 x + 1 := (zpow_lt_zpow_iff_right₀ o).1 (lt_of_le_of_lt hL.1 b.2)
    have h2 : Int.log 2 x < L + 1 := (zpow_lt_zpow_iff_right₀ o).1 (lt_of_le_of_lt b.1 hL.2)
    omega
  unfold single
  have hs : spacing x = 2 ^ (L - 23) := by unfold spacing; rw [hl]
  rw [if_neg hx.ne', hs, hm]

private theorem single_24 (x : K) (m : ℤ) (hL : (16777216 : K) ≤ x ∧ x < 33554432) (hm : nearest (x / 2) = m) :
    single x = m * 2 := by
  have := single_of x 24 m (by norm_num; exact hL) (by norm_num; exact hm)
  norm_num at this
  exact this

private theorem nearest_up (x : K) (m : ℤ) (h1 : (m : K) - 1 / 2 < x) (h2 : x < m + 1 / 2) : nearest x = m := by
  have := nearest_err x
  rw [abs_le] at this
  have a : ((nearest x : ℤ) : K) < ((m + 1 : ℤ) : K) := by push_cast; linarith
  have b : ((m - 1 : ℤ) : K) < ((nearest x : ℤ) : K) := by push_cast; linarith
  have a' : nearest x < m + 1 := by exact_mod_cast a
  have b' : m - 1 < nearest x := by exact_mod_cast b
  omega

/-- `2^24 + 3` is halfway and is rounded up, and everything up to `2^24 + 5` is rounded to the same number. -/
private theorem single_wide (x : K) (h1 : (16777219 : K) ≤ x) (h2 : x < 16777221) : single x = 16777220 := by
  rcases h1.lt_or_eq with h | h
  · rw [single_24 x 8388610 ⟨by linarith, by linarith⟩ (nearest_up _ _ (by push_cast; linarith) (by push_cast; linarith))]
    norm_num
  · subst h
    have hf : ⌊(16777219 : K) / 2⌋ = 8388609 := by
      rw [Int.floor_eq_iff]; constructor <;> norm_num
    rw [single_24 _ 8388610 ⟨by norm_num, by norm_num⟩ (by
      unfold nearest
      rw [hf, if_neg (by norm_num), if_neg (by norm_num), if_neg (by decide)]
      norm_num)]
    norm_num

/-- **C03 refuted for very wide images.** An image of `2^24 + 4` columns: the last column index is rounded up to the
width, the samples of the last column are rounded to the width too, and the renderer writes to the column after the
last one. No render of such an image is defined. -/
theorem wide_image_refuted (h spp : ℕ) (hh : 0 < h) (hh' : h ≤ 2 ^ 24) (hspp : 0 < spp) (obs : ℕ → ℕ → ℕ → Obs K)
    (hu : ∀ k i j, 0 ≤ (obs k i j).u ∧ (obs k i j).u < 1) (hv : ∀ k i j, 0 ≤ (obs k i j).v ∧ (obs k i j).v < 1) :
    ¬ ∃ img, render single defaultBox (2 ^ 24 + 4) h spp obs = .ok img := by
  rintro ⟨img, himg⟩
  unfold render at himg
  obtain ⟨b, hb, -⟩ := Res.bind_eq_ok.1 himg
  unfold accumulate at hb
  obtain ⟨c, c', h1⟩ := foldlM_steps _ _ _ _ hb (0, 0, 16777219) (by
    unfold renderOrder
    simp only [List.mem_flatMap, List.mem_map, List.mem_range]
    exact ⟨0, hspp, 0, hh, 16777219, by norm_num, rfl⟩)
  unfold sampleOnce splat at h1
  have hpx : single (((16777219 : ℕ) : K) + (obs 0 0 16777219).u) = 16777220 := by
    have := hu 0 0 16777219
    exact single_wide _ (by push_cast; linarith) (by push_cast; linarith)
  have hx : (16777220 : ℤ) ∈ splatRange single (16777220 : K) (1 / 2) (2 ^ 24 + 4) := by
    unfold splatRange
    rw [mem_intRange, single_wide (16777220 - 1 / 2 : K) (by norm_num) (by norm_num),
      single_wide (16777220 + 1 / 2 : K) (by norm_num) (by norm_num),
      single_wide (((2 ^ 24 + 4 : ℕ) : K) - 1) (by norm_num) (by norm_num)]
    unfold clipMin clipMax
    rw [if_neg (by norm_num), if_neg (by norm_num)]
    have : ⌊(16777220 : K)⌋ = 16777220 := by rw [Int.floor_eq_iff]; norm_num
    rw [this]
    exact ⟨le_rfl, le_rfl⟩
  have hhalf : single (1 / 2 : K) = 1 / 2 := by
    have := single_rep (K := K) 1 (-1) (by norm_num)
    norm_num at this ⊢
    exact this
  have hy : (0 : ℤ) ∈ splatRange single (single (((0 : ℕ) : K) + (obs 0 0 16777219).v)) (1 / 2) h := by
    have hv0 := hv 0 0 16777219
    have s0 : 0 ≤ single (((0 : ℕ) : K) + (obs 0 0 16777219).v) := single_nonneg (by push_cast; linarith)
    have s1 : single (((0 : ℕ) : K) + (obs 0 0 16777219).v) ≤ 1 := by
      have e1 : single (1 : K) = 1 := by
        have := single_int (K := K) 1 (by norm_num); norm_num at this ⊢; exact this
      rw [← e1]
      exact single_mono (by push_cast; linarith)
    rw [mem_splatRange_fl single _ _ h (single_last h hh') 0 le_rfl (by omega)]
    generalize single (((0 : ℕ) : K) + (obs 0 0 16777219).v) = p at s0 s1 ⊢
    refine ⟨by rw [Int.cast_zero]; exact single_nonneg (by linarith), ?_⟩
    have : single (p - 1 / 2) ≤ single (1 / 2) := single_mono (by linarith)
    rw [hhalf] at this
    rw [Int.cast_zero]
    linarith
  obtain ⟨d, d', h2⟩ := foldlM_steps _ _ _ _ h1 ((16777220 : ℤ), (0 : ℤ)) (by
    rw [mem_pixels]
    refine ⟨?_, ?_⟩
    · exact hy
    · simp only [hpx]; exact hx)
  unfold addAt at h2
  rw [if_neg (by norm_num)] at h2
  exact absurd h2 (by simp)

/-! ### Very many samples -/

private theorem single_tie : single (16777217 : K) = 16777216 := by
  have hf : ⌊(16777217 : K) / 2⌋ = 8388608 := by
    rw [Int.floor_eq_iff]; constructor <;> norm_num
  rw [single_24 _ 8388608 ⟨by norm_num, by norm_num⟩ (by
    unfold nearest
    rw [hf, if_neg (by norm_num), if_neg (by norm_num), if_pos (by decide)])]
  norm_num

private theorem count_up (n : ℕ) (hn : n ≤ 2 ^ 24) (f : ℕ → K) (hf : ∀ k < n, f k = 1) :
    (List.range n).foldl (fun acc k => single (acc + f k)) 0 = n := by
  induction n with
  | zero => simp
  | succ n ih =>
    rw [List.range_succ, List.foldl_append, ih (by omega) (fun k hk => hf k (by omega)), List.foldl_cons, List.foldl_nil,
      hf n (by omega)]
    have := single_nat (K := K) (n + 1) hn
    push_cast at this ⊢
    exact this

private theorem count_stuck (m : ℕ) (f : ℕ → K) (hf : ∀ k < 2 ^ 24, f k = 1)
    (hs : ∀ k, 2 ^ 24 ≤ k → f k = 1 ∨ f k = 0) :
    (List.range (2 ^ 24 + m)).foldl (fun acc k => single (acc + f k)) 0 = (16777216 : K) := by
  induction m with
  | zero => rw [add_zero, count_up (2 ^ 24) le_rfl f hf]; norm_num
  | succ m ih =>
    rw [← add_assoc, List.range_succ, List.foldl_append, ih, List.foldl_cons, List.foldl_nil]
    rcases hs (2 ^ 24 + m) (by omega) with h | h
    · rw [h]
      have : (16777216 : K) + 1 = 16777217 := by norm_num
      rw [this, single_tie]
    · rw [h, add_zero]
      have := single_int (K := K) 16777216 (by norm_num)
      exact_mod_cast this

/-- Samples in the middle of one pixel: `2^24` white ones, then only black ones. -/
def fading : ℕ → ℕ → ℕ → Obs K := fun k _ _ => ⟨1 / 2, 1 / 2, fun _ => if k < 2 ^ 24 then 1 else 0⟩

private theorem renderOrder_one (spp : ℕ) : renderOrder spp 1 1 = (List.range spp).map fun k => (k, 0, 0) := by
  unfold renderOrder
  simp [← List.map_eq_flatMap]

/-- **C119, more samples need not help.** A one pixel image with the box filter: after `2^24` white samples no number of
black samples darkens it. The exact mean of the same samples goes to zero. -/
theorem saturated_refuted :
    ∀ m, (∃ img, render (K := K) single defaultBox 1 1 (2 ^ 24 + m) fading = .ok img ∧ ∀ c, img 0 0 c = 1) ∧
      ∃ img, render (K := K) id defaultBox 1 1 (2 ^ 24 + m) fading = .ok img ∧ ∀ c, img 0 0 c = 2 ^ 24 / (2 ^ 24 + m) := by
  have half : single (1 / 2 : K) = 1 / 2 := by
    have := single_rep (K := K) 1 (-1) (by norm_num)
    norm_num at this ⊢
    exact this
  have one : single (1 : K) = 1 := by
    have := single_int (K := K) 1 (by norm_num); norm_num at this; exact this
  intro m
  constructor
  · obtain ⟨b, e, hb⟩ := accumulate_fl (K := K) single defaultBox 1 1 (single_last 1 (by norm_num))
      (single_last 1 (by norm_num)) fading (renderOrder (2 ^ 24 + m) 1 1) (fun _ _ _ => 0)
    refine ⟨normalize single b, by simp only [render, e]; rfl, fun c => ?_⟩
    have hvis : ∀ k, Visited (K := K) single defaultBox 1 1 fading 0 0 (k, 0, 0) := by
      intro k
      have hr : (0 : ℤ) ∈ splatRange single (1 / 2 : K) (1 / 2) 1 := by
        rw [mem_splatRange_fl single _ _ 1 (single_last 1 (by norm_num)) 0 le_rfl (by norm_num)]
        have e1 : (1 / 2 + 1 / 2 : K) = 1 := by norm_num
        rw [e1, one, sub_self, single_zero]
        norm_num
      unfold Visited
      simp only [place, fading, Nat.cast_zero, zero_add, half]
      exact ⟨hr, hr⟩
    have hwt : ∀ k, seenWeight (K := K) single defaultBox fading 0 0 (k, 0, 0) = 1 := by
      intro k
      unfold seenWeight
      simp only [place, fading, Nat.cast_zero, Int.cast_zero, zero_add, half, sub_self, single_zero]
      simp [defaultBox, boxFilter, boxEval]
    have hfil : (renderOrder (2 ^ 24 + m) 1 1).filter
        (fun q => decide (Visited (K := K) single defaultBox 1 1 fading 0 0 q)) = renderOrder (2 ^ 24 + m) 1 1 := by
      rw [List.filter_eq_self]
      intro q hq
      rw [renderOrder_one, List.mem_map] at hq
      obtain ⟨k, -, rfl⟩ := hq
      exact decide_eq_true (hvis k)
    have fold : ∀ c : Fin 4, b 0 0 c = 16777216 := by
      intro c
      rw [hb 0 0 c, hfil, renderOrder_one, List.foldl_map]
      refine count_stuck m (fun k => term single (seenWeight single defaultBox fading 0 0 (k, 0, 0)) (fading k 0 0).rad c)
        ?_ ?_
      · intro k hk
        simp only [hwt, term, fading, if_pos hk, mul_one, one]
        split_ifs <;> rfl
      · intro k hk
        simp only [hwt, term, fading, if_neg (not_lt.2 hk), mul_zero, single_zero]
        split_ifs
        · exact .inr rfl
        · exact .inl rfl
    unfold normalize
    rw [fold, fold, if_neg (by norm_num), div_self (by norm_num), one]
  · obtain ⟨img, e, hi⟩ := render_pixel_eq (K := K) defaultBox (by
      intro x y h
      simp only [defaultBox, boxFilter, boxEval] at h ⊢
      rw [if_neg]
      rintro ⟨h1, h2⟩
      rcases h with h | h
      · linarith
      · linarith) 1 1 (2 ^ 24 + m) fading
    refine ⟨img, e, fun c => ?_⟩
    have := hi 0 0 c (by norm_num) (by norm_num)
    simp only [Nat.cast_zero] at this
    rw [this]
    have hsw : ∀ k, sampleWeight (K := K) defaultBox fading 0 0 k 0 0 = 1 := by
      intro k; simp [sampleWeight, samplePos, defaultBox, boxFilter, boxEval, fading]
    have hW : totalWeight (K := K) defaultBox 1 1 (2 ^ 24 + m) fading 0 0 = 2 ^ 24 + m := by
      simp [totalWeight, hsw]; norm_num
    have hRR : totalRadiance (K := K) defaultBox 1 1 (2 ^ 24 + m) fading 0 0 c = 2 ^ 24 := by
      simp only [totalRadiance, sum_range_one, hsw, one_mul, fading]
      rw [sum_range_add, sum_congr rfl (g := fun _ => (1 : K)) (fun k hk => if_pos (mem_range.1 hk)),
        sum_congr rfl (s₁ := range m) (g := fun _ => (0 : K)) (fun k _ => if_neg (by omega))]
      simp; norm_num
    rw [hW, hRR, if_neg (by positivity)]

/-! ### Choosing a light in single precision -/

/-- **C09, single precision.** With at most `2^24` lights and any random number that a `float` below one can hold, the
rounded product selects an existing light. -/
theorem naive_selection_single (n : ℕ) (hn0 : 0 < n) (hn : n ≤ 2 ^ 24) (u : K) (hu0 : 0 ≤ u) (hu1 : u ≤ 1 - 1 / 2 ^ 24) :
    0 ≤ Sampling.truncInt (single (u * n)) ∧ Sampling.truncInt (single (u * n)) < n := by
  have hnp : (0 : K) < n := by exact_mod_cast hn0
  have hn1 : (1 : K) ≤ n := by exact_mod_cast hn0
  have hn24 : (n : K) ≤ 2 ^ 24 := by exact_mod_cast hn
  set x : K := n * (1 - 1 / 2 ^ 24) with hx
  have hxp : 0 < x := by rw [hx]; apply mul_pos hnp; norm_num
  have hlt : single x < n := by
    obtain ⟨p1, p2⟩ := log_bounds hxp.ne'
    have herr := single_err_spacing x
    have hsp : spacing x = (2 : K) ^ (Int.log 2 |x| - 23) := rfl
    rw [abs_of_pos hxp] at p1 p2 hsp
    set L := Int.log 2 x
    have e1 : (2 : K) ^ L = 2 ^ (L - 23) * 2 ^ 23 := by
      rw [← zpow_natCast, ← zpow_add₀ two_ne_zero]; norm_num
    by_contra hcon
    push Not at hcon
    rw [abs_le] at herr
    have hd : (n : K) / 2 ^ 24 ≤ 2 ^ L / 2 ^ 24 := by
      have h1 : (n : K) - x = n / 2 ^ 24 := by rw [hx]; ring
      have h2 : (2 : K) ^ L / 2 ^ 24 = spacing x / 2 := by rw [hsp, e1]; norm_num; ring
      rw [← h1, h2]; linarith [herr.2]
    have hle : (n : K) ≤ 2 ^ L := by
      rwa [div_le_div_iff_of_pos_right (by norm_num)] at hd
    have : x < n := by rw [hx]; norm_num; linarith
    linarith
  have hmono : single (u * n) ≤ single x := single_mono (by rw [hx, mul_comm]; exact mul_le_mul_of_nonneg_left hu1 hnp.le)
  have h1 : 0 ≤ single (u * n) := single_nonneg (mul_nonneg hu0 hnp.le)
  have h2 : single (u * n) < n := lt_of_le_of_lt hmono hlt
  unfold Sampling.truncInt
  rw [if_pos h1]
  exact ⟨Int.floor_nonneg.mpr h1, by rw [Int.floor_lt]; exact_mod_cast h2⟩

/-- Non-vacuity: the largest `float` below one, with a million lights. -/
example : Sampling.truncInt (single ((1 - 1 / 2 ^ 24 : ℚ) * (10 ^ 6 : ℕ))) < (10 ^ 6 : ℕ) :=
  (naive_selection_single (10 ^ 6) (by norm_num) (by norm_num) _ (by norm_num) le_rfl).2

end Feign.Image
