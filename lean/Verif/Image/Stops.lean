import Verif.Image.Filters
import Verif.Math.SingleLemmas
import Mathlib.Tactic.Ring
import Mathlib.Tactic.FieldSimp

/-!
# C123 with rounding: whole stops

Doubling or halving the light any number of times (a whole number of stops, for each channel) scales the image exactly,
also in single precision: nothing rounds differently. Other factors do change the rounding.
-/

set_option linter.unusedSectionVars false
set_option linter.unusedVariables false
set_option linter.unusedSimpArgs false

namespace Feign

variable {K : Type} [Field K] [LinearOrder K] [IsStrictOrderedRing K] [FloorRing K]

private theorem log_stops {x : K} (hx : 0 < x) (k : ℤ) : Int.log 2 ((2 : K) ^ k * x) = k + Int.log 2 x := by
  have h2 : (0 : K) < 2 ^ k := zpow_pos two_pos k
  have hp : 0 < (2 : K) ^ k * x := mul_pos h2 hx
  have two : (2 : K) ≠ 0 := two_ne_zero
  apply le_antisymm
  · rw [← Int.lt_add_one_iff, ← Int.lt_zpow_iff_log_lt one_lt_two hp]
    have := Int.lt_zpow_succ_log_self (b := 2) one_lt_two x
    push_cast at this ⊢
    rw [add_assoc, zpow_add₀ two]
    exact mul_lt_mul_of_pos_left this h2
  · rw [← Int.zpow_le_iff_le_log one_lt_two hp]
    have := Int.zpow_log_le_self (b := 2) one_lt_two hx
    push_cast at this ⊢
    rw [zpow_add₀ two]
    exact mul_le_mul_of_nonneg_left this h2.le

/-- Rounding commutes with whole stops. -/
theorem single_stops (k : ℤ) (x : K) : single ((2 : K) ^ k * x) = 2 ^ k * single x := by
  have h2 : (0 : K) < 2 ^ k := zpow_pos two_pos k
  by_cases hx : x = 0
  · rw [hx, mul_zero, single_zero, mul_zero]
  · have hs : spacing ((2 : K) ^ k * x) = 2 ^ k * spacing x := by
      unfold spacing
      rw [abs_mul, abs_of_pos h2, log_stops (abs_pos.mpr hx), add_sub_assoc, zpow_add₀ two_ne_zero]
    have hs0 : spacing x ≠ 0 := (zpow_pos two_pos _).ne'
    unfold single
    rw [if_neg hx, if_neg (mul_ne_zero h2.ne' hx), hs, mul_div_mul_left _ _ h2.ne']
    ring

namespace Image

/-- Buffers: colours scaled by whole stops, weights equal. -/
private structure Stopped (k : Fin 3 → ℤ) (a c : Buf K) : Prop where
  colour : ∀ x y i, c x y i.castSucc = 2 ^ k i * a x y i.castSucc
  weight : ∀ x y, c x y 3 = a x y 3

/-- The same outcome, and related values. -/
private inductive Both {α : Type} (P : α → α → Prop) : Res α → Res α → Prop
  | ok {a c : α} : P a c → Both P (.ok a) (.ok c)
  | throw (e : String) : Both P (.throw e) (.throw e)
  | ub (e : String) : Both P (.ub e) (.ub e)

private theorem foldlM_both {σ α : Type} {P : σ → σ → Prop} (l : List α) {f g : σ → α → Res σ}
    (hf : ∀ a c x, P a c → Both P (f a x) (g c x)) : ∀ {a c : σ}, P a c → Both P (l.foldlM f a) (l.foldlM g c) := by
  induction l with
  | nil => intro a c h; exact .ok h
  | cons x l ih =>
    intro a c h
    simp only [List.foldlM_cons]
    have := hf a c x h
    revert this
    generalize f a x = r
    generalize g c x = t
    intro h'
    cases h' with
    | ok hv => exact ih hv
    | throw e => exact .throw e
    | ub e => exact .ub e

private theorem addAt_stops (k : Fin 3 → ℤ) (w h : ℕ) {a c : Buf K} (hb : Stopped k a c) (x y : Int) (rad : Fin 3 → K)
    (wt : K) : Both (Stopped k) (addAt single w h a x y rad wt) (addAt single w h c x y (fun i => 2 ^ k i * rad i) wt) := by
  unfold addAt
  by_cases hin : 0 ≤ x ∧ x < w ∧ 0 ≤ y ∧ y < h
  · rw [if_pos hin, if_pos hin]
    refine .ok ⟨fun x' y' i => ?_, fun x' y' => ?_⟩
    · have hi : ((i.castSucc : Fin 4) : ℕ) < 3 := by simp
      have e : (⟨((i.castSucc : Fin 4) : ℕ), hi⟩ : Fin 3) = i := by ext; simp
      by_cases hxy : x' = x ∧ y' = y
      · simp only [if_pos hxy, dif_pos hi, e, hb.colour]
        rw [mul_left_comm, single_stops, ← mul_add, single_stops]
      · simp only [if_neg hxy, hb.colour]
    · by_cases hxy : x' = x ∧ y' = y
      · simp only [if_pos hxy, hb.weight]; rfl
      · simp only [if_neg hxy, hb.weight]
  · rw [if_neg hin, if_neg hin]; exact .ub _

/-- The light at a sample, so many stops brighter in each channel. -/
def Obs.stops (k : Fin 3 → ℤ) (o : Obs K) : Obs K := { o with rad := fun i => 2 ^ k i * o.rad i }

private theorem accumulate_stops (k : Fin 3 → ℤ) (flt : Filter K) (w h : ℕ) (obs : ℕ → ℕ → ℕ → Obs K)
    (order : List (ℕ × ℕ × ℕ)) {a c : Buf K} (hb : Stopped k a c) :
    Both (Stopped k) (accumulate single flt w h obs order a)
      (accumulate single flt w h (fun n i j => (obs n i j).stops k) order c) := by
  unfold accumulate sampleOnce splat
  refine foldlM_both _ (fun a c x hac => ?_) hb
  refine foldlM_both _ (fun a c xy hac => ?_) hac
  exact addAt_stops k w h hac _ _ _ _

/-- **C123, whole stops are exact.** In single precision, with any filter: multiplying all radiance by powers of two, one
for each channel, multiplies every pixel of the image by them, exactly. -/
theorem image_stops (k : Fin 3 → ℤ) (flt : Filter K) (w h spp : ℕ) (obs : ℕ → ℕ → ℕ → Obs K) :
    render single flt w h spp (fun n i j => (obs n i j).stops k) =
      render single flt w h spp obs >>= fun img => pure fun x y c => 2 ^ k c * img x y c := by
  unfold render
  have := accumulate_stops k flt w h obs (renderOrder spp w h) (a := fun _ _ _ => 0) (c := fun _ _ _ => 0)
    ⟨fun _ _ _ => by simp, fun _ _ => rfl⟩
  revert this
  generalize accumulate single flt w h obs (renderOrder spp w h) (fun _ _ _ => 0) = r
  generalize accumulate single flt w h (fun n i j => (obs n i j).stops k) (renderOrder spp w h) (fun _ _ _ => 0) = t
  intro hv
  cases hv with
  | throw e => rfl
  | ub e => rfl
  | ok hv =>
    simp only [Res.bind_ok, Res.pure_eq, Res.ok.injEq]
    funext x y c
    unfold normalize
    rw [hv.weight, hv.colour]
    split_ifs
    · simp
    · rw [mul_div_assoc, single_stops]

/-- **C123, whole stops are exact**, rendered in tiles. -/
theorem tiles_stops (k : Fin 3 → ℤ) (flt : Filter K) (w h spp : ℕ) (obs : ℕ → ℕ → ℕ → Obs K) (tiles : List Pool.Tile)
    (img : Int → Int → Fin 3 → K) :
    renderTiles single flt w h spp (fun n i j => (obs n i j).stops k) tiles (fun x y c => 2 ^ k c * img x y c) =
      renderTiles single flt w h spp obs tiles img >>= fun img => pure fun x y c => 2 ^ k c * img x y c := by
  unfold renderTiles
  have := accumulate_stops k flt w h obs (tiles.flatMap (tileOrder spp))
    (a := fun x y c => if hc : (c : ℕ) < 3 then img x y ⟨c, hc⟩ else 0)
    (c := fun x y c => if hc : (c : ℕ) < 3 then 2 ^ k ⟨c, hc⟩ * img x y ⟨c, hc⟩ else 0)
    ⟨fun x y i => by
      have hi : ((i.castSucc : Fin 4) : ℕ) < 3 := by simp
      have e : (⟨((i.castSucc : Fin 4) : ℕ), hi⟩ : Fin 3) = i := by ext; simp
      simp only [dif_pos hi, e], fun _ _ => rfl⟩
  revert this
  generalize accumulate single flt w h obs (tiles.flatMap (tileOrder spp)) _ = r
  generalize accumulate single flt w h (fun n i j => (obs n i j).stops k) (tiles.flatMap (tileOrder spp)) _ = t
  intro hv
  cases hv with
  | throw e => rfl
  | ub e => rfl
  | ok hv =>
    simp only [Res.bind_ok, Res.pure_eq, Res.ok.injEq]
    funext x y c
    unfold normalizePool
    rw [hv.weight, hv.colour]
    split_ifs
    · rw [mul_div_assoc, single_stops]
    · rfl

/-- Two samples of one pixel, the second too weak to be noticed beside the first. -/
def faint (f : ℚ) : ℕ → ℕ → ℕ → Obs ℚ := fun n _ _ => ⟨1 / 2, 1 / 2, fun _ => if n = 0 then f else f / 2 ^ 24⟩

/-- The value of the pixel. -/
def faintPixel (f : ℚ) : Option ℚ :=
  match render single defaultBox 1 1 2 (faint f) with
  | .ok img => some (img 0 0 0)
  | _ => none

example : faintPixel 1 = some (1 / 2) ∧ faintPixel 4 = some 2 := by decide +kernel

/-- **C123 fails for other factors in single precision.** Three times the light is not three times the image: the faint sample, lost in
rounding before, now counts. All radiance values are single precision numbers. -/
theorem image_scale_refuted : ∃ (a c : ℚ), faintPixel 1 = some a ∧ faintPixel 3 = some c ∧ c ≠ 3 * a ∧
    ∀ f : ℚ, (f = 1 ∨ f = 3) → single f = f ∧ single (f / 2 ^ 24) = f / 2 ^ 24 :=
  ⟨1 / 2, 3 / 2 + 1 / 2 ^ 23, by decide +kernel, by decide +kernel, by norm_num, by
    rintro f (rfl | rfl) <;> constructor <;> decide +kernel⟩

end Image

end Feign
