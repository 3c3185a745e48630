import Verif.Image.SplatProps
import Verif.Math.SingleLemmas
import Mathlib.Algebra.Order.Ring.Pow
import Mathlib.Tactic.GCongr

/-! Helper lemmas for `Verif/Image/RoundingProps.lean`: the loops with rounding, seen from one pixel. -/

set_option linter.unusedSectionVars false

namespace Feign.Image

variable {K : Type} [Field K] [LinearOrder K] [IsStrictOrderedRing K] [FloorRing K]

/-- What is added for one sample: the rounded product, or the weight. -/
def term (fl : K → K) (wt : K) (rad : Fin 3 → K) (c : Fin 4) : K :=
  if hc : (c : ℕ) < 3 then fl (wt * rad ⟨c, hc⟩) else wt

theorem addAt_fl (fl : K → K) (w h : ℕ) (b : Buf K) (x y : Int) (rad : Fin 3 → K) (wt : K)
    (hx : 0 ≤ x ∧ x < w) (hy : 0 ≤ y ∧ y < h) :
    addAt fl w h b x y rad wt =
      .ok fun x' y' c => if x' = x ∧ y' = y then fl (b x' y' c + term fl wt rad c) else b x' y' c := by
  unfold addAt term
  rw [if_pos ⟨hx.1, hx.2, hy.1, hy.2⟩]
  congr 1
  ext x' y' c
  split_ifs <;> simp

theorem addAll_fl (fl : K → K) (w h : ℕ) (rad : Fin 3 → K) (wt : Int × Int → K) (l : List (Int × Int)) (hnd : l.Nodup)
    (hin : ∀ p ∈ l, (0 ≤ p.1 ∧ p.1 < w) ∧ (0 ≤ p.2 ∧ p.2 < h)) (b : Buf K) :
    ∃ b', l.foldlM (init := b) (fun b p => addAt fl w h b p.1 p.2 rad (wt p)) = .ok b' ∧
      ∀ x y c, b' x y c = if (x, y) ∈ l then fl (b x y c + term fl (wt (x, y)) rad c) else b x y c := by
  induction l generalizing b with
  | nil => exact ⟨b, rfl, by simp⟩
  | cons p l ih =>
    obtain ⟨hp, hnd⟩ := List.nodup_cons.1 hnd
    have h1 := hin p (by simp)
    rw [List.foldlM_cons, addAt_fl fl w h b p.1 p.2 rad (wt p) h1.1 h1.2, Res.bind_ok]
    obtain ⟨b', e, hb⟩ := ih hnd (fun q hq => hin q (by simp [hq]))
      (fun x' y' c => if x' = p.1 ∧ y' = p.2 then fl (b x' y' c + term fl (wt p) rad c) else b x' y' c)
    refine ⟨b', e, fun x y c => ?_⟩
    rw [hb]
    by_cases hxy : (x, y) = p
    · subst hxy
      rw [if_neg hp]
      simp
    · have h2 : ¬ (x = p.1 ∧ y = p.2) := fun h => hxy (Prod.ext h.1 h.2)
      simp only [if_neg h2, List.mem_cons, hxy, false_or]

/-- Rounded position of a sample. -/
def place (fl : K → K) (obs : ℕ → ℕ → ℕ → Obs K) (q : ℕ × ℕ × ℕ) : K × K :=
  (fl ((q.2.2 : K) + (obs q.1 q.2.1 q.2.2).u), fl ((q.2.1 : K) + (obs q.1 q.2.1 q.2.2).v))

/-- The pixel is visited for the sample. -/
def Visited (fl : K → K) (flt : Filter K) (w h : ℕ) (obs : ℕ → ℕ → ℕ → Obs K) (x y : Int) (q : ℕ × ℕ × ℕ) : Prop :=
  x ∈ splatRange fl (place fl obs q).1 flt.sizeX w ∧ y ∈ splatRange fl (place fl obs q).2 flt.sizeY h

instance (fl : K → K) (flt : Filter K) (w h : ℕ) (obs : ℕ → ℕ → ℕ → Obs K) (x y : Int) :
    DecidablePred (Visited fl flt w h obs x y) := fun q => by unfold Visited; infer_instance

/-- The weight evaluated for it. -/
def seenWeight (fl : K → K) (flt : Filter K) (obs : ℕ → ℕ → ℕ → Obs K) (x y : Int) (q : ℕ × ℕ × ℕ) : K :=
  flt.eval (fl (fl ((x : K) + 1 / 2) - (place fl obs q).1)) (fl (fl ((y : K) + 1 / 2) - (place fl obs q).2))

theorem splat_fl (fl : K → K) (flt : Filter K) (w h : ℕ) (hw : fl ((w : K) - 1) = (w : K) - 1)
    (hh : fl ((h : K) - 1) = (h : K) - 1) (px py : K) (rad : Fin 3 → K) (b : Buf K) :
    ∃ b', splat fl flt w h px py rad b = .ok b' ∧ ∀ x y c,
      b' x y c = if x ∈ splatRange fl px flt.sizeX w ∧ y ∈ splatRange fl py flt.sizeY h
        then fl (b x y c + term fl (flt.eval (fl (fl ((x : K) + 1 / 2) - px)) (fl (fl ((y : K) + 1 / 2) - py))) rad c)
        else b x y c := by
  obtain ⟨b', e, hb⟩ := addAll_fl fl w h rad
    (fun xy => flt.eval (fl (fl ((xy.1 : K) + 1 / 2) - px)) (fl (fl ((xy.2 : K) + 1 / 2) - py))) _
    (nodup_pixels _ _ (nodup_intRange _ _) (nodup_intRange _ _)) (by
      rintro ⟨x, y⟩ hp
      rw [mem_pixels] at hp
      exact ⟨splatRange_bounds fl px flt.sizeX w hw x hp.2, splatRange_bounds fl py flt.sizeY h hh y hp.1⟩) b
  refine ⟨b', e, fun x y c => ?_⟩
  rw [hb]
  have : ∀ (ys xs : List Int), (x, y) ∈ (ys.flatMap fun y => xs.map fun x => (x, y)) ↔ x ∈ xs ∧ y ∈ ys := by
    intro ys xs; rw [mem_pixels]; exact and_comm
  exact if_congr (this _ _) rfl rfl

theorem accumulate_fl (fl : K → K) (flt : Filter K) (w h : ℕ) (hw : fl ((w : K) - 1) = (w : K) - 1)
    (hh : fl ((h : K) - 1) = (h : K) - 1) (obs : ℕ → ℕ → ℕ → Obs K) (order : List (ℕ × ℕ × ℕ)) (b : Buf K) :
    ∃ b', accumulate fl flt w h obs order b = .ok b' ∧ ∀ x y c,
      b' x y c = (order.filter fun q => decide (Visited fl flt w h obs x y q)).foldl
        (fun acc q => fl (acc + term fl (seenWeight fl flt obs x y q) (obs q.1 q.2.1 q.2.2).rad c)) (b x y c) := by
  induction order generalizing b with
  | nil => exact ⟨b, rfl, by simp⟩
  | cons q l ih =>
    obtain ⟨b1, e1, h1⟩ := splat_fl fl flt w h hw hh (place fl obs q).1 (place fl obs q).2
      (obs q.1 q.2.1 q.2.2).rad b
    obtain ⟨b2, e2, h2⟩ := ih b1
    refine ⟨b2, ?_, ?_⟩
    · unfold accumulate at e2 ⊢
      rw [List.foldlM_cons]
      have : sampleOnce fl flt w h q.2.1 q.2.2 (obs q.1 q.2.1 q.2.2) b = .ok b1 := e1
      rw [this, Res.bind_ok, e2]
    · intro x y c
      rw [h2, h1]
      by_cases hr : Visited fl flt w h obs x y q
      · rw [if_pos (show _ ∧ _ from hr), List.filter_cons_of_pos (by simpa using hr), List.foldl_cons]; rfl
      · rw [if_neg (show ¬ (_ ∧ _) from hr), List.filter_cons_of_neg (by simpa using hr)]

/-- Rounding with relative error at most `u`. -/
def RelErr (u : K) (fl : K → K) : Prop := ∀ x, |fl x - x| ≤ u * |x|

theorem RelErr.bounds {u : K} {fl : K → K} (hf : RelErr u fl) {x : K} (hx : 0 ≤ x) :
    (1 - u) * x ≤ fl x ∧ fl x ≤ (1 + u) * x := by
  have := hf x
  rw [abs_of_nonneg hx, abs_le] at this
  constructor <;> linarith

/-- A rounded sum of numbers that are not negative. -/
theorem fold_bounds {α : Type} {u : K} {fl : K → K} (hf : RelErr u fl) (hu0 : 0 ≤ u) (hu1 : u < 1) (t : α → K)
    (l : List α) (ht : ∀ q ∈ l, 0 ≤ t q) (a : K) (ha : 0 ≤ a) :
    (1 - u) ^ l.length * (a + (l.map t).sum) ≤ l.foldl (fun acc q => fl (acc + t q)) a ∧
    l.foldl (fun acc q => fl (acc + t q)) a ≤ (1 + u) ^ l.length * (a + (l.map t).sum) := by
  induction l generalizing a with
  | nil => simp
  | cons q l ih =>
    have hq := ht q (by simp)
    have hl : ∀ q ∈ l, 0 ≤ t q := fun q' h' => ht q' (by simp [h'])
    have hS : 0 ≤ (l.map t).sum := List.sum_nonneg (by
      intro z hz
      obtain ⟨q', h', rfl⟩ := List.mem_map.1 hz
      exact hl q' h')
    obtain ⟨b1, b2⟩ := hf.bounds (add_nonneg ha hq)
    have h1u : 0 ≤ 1 - u := by linarith
    have hnn : 0 ≤ fl (a + t q) := le_trans (mul_nonneg h1u (add_nonneg ha hq)) b1
    obtain ⟨i1, i2⟩ := ih hl (fl (a + t q)) hnn
    rw [List.foldl_cons, List.length_cons, List.map_cons, List.sum_cons]
    constructor
    · refine le_trans ?_ i1
      rw [pow_succ, mul_assoc]
      refine mul_le_mul_of_nonneg_left ?_ (pow_nonneg h1u _)
      nlinarith
    · refine le_trans i2 ?_
      rw [pow_succ, mul_assoc]
      refine mul_le_mul_of_nonneg_left ?_ (pow_nonneg (by linarith) _)
      nlinarith

theorem sum_filter_ite {α : Type} (p : α → Prop) [DecidablePred p] (f : α → K) (l : List α) :
    ((l.filter fun q => decide (p q)).map f).sum = (l.map fun q => if p q then f q else 0).sum := by
  induction l with
  | nil => rfl
  | cons q l ih =>
    by_cases hq : p q
    · rw [List.filter_cons_of_pos (by simpa using hq), List.map_cons, List.map_cons, List.sum_cons, List.sum_cons, ih,
        if_pos hq]
    · rw [List.filter_cons_of_neg (by simpa using hq), List.map_cons, List.sum_cons, ih, if_neg hq, zero_add]

theorem sum_mono {α : Type} (f g : α → K) (l : List α) (h : ∀ q ∈ l, f q ≤ g q) : (l.map f).sum ≤ (l.map g).sum := by
  induction l with
  | nil => simp
  | cons q l ih =>
    rw [List.map_cons, List.map_cons, List.sum_cons, List.sum_cons]
    exact add_le_add (h q (by simp)) (ih fun q' hq' => h q' (by simp [hq']))

/-- Which pixels are visited, with rounding. -/
theorem mem_splatRange_fl (fl : K → K) (p s : K) (n : ℕ) (hn1 : fl ((n : K) - 1) = (n : K) - 1) (x : Int) (h0 : 0 ≤ x)
    (hn : x < n) : x ∈ splatRange fl p s n ↔ (x : K) ≤ fl (p + s) ∧ fl (p - s) < x + 1 := by
  unfold splatRange
  rw [mem_intRange, Int.le_floor, ← Int.lt_add_one_iff, Int.floor_lt, hn1]
  have h0' : (0 : K) ≤ x := by exact_mod_cast h0
  have hn' : (x : K) ≤ (n : K) - 1 := by
    have : x ≤ (n : Int) - 1 := by omega
    have h3 : ((x : Int) : K) ≤ (((n : Int) - 1 : Int) : K) := by exact_mod_cast this
    push_cast at h3
    exact h3
  unfold clipMin clipMax
  push_cast
  split_ifs with h1 h2 h2
  · constructor
    · rintro ⟨_, _⟩; exact ⟨by linarith, by linarith⟩
    · rintro ⟨_, _⟩; exact ⟨by linarith, by linarith⟩
  · constructor
    · rintro ⟨_, _⟩; exact ⟨by linarith, by linarith⟩
    · rintro ⟨_, _⟩; exact ⟨by linarith, by linarith⟩
  · constructor
    · rintro ⟨_, _⟩; exact ⟨by linarith, by linarith⟩
    · rintro ⟨_, _⟩; exact ⟨by linarith, by linarith⟩
  · exact and_comm

/-- If a loop completes, so did each of its steps. -/
theorem foldlM_steps {α β : Type} (f : β → α → Res β) (l : List α) (b b' : β) (h : l.foldlM f b = .ok b') (a : α)
    (ha : a ∈ l) : ∃ c c', f c a = .ok c' := by
  induction l generalizing b with
  | nil => simp at ha
  | cons q l ih =>
    rw [List.foldlM_cons] at h
    obtain ⟨b1, h1, h2⟩ := Res.bind_eq_ok.1 h
    rcases List.mem_cons.1 ha with rfl | ha
    · exact ⟨b, b1, h1⟩
    · exact ih b1 h2 ha

end Feign.Image
