import Verif.Math.BBox
import Mathlib.Tactic.FieldSimp
import Mathlib.Tactic.Ring
import Mathlib.Tactic.Linarith
import Mathlib.Tactic.NormNum
import Mathlib.Tactic.Order
import Mathlib.Tactic.FinCases
import Mathlib.Tactic.IntervalCases
import Mathlib.Algebra.Order.Ring.Rat

/-!
# C23 (ray/box test), C24 (growing boxes), C25 (octants)
-/

set_option linter.unusedSectionVars false

namespace Feign

namespace Ext
variable {K : Type} [LinearOrder K]

theorem fin_le_fin (a b : K) : Ext.fin a ≤ Ext.fin b ↔ a ≤ b := by
  unfold Ext.fin; rw [WithBot.coe_le_coe, WithTop.coe_le_coe]

theorem fin_lt_fin (a b : K) : Ext.fin a < Ext.fin b ↔ a < b := by
  unfold Ext.fin; rw [WithBot.coe_lt_coe, WithTop.coe_lt_coe]

/-- Case analysis on an extended scalar. -/
theorem cases3 (x : Ext K) : x = ⊥ ∨ x = ⊤ ∨ ∃ t, x = Ext.fin t := by
  induction x using WithBot.recBotCoe with
  | bot => exact Or.inl rfl
  | coe x =>
    induction x using WithTop.recTopCoe with
    | top => exact Or.inr (Or.inl rfl)
    | coe t => exact Or.inr (Or.inr ⟨t, rfl⟩)

theorem fin_ne_bot (t : K) : Ext.fin t ≠ (⊥ : Ext K) := WithBot.coe_ne_bot
theorem fin_ne_top (t : K) : Ext.fin t ≠ (⊤ : Ext K) := by
  intro h
  have : ((t : WithTop K) : WithBot (WithTop K)) = ((⊤ : WithTop K) : WithBot (WithTop K)) := h
  rw [WithBot.coe_inj] at this
  exact WithTop.coe_ne_top this

end Ext

/-- There is a finite parameter between two extended bounds that are in order and not both the same
infinity. -/
theorem Ext.exists_between {K : Type} [Field K] [LinearOrder K] (a b : Ext K) (h : a ≤ b)
    (ha : a ≠ ⊤) (hb : b ≠ ⊥) : ∃ t : K, a ≤ Ext.fin t ∧ Ext.fin t ≤ b := by
  rcases Ext.cases3 a with rfl | rfl | ⟨s, rfl⟩
  · rcases Ext.cases3 b with rfl | rfl | ⟨s, rfl⟩
    · exact absurd rfl hb
    · exact ⟨0, bot_le, le_top⟩
    · exact ⟨s, bot_le, le_rfl⟩
  · exact absurd rfl ha
  · exact ⟨s, le_rfl, h⟩

namespace B3
variable {K : Type}

/-! ### C23 -/

section slab
variable [Field K] [LinearOrder K] [IsStrictOrderedRing K]

/-- One slab round keeps exactly the parameters whose coordinate lies between the two planes. -/
theorem slabAxis_spec (o d mn mx : K) (hm : mn ≤ mx) (s : Ext K × Ext K)
    (hs1 : s.1 ≠ ⊤) (hs2 : s.2 ≠ ⊥) (hle : s.1 ≤ s.2) :
    (slabAxis o d mn mx s = none →
      ∀ t : K, s.1 ≤ Ext.fin t → Ext.fin t ≤ s.2 → ¬ (mn ≤ o + d * t ∧ o + d * t ≤ mx)) ∧
    (∀ s', slabAxis o d mn mx s = some s' → s'.1 ≠ ⊤ ∧ s'.2 ≠ ⊥ ∧ s'.1 ≤ s'.2 ∧
      ∀ t : K, (s'.1 ≤ Ext.fin t ∧ Ext.fin t ≤ s'.2) ↔
        (s.1 ≤ Ext.fin t ∧ Ext.fin t ≤ s.2) ∧ (mn ≤ o + d * t ∧ o + d * t ≤ mx)) := by
  unfold slabAxis
  by_cases hd : d = 0
  · rw [if_pos hd]
    subst hd
    by_cases ho : o < mn ∨ o > mx
    · rw [if_pos ho]
      refine ⟨fun _ t _ _ ⟨h1, h2⟩ => ?_, fun s' h => by simp at h⟩
      rw [zero_mul, add_zero] at h1 h2
      rcases ho with h | h <;> order
    · rw [if_neg ho]
      refine ⟨fun h => by simp at h, fun s' h => ?_⟩
      obtain rfl := Option.some.inj h
      refine ⟨hs1, hs2, hle, fun t => ?_⟩
      rw [not_or, not_lt, gt_iff_lt, not_lt] at ho
      simp only [zero_mul, add_zero]
      tauto
  · rw [if_neg hd]
    simp only
    set t1 := (mn - o) * (1 / d) with ht1
    set t2 := (mx - o) * (1 / d) with ht2
    set lo := if t1 > t2 then t2 else t1 with hlo
    set hi := if t1 > t2 then t1 else t2 with hhi
    have key : ∀ t : K, (mn ≤ o + d * t ∧ o + d * t ≤ mx) ↔ lo ≤ t ∧ t ≤ hi := by
      intro t
      have e1 : d * t1 = mn - o := by rw [ht1]; field_simp
      have e2 : d * t2 = mx - o := by rw [ht2]; field_simp
      rcases lt_or_gt_of_ne hd with hneg | hpos
      · have h12 : t2 ≤ t1 := by
          by_contra hc
          have := mul_lt_mul_of_neg_left (not_le.mp hc) hneg
          linarith
        have hlo' : lo = t2 := by
          rw [hlo]; split_ifs with h
          · rfl
          · exact le_antisymm (not_lt.mp h) h12
        have hhi' : hi = t1 := by
          rw [hhi]; split_ifs with h
          · rfl
          · exact le_antisymm h12 (not_lt.mp h)
        rw [hlo', hhi']
        constructor
        · rintro ⟨h1, h2⟩
          constructor
          · by_contra hc
            have := mul_lt_mul_of_neg_left (not_le.mp hc) hneg
            linarith
          · by_contra hc
            have := mul_lt_mul_of_neg_left (not_le.mp hc) hneg
            linarith
        · rintro ⟨h1, h2⟩
          have a1 := mul_le_mul_of_nonpos_left h1 hneg.le
          have a2 := mul_le_mul_of_nonpos_left h2 hneg.le
          constructor <;> linarith
      · have h12 : t1 ≤ t2 := by
          by_contra hc
          have := mul_lt_mul_of_pos_left (not_le.mp hc) hpos
          linarith
        have hlo' : lo = t1 := by rw [hlo, if_neg (not_lt.mpr h12)]
        have hhi' : hi = t2 := by rw [hhi, if_neg (not_lt.mpr h12)]
        rw [hlo', hhi']
        constructor
        · rintro ⟨h1, h2⟩
          constructor
          · by_contra hc
            have := mul_lt_mul_of_pos_left (not_le.mp hc) hpos
            linarith
          · by_contra hc
            have := mul_lt_mul_of_pos_left (not_le.mp hc) hpos
            linarith
        · rintro ⟨h1, h2⟩
          have a1 := mul_le_mul_of_nonneg_left h1 hpos.le
          have a2 := mul_le_mul_of_nonneg_left h2 hpos.le
          constructor <;> linarith
    have keyE : ∀ t : K, (Max.max (Ext.fin lo) s.1 ≤ Ext.fin t ∧ Ext.fin t ≤ Min.min (Ext.fin hi) s.2) ↔
        (s.1 ≤ Ext.fin t ∧ Ext.fin t ≤ s.2) ∧ (mn ≤ o + d * t ∧ o + d * t ≤ mx) := by
      intro t
      rw [key, max_le_iff, le_min_iff, Ext.fin_le_fin, Ext.fin_le_fin]
      tauto
    have hntop : Max.max (Ext.fin lo) s.1 ≠ (⊤ : Ext K) := by
      rcases max_choice (Ext.fin lo) s.1 with h | h <;> rw [h]
      · exact Ext.fin_ne_top _
      · exact hs1
    have hnbot : Min.min (Ext.fin hi) s.2 ≠ (⊥ : Ext K) := by
      rcases min_choice (Ext.fin hi) s.2 with h | h <;> rw [h]
      · exact Ext.fin_ne_bot _
      · exact hs2
    split_ifs with hnf
    · refine ⟨fun h => by simp at h, fun s' h => ?_⟩
      obtain rfl := Option.some.inj h
      exact ⟨hntop, hnbot, hnf, keyE⟩
    · refine ⟨fun _ t h1 h2 h3 => ?_, fun s' h => by simp at h⟩
      have := (keyE t).mpr ⟨⟨h1, h2⟩, h3⟩
      exact hnf (this.1.trans this.2)

/-- All three rounds: failure means the line misses the box; success means the recorded interval is the
set of parameters at which the line is in the box. -/
theorem slabs_spec (b : B3 K) (r : Ray K) (hb : b.min.le b.max) :
    (slabs b r = none → ∀ t, ¬ b.containsB (r.point t)) ∧
    (∀ n f, slabs b r = some (n, f) → n ≠ ⊤ ∧ f ≠ ⊥ ∧ n ≤ f ∧
      ∀ t, (n ≤ Ext.fin t ∧ Ext.fin t ≤ f) ↔ b.containsB (r.point t)) := by
  obtain ⟨hbx, hby, hbz⟩ := hb
  have hin : ∀ t, b.containsB (r.point t) ↔
      (b.min.x ≤ r.origin.x + r.dir.x * t ∧ r.origin.x + r.dir.x * t ≤ b.max.x) ∧
      (b.min.y ≤ r.origin.y + r.dir.y * t ∧ r.origin.y + r.dir.y * t ≤ b.max.y) ∧
      (b.min.z ≤ r.origin.z + r.dir.z * t ∧ r.origin.z + r.dir.z * t ≤ b.max.z) := by
    intro t
    simp only [containsB, V3.le, Ray.point, V3.add_x, V3.add_y, V3.add_z, V3.smul_x, V3.smul_y,
      V3.smul_z]
    tauto
  have hbt : ((⊥, ⊤) : Ext K × Ext K).1 ≤ ((⊥, ⊤) : Ext K × Ext K).2 := bot_le
  have x := slabAxis_spec r.origin.x r.dir.x b.min.x b.max.x hbx (⊥, ⊤) bot_ne_top top_ne_bot hbt
  unfold slabs
  cases hx : slabAxis r.origin.x r.dir.x b.min.x b.max.x (⊥, ⊤) with
  | none =>
    refine ⟨fun _ t h => ?_, fun n f h => by simp at h⟩
    exact x.1 hx t bot_le le_top ((hin t).mp h).1
  | some s =>
    obtain ⟨h1, h2, h3, h4⟩ := x.2 s hx
    simp only [Option.bind_eq_bind, Option.bind_some]
    have y := slabAxis_spec r.origin.y r.dir.y b.min.y b.max.y hby s h1 h2 h3
    cases hy : slabAxis r.origin.y r.dir.y b.min.y b.max.y s with
    | none =>
      refine ⟨fun _ t h => ?_, fun n f h => by simp at h⟩
      have h5 := (h4 t).mpr ⟨⟨bot_le, le_top⟩, ((hin t).mp h).1⟩
      exact y.1 hy t h5.1 h5.2 ((hin t).mp h).2.1
    | some s2 =>
      obtain ⟨g1, g2, g3, g4⟩ := y.2 s2 hy
      simp only [Option.bind_some]
      have z := slabAxis_spec r.origin.z r.dir.z b.min.z b.max.z hbz s2 g1 g2 g3
      constructor
      · intro hz t h
        have h5 := (h4 t).mpr ⟨⟨bot_le, le_top⟩, ((hin t).mp h).1⟩
        have h6 := (g4 t).mpr ⟨h5, ((hin t).mp h).2.1⟩
        exact z.1 hz t h6.1 h6.2 ((hin t).mp h).2.2
      · intro n f hz
        obtain ⟨k1, k2, k3, k4⟩ := z.2 (n, f) hz
        refine ⟨k1, k2, k3, fun t => ?_⟩
        rw [k4, g4, h4, hin]
        simp only [bot_le, le_top, true_and]
        tauto

/-- **C23.** For every box (with `min ≤ max`), every direction (zero components included) and every
parameter range `near ≤ far`, the test succeeds exactly when some point of the ray in its range lies in
the box. -/
theorem intersect_iff (b : B3 K) (r : Ray K) (hb : b.min.le b.max) (hr : r.near ≤ r.far)
    (hn : r.near ≠ ⊤) (hf : r.far ≠ ⊥) :
    b.intersect r = true ↔
      ∃ t : K, (r.near ≤ Ext.fin t ∧ Ext.fin t ≤ r.far) ∧ b.containsB (r.point t) := by
  obtain ⟨hnone, hsome⟩ := slabs_spec b r hb
  unfold intersect intersectNF
  cases h : slabs b r with
  | none =>
    simp only [Bool.false_eq_true, false_iff, not_exists, not_and]
    exact fun t _ => hnone h t
  | some s =>
    obtain ⟨n, f⟩ := s
    obtain ⟨h1, h2, h3, h4⟩ := hsome n f h
    simp only [decide_eq_true_eq]
    constructor
    · rintro ⟨ha, hb'⟩
      obtain ⟨t, ht1, ht2⟩ := Ext.exists_between (Max.max r.near n) (Min.min r.far f)
        (by rw [max_le_iff, le_min_iff, le_min_iff]; exact ⟨⟨hr, ha⟩, hb', h3⟩)
        (by rcases max_choice r.near n with e | e <;> rw [e] <;> assumption)
        (by rcases min_choice r.far f with e | e <;> rw [e] <;> assumption)
      rw [max_le_iff] at ht1
      rw [le_min_iff] at ht2
      exact ⟨t, ⟨ht1.1, ht2.1⟩, (h4 t).mp ⟨ht1.2, ht2.2⟩⟩
    · rintro ⟨t, ⟨ha, hb'⟩, hc⟩
      obtain ⟨hd, he⟩ := (h4 t).mpr hc
      exact ⟨ha.trans he, hd.trans hb'⟩

/-- **C23, parameters.** When the test succeeds, the two parameters written back delimit exactly the part
of the whole line that lies in the box. -/
theorem intersect_params (b : B3 K) (r : Ray K) (hb : b.min.le b.max)
    (h : (b.intersectNF r).1 = true) :
    ∃ n f, (b.intersectNF r).2 = some (n, f) ∧ n ≤ f ∧
      ∀ t : K, b.containsB (r.point t) ↔ n ≤ Ext.fin t ∧ Ext.fin t ≤ f := by
  unfold intersectNF at h ⊢
  cases hs : slabs b r with
  | none => rw [hs] at h; simp at h
  | some s =>
    obtain ⟨n, f⟩ := s
    obtain ⟨h1, h2, h3, h4⟩ := (slabs_spec b r hb).2 n f hs
    exact ⟨n, f, rfl, h3, fun t => (h4 t).symm⟩

/-- The entry parameter is attained: with some non-zero direction component, the smallest parameter in the
box is the reported one, and it is finite. -/
theorem intersect_entry_attained (b : B3 K) (r : Ray K) (hb : b.min.le b.max)
    (hd : r.dir ≠ 0) (h : (b.intersectNF r).1 = true) :
    ∃ tn tf : K, (b.intersectNF r).2 = some (Ext.fin tn, Ext.fin tf) ∧ tn ≤ tf ∧
      b.containsB (r.point tn) ∧ b.containsB (r.point tf) := by
  obtain ⟨n, f, e, hnf, hiff⟩ := intersect_params b r hb h
  -- a non-zero component bounds the parameters from both sides
  have hbound : ∃ lo hi : K, ∀ t, b.containsB (r.point t) → lo ≤ t ∧ t ≤ hi := by
    have one : ∀ (o d mn mx : K), d ≠ 0 → ∃ lo hi : K, ∀ t, mn ≤ o + d * t → o + d * t ≤ mx →
        lo ≤ t ∧ t ≤ hi := by
      intro o d mn mx hd
      have e1 : d * ((mn - o) / d) = mn - o := by field_simp
      have e2 : d * ((mx - o) / d) = mx - o := by field_simp
      rcases lt_or_gt_of_ne hd with hneg | hpos
      · refine ⟨(mx - o) / d, (mn - o) / d, fun t h1 h2 => ⟨?_, ?_⟩⟩
        · by_contra hc
          have := mul_lt_mul_of_neg_left (not_le.mp hc) hneg
          linarith
        · by_contra hc
          have := mul_lt_mul_of_neg_left (not_le.mp hc) hneg
          linarith
      · refine ⟨(mn - o) / d, (mx - o) / d, fun t h1 h2 => ⟨?_, ?_⟩⟩
        · by_contra hc
          have := mul_lt_mul_of_pos_left (not_le.mp hc) hpos
          linarith
        · by_contra hc
          have := mul_lt_mul_of_pos_left (not_le.mp hc) hpos
          linarith
    have hd' : r.dir.x ≠ 0 ∨ r.dir.y ≠ 0 ∨ r.dir.z ≠ 0 := by
      by_contra hc
      simp only [not_or, not_not] at hc
      exact hd (V3.ext hc.1 hc.2.1 hc.2.2)
    rcases hd' with h' | h' | h'
    · obtain ⟨lo, hi, h⟩ := one r.origin.x r.dir.x b.min.x b.max.x h'
      exact ⟨lo, hi, fun t ht => h t ht.1.1 ht.2.1⟩
    · obtain ⟨lo, hi, h⟩ := one r.origin.y r.dir.y b.min.y b.max.y h'
      exact ⟨lo, hi, fun t ht => h t ht.1.2.1 ht.2.2.1⟩
    · obtain ⟨lo, hi, h⟩ := one r.origin.z r.dir.z b.min.z b.max.z h'
      exact ⟨lo, hi, fun t ht => h t ht.1.2.2 ht.2.2.2⟩
  obtain ⟨lo, hi, hbd⟩ := hbound
  have hs : ∃ s, slabs b r = some s ∧ s = (n, f) := by
    unfold intersectNF at e
    cases hs : slabs b r with
    | none => rw [hs] at e; simp at e
    | some s =>
      obtain ⟨a, c⟩ := s
      rw [hs] at e
      exact ⟨_, rfl, Option.some.inj e⟩
  obtain ⟨s, hs, rfl⟩ := hs
  obtain ⟨hn, hf, -, -⟩ := (slabs_spec b r hb).2 n f hs
  have hnfin : ∃ tn, n = Ext.fin tn := by
    rcases Ext.cases3 n with rfl | rfl | h
    · exfalso
      obtain ⟨t, -, ht⟩ := Ext.exists_between (⊥ : Ext K) f hnf bot_ne_top hf
      have hlt : Ext.fin (Min.min t (lo - 1)) ≤ f := by
        refine le_trans ?_ ht
        rw [Ext.fin_le_fin]; exact min_le_left _ _
      have := (hbd _ ((hiff _).mpr ⟨bot_le, hlt⟩)).1
      have := min_le_right t (lo - 1)
      linarith
    · exact absurd rfl hn
    · exact h
  obtain ⟨tn, rfl⟩ := hnfin
  have hffin : ∃ tf, f = Ext.fin tf := by
    rcases Ext.cases3 f with rfl | rfl | h
    · exact absurd rfl hf
    · exfalso
      have hlt : Ext.fin tn ≤ Ext.fin (Max.max tn (hi + 1)) := by
        rw [Ext.fin_le_fin]; exact le_max_left _ _
      have := (hbd _ ((hiff _).mpr ⟨hlt, le_top⟩)).2
      have := le_max_right tn (hi + 1)
      linarith
    · exact h
  obtain ⟨tf, rfl⟩ := hffin
  exact ⟨tn, tf, e, (Ext.fin_le_fin _ _).mp hnf, (hiff tn).mpr ⟨le_rfl, hnf⟩,
    (hiff tf).mpr ⟨hnf, le_rfl⟩⟩

/-- With no zero direction component the test does not see which corner is which: turning a box inside
out does not change the answer. -/
theorem intersect_swap (b : B3 K) (r : Ray K) (hx : r.dir.x ≠ 0) (hy : r.dir.y ≠ 0) (hz : r.dir.z ≠ 0) :
    intersectNF ⟨b.max, b.min⟩ r = intersectNF b r := by
  have one : ∀ (o d mn mx : K) (s : Ext K × Ext K), d ≠ 0 →
      slabAxis o d mx mn s = slabAxis o d mn mx s := by
    intro o d mn mx s hd
    unfold slabAxis
    rw [if_neg hd, if_neg hd]
    simp only
    set t1 := (mn - o) * (1 / d)
    set t2 := (mx - o) * (1 / d)
    have e1 : (if t2 > t1 then t1 else t2) = if t1 > t2 then t2 else t1 := by
      rcases lt_trichotomy t1 t2 with h | h | h
      · rw [if_pos h, if_neg (not_lt.mpr h.le)]
      · rw [h]
      · rw [if_neg (not_lt.mpr h.le), if_pos h]
    have e2 : (if t2 > t1 then t2 else t1) = if t1 > t2 then t1 else t2 := by
      rcases lt_trichotomy t1 t2 with h | h | h
      · rw [if_pos h, if_neg (not_lt.mpr h.le)]
      · rw [h]
      · rw [if_neg (not_lt.mpr h.le), if_pos h]
    rw [e1, e2]
  have hs : slabs ⟨b.max, b.min⟩ r = slabs b r := by
    unfold slabs
    simp only [one _ _ _ _ _ hx, one _ _ _ _ _ hy, one _ _ _ _ _ hz]
  unfold intersectNF
  rw [hs]

/-- So the hypothesis `min ≤ max` of C23 is needed: a box turned inside out, which contains no point at
all (an empty box looks like this), is reported as hit. -/
theorem intersect_inverted_box :
    ∃ (b : B3 ℚ) (r : Ray ℚ), (∀ p, ¬ b.containsB p) ∧ b.intersect r = true := by
  refine ⟨⟨⟨1, 1, 1⟩, ⟨-1, -1, -1⟩⟩, ⟨⟨0, 0, 0⟩, ⟨1, 1, 1⟩, Ext.fin 0, ⊤⟩, ?_, ?_⟩
  · rintro p ⟨⟨h1, -, -⟩, h2, -, -⟩
    simp only at h1 h2
    linarith
  · have := intersect_swap (⟨⟨-1, -1, -1⟩, ⟨1, 1, 1⟩⟩ : B3 ℚ)
      ⟨⟨0, 0, 0⟩, ⟨1, 1, 1⟩, Ext.fin 0, ⊤⟩ (by norm_num) (by norm_num) (by norm_num)
    unfold intersect
    simp only at this
    rw [this]
    refine (intersect_iff _ _ ?_ le_top (Ext.fin_ne_top _) top_ne_bot).mpr ⟨0, ⟨le_rfl, le_top⟩, ?_⟩
    · norm_num [V3.le]
    · norm_num [containsB, V3.le, Ray.point]

end slab

/-! ### C24 -/

section grow
variable [LinearOrder K]

/-- One instruction that grows a box. -/
inductive Grow (K : Type) where
  | point (p : V3 K)
  | box (b : B3 K)

/-- Run a sequence of `expand` calls. -/
def grow (b : B3 K) : List (Grow K) → B3 K
  | [] => b
  | .point p :: rest => grow (b.expand p) rest
  | .box c :: rest => grow (b.expandBox c) rest

/-- The points that were handed to a growth instruction. -/
def Grow.Covers : Grow K → V3 K → Prop
  | .point q, p => p = q
  | .box c, p => c.containsB p

theorem minV_le (a b : V3 K) : (a.minV b).le a ∧ (a.minV b).le b := by
  unfold V3.minV V3.le
  refine ⟨⟨?_, ?_, ?_⟩, ?_, ?_, ?_⟩ <;> simp only <;> split_ifs <;> order

theorem le_minV (a b c : V3 K) (h1 : c.le a) (h2 : c.le b) : c.le (a.minV b) := by
  unfold V3.minV V3.le at *
  obtain ⟨x1, y1, z1⟩ := h1
  obtain ⟨x2, y2, z2⟩ := h2
  refine ⟨?_, ?_, ?_⟩ <;> simp only <;> split_ifs <;> assumption

theorem le_maxV (a b : V3 K) : a.le (a.maxV b) ∧ b.le (a.maxV b) := by
  unfold V3.maxV V3.le
  refine ⟨⟨?_, ?_, ?_⟩, ?_, ?_, ?_⟩ <;> simp only [gt_iff_lt] <;> split_ifs <;> order

theorem maxV_le (a b c : V3 K) (h1 : a.le c) (h2 : b.le c) : (a.maxV b).le c := by
  unfold V3.maxV V3.le at *
  obtain ⟨x1, y1, z1⟩ := h1
  obtain ⟨x2, y2, z2⟩ := h2
  refine ⟨?_, ?_, ?_⟩ <;> simp only <;> split_ifs <;> assumption

theorem V3.le_trans {a b c : V3 K} (h : a.le b) (h' : b.le c) : a.le c :=
  ⟨h.1.trans h'.1, h.2.1.trans h'.2.1, h.2.2.trans h'.2.2⟩

theorem V3.le_refl (a : V3 K) : a.le a := ⟨_root_.le_rfl, _root_.le_rfl, _root_.le_rfl⟩

theorem grow_mono (b : B3 K) (gs : List (Grow K)) :
    (grow b gs).min.le b.min ∧ b.max.le (grow b gs).max := by
  induction gs generalizing b with
  | nil => exact ⟨V3.le_refl _, V3.le_refl _⟩
  | cons g gs ih =>
    cases g with
    | point p =>
      obtain ⟨h1, h2⟩ := ih (b.expand p)
      exact ⟨V3.le_trans h1 (minV_le _ _).1, V3.le_trans (le_maxV _ _).1 h2⟩
    | box c =>
      obtain ⟨h1, h2⟩ := ih (b.expandBox c)
      exact ⟨V3.le_trans h1 (minV_le _ _).1, V3.le_trans (le_maxV _ _).1 h2⟩

/-- **C24, enclosure.** After any sequence of `expand` calls the box contains everything added. -/
theorem grow_encloses (b : B3 K) (gs : List (Grow K)) :
    (∀ p, b.containsB p → (grow b gs).containsB p) ∧
    ∀ g ∈ gs, ∀ p, g.Covers p → (grow b gs).containsB p := by
  constructor
  · rintro p ⟨h1, h2⟩
    obtain ⟨g1, g2⟩ := grow_mono b gs
    exact ⟨V3.le_trans g1 h1, V3.le_trans h2 g2⟩
  · induction gs generalizing b with
    | nil => intro g hg; simp at hg
    | cons g gs ih =>
      intro g' hg' p hp
      rcases List.mem_cons.mp hg' with rfl | hmem
      · cases g' with
        | point q =>
          obtain rfl : p = q := hp
          obtain ⟨g1, g2⟩ := grow_mono (b.expand p) gs
          exact ⟨V3.le_trans g1 (minV_le _ _).2, V3.le_trans (le_maxV _ _).2 g2⟩
        | box c =>
          obtain ⟨h1, h2⟩ : c.containsB p := hp
          obtain ⟨g1, g2⟩ := grow_mono (b.expandBox c) gs
          exact ⟨V3.le_trans g1 (V3.le_trans (minV_le _ _).2 h1),
            V3.le_trans h2 (V3.le_trans (le_maxV _ _).2 g2)⟩
      · cases g with
        | point q => exact ih _ g' hmem p hp
        | box c => exact ih _ g' hmem p hp

/-- **C24, minimality.** Any box `d` whose bounds enclose the starting box and everything added (each
added box by its corners) encloses the result. -/
theorem grow_minimal (b d : B3 K) (gs : List (Grow K)) (hb : d.min.le b.min ∧ b.max.le d.max)
    (hg : ∀ g ∈ gs, match g with
      | .point p => d.containsB p
      | .box c => d.min.le c.min ∧ c.max.le d.max) :
    d.min.le (grow b gs).min ∧ (grow b gs).max.le d.max := by
  induction gs generalizing b with
  | nil => exact hb
  | cons g gs ih =>
    have h0 := hg g (by simp)
    have h1 : ∀ g' ∈ gs, match g' with
      | .point p => d.containsB p
      | .box c => d.min.le c.min ∧ c.max.le d.max := fun g' h => hg g' (by simp [h])
    cases g with
    | point p => exact ih _ ⟨le_minV _ _ _ hb.1 h0.1, maxV_le _ _ _ hb.2 h0.2⟩ h1
    | box c => exact ih _ ⟨le_minV _ _ _ hb.1 h0.1, maxV_le _ _ _ hb.2 h0.2⟩ h1

/-- **C24.** Starting from the empty box (`+∞`, `-∞`), the result contains every added point and every
point of every added box, and lies in every box that does so. -/
theorem grow_from_empty [BoundedOrder K] (gs : List (Grow K)) :
    (∀ g ∈ gs, ∀ p, g.Covers p → (grow empty gs).containsB p) ∧
    (∀ d : B3 K, (∀ g ∈ gs, match g with
      | .point p => d.containsB p
      | .box c => d.min.le c.min ∧ c.max.le d.max) →
      d.min.le (grow empty gs).min ∧ (grow empty gs).max.le d.max) :=
  ⟨(grow_encloses empty gs).2,
    fun d hd => grow_minimal empty d gs ⟨⟨le_top, le_top, le_top⟩, bot_le, bot_le, bot_le⟩ hd⟩

/-- For added boxes that are not empty, minimality can be stated by points alone. -/
theorem grow_minimal_points [BoundedOrder K] (gs : List (Grow K))
    (hne : ∀ g ∈ gs, ∀ c, g = .box c → c.min.le c.max) (d : B3 K)
    (hd : ∀ g ∈ gs, ∀ p, g.Covers p → d.containsB p) :
    ∀ p, (grow empty gs).containsB p → d.containsB p := by
  rintro p ⟨h1, h2⟩
  obtain ⟨a1, a2⟩ := (grow_from_empty gs).2 d (by
    intro g hg
    cases g with
    | point q => exact hd _ hg q rfl
    | box c =>
      have hc := hne _ hg c rfl
      exact ⟨(hd _ hg c.min ⟨V3.le_refl _, hc⟩).1, (hd _ hg c.max ⟨hc, V3.le_refl _⟩).2⟩)
  exact ⟨V3.le_trans a1 h1, V3.le_trans h2 a2⟩

/-- `merge` is the least upper bound of two boxes, and is the same as growing one by the other. -/
theorem merge_lub (a b : B3 K) :
    merge a b = a.expandBox b ∧
    (∀ p, a.containsB p ∨ b.containsB p → (merge a b).containsB p) ∧
    (∀ d : B3 K, d.containsBoxB a → d.containsBoxB b → d.containsBoxB (merge a b)) := by
  refine ⟨rfl, ?_, ?_⟩
  · rintro p (⟨h1, h2⟩ | ⟨h1, h2⟩)
    · exact ⟨V3.le_trans (minV_le _ _).1 h1, V3.le_trans h2 (le_maxV _ _).1⟩
    · exact ⟨V3.le_trans (minV_le _ _).2 h1, V3.le_trans h2 (le_maxV _ _).2⟩
  · rintro d ⟨h1, h2⟩ ⟨h3, h4⟩
    exact ⟨le_minV _ _ _ h1 h3, maxV_le _ _ _ h2 h4⟩

/-- `overlaps` does not test overlap: it says that the argument encloses the receiver. Two boxes that
share a region are reported as not overlapping. -/
theorem overlaps_refuted : ∃ (a b : B3 ℚ) (p : V3 ℚ), a.contains p ∧ b.contains p ∧
    ¬ a.overlaps b ∧ ¬ b.overlaps a :=
  ⟨⟨⟨0, 0, 0⟩, ⟨2, 2, 2⟩⟩, ⟨⟨1, 1, 1⟩, ⟨3, 3, 3⟩⟩, ⟨3 / 2, 3 / 2, 3 / 2⟩,
    by norm_num [contains, V3.lt], by norm_num [contains, V3.lt], by norm_num [overlaps, V3.le],
    by norm_num [overlaps, V3.le]⟩

end grow

/-! ### C25 -/

section octants
variable [Field K] [LinearOrder K] [IsStrictOrderedRing K]

theorem half_between (a c : K) (h : a ≤ c) : a ≤ (c - a) / 2 + a ∧ (c - a) / 2 + a ≤ c := by
  constructor <;> linarith

/-- **C25, cover.** A point is in the box exactly when it is in one of the eight parts. -/
theorem octants_cover (b : B3 K) (hb : b.min.le b.max) (p : V3 K) :
    b.containsB p ↔ ∃ s ∈ b.splitIntoEight, s.containsB p := by
  obtain ⟨hx, hy, hz⟩ := hb
  obtain ⟨x1, x2⟩ := half_between _ _ hx
  obtain ⟨y1, y2⟩ := half_between _ _ hy
  obtain ⟨z1, z2⟩ := half_between _ _ hz
  constructor
  · rintro ⟨⟨a1, a2, a3⟩, b1, b2, b3⟩
    unfold splitIntoEight half containsB V3.le
    rcases le_total p.x ((b.max.x - b.min.x) / 2 + b.min.x) with h1 | h1 <;>
    rcases le_total p.y ((b.max.y - b.min.y) / 2 + b.min.y) with h2 | h2 <;>
    rcases le_total p.z ((b.max.z - b.min.z) / 2 + b.min.z) with h3 | h3 <;>
    simp [*]
  · rintro ⟨s, hs, ⟨a1, a2, a3⟩, b1, b2, b3⟩
    unfold splitIntoEight half at hs
    simp only [List.mem_cons, List.not_mem_nil, or_false] at hs
    rcases hs with rfl | rfl | rfl | rfl | rfl | rfl | rfl | rfl <;>
    exact ⟨⟨by simp only at *; linarith, by simp only at *; linarith, by simp only at *; linarith⟩,
      by simp only at *; linarith, by simp only at *; linarith, by simp only at *; linarith⟩

/-- **C25, disjoint.** Eight parts, and no point is strictly inside two of them. -/
theorem octants_disjoint (b : B3 K) :
    b.splitIntoEight.length = 8 ∧
    ∀ i j (hi : i < b.splitIntoEight.length) (hj : j < b.splitIntoEight.length), i ≠ j →
      ∀ p, ¬ (b.splitIntoEight[i].contains p ∧ b.splitIntoEight[j].contains p) := by
  refine ⟨rfl, ?_⟩
  intro i j hi hj hij p
  change i < 8 at hi
  change j < 8 at hj
  rintro ⟨⟨⟨a1, a2, a3⟩, b1, b2, b3⟩, ⟨c1, c2, c3⟩, d1, d2, d3⟩
  interval_cases i <;> interval_cases j <;>
    first
    | exact hij rfl
    | (simp only [splitIntoEight, List.getElem_cons_zero, List.getElem_cons_succ] at a1 a2 a3 b1 b2 b3 c1 c2 c3 d1 d2 d3
       linarith)

/-- The parts of a non-degenerate box are non-degenerate and of equal size. -/
theorem octants_equal (b : B3 K) (s : B3 K) (hs : s ∈ b.splitIntoEight) :
    s.extents = b.extents.smul (1 / 2) := by
  unfold splitIntoEight half at hs
  simp only [List.mem_cons, List.not_mem_nil, or_false] at hs
  rcases hs with rfl | rfl | rfl | rfl | rfl | rfl | rfl | rfl <;>
  · ext <;> simp [extents] <;> ring

end octants

/-- Non-vacuity for C23: a ray with a zero direction component that hits the unit cube. -/
example : ∃ t : ℚ, (Ext.fin (0 : ℚ) ≤ Ext.fin t ∧ Ext.fin t ≤ (⊤ : Ext ℚ)) ∧
    (⟨⟨0, 0, 0⟩, ⟨1, 1, 1⟩⟩ : B3 ℚ).containsB
      ((⟨⟨-1, 1 / 2, 1 / 2⟩, ⟨1, 0, 0⟩, Ext.fin 0, ⊤⟩ : Ray ℚ).point t) :=
  ⟨3 / 2, ⟨by rw [Ext.fin_le_fin]; norm_num, le_top⟩, by norm_num [containsB, V3.le, Ray.point]⟩

end B3
end Feign
