import Verif.Scene.Visibility
import Mathlib.Tactic.Linarith
import Mathlib.Tactic.NormNum
import Mathlib.Algebra.Order.Ring.Rat
import Mathlib.Algebra.BigOperators.Group.List.Basic

/-! # Null surfaces and shadow rays -/

set_option linter.unusedSectionVars false

namespace Feign.Scene

variable {K M : Type} [Field K] [LinearOrder K] [IsStrictOrderedRing K]

/-- Specification of the accelerator: it reports some nearest one of the surfaces on the ray between the near
and far ends, and nothing only if there is none. -/
def IsFirst (hits : List (Hit K M)) (far : K) (accel : K → Option (Hit K M)) : Prop :=
  ∀ near, match accel near with
    | some h => h ∈ hits ∧ near ≤ h.t ∧ h.t ≤ far ∧ ∀ h' ∈ hits, near ≤ h'.t → h'.t ≤ far → h.t ≤ h'.t
    | none => ∀ h' ∈ hits, near ≤ h'.t → far < h'.t

/-- Specification: no visible surface lies closely (within `eps`) behind a null surface. -/
def Separated (eps : K) (hits : List (Hit K M)) : Prop :=
  ∀ n ∈ hits, n.isNull = true → ∀ h ∈ hits, h.isNull = false → n.t ≤ h.t → n.t + eps ≤ h.t

/-- Specification: the visible surfaces on the ray. -/
def Visible (hits : List (Hit K M)) (near far : K) (h : Hit K M) : Prop :=
  h ∈ hits ∧ h.isNull = false ∧ near ≤ h.t ∧ h.t ≤ far

private theorem isFirst_some {hits : List (Hit K M)} {far near : K} {accel : K → Option (Hit K M)} {h : Hit K M}
    (H : IsFirst hits far accel) (e : accel near = some h) :
    h ∈ hits ∧ near ≤ h.t ∧ h.t ≤ far ∧ ∀ h' ∈ hits, near ≤ h'.t → h'.t ≤ far → h.t ≤ h'.t := by
  have := H near; rw [e] at this; exact this

private theorem isFirst_none {hits : List (Hit K M)} {far near : K} {accel : K → Option (Hit K M)}
    (H : IsFirst hits far accel) (e : accel near = none) : ∀ h' ∈ hits, near ≤ h'.t → far < h'.t := by
  have := H near; rw [e] at this; exact this

/-- Number of surfaces at or behind `near`. -/
private def left (hits : List (Hit K M)) (near : K) : ℕ := hits.countP fun h => decide (near ≤ h.t)

private theorem left_lt {hits : List (Hit K M)} {near near' : K} {h : Hit K M} (hm : h ∈ hits) (h1 : near ≤ h.t)
    (h2 : h.t < near') (hle : near ≤ near') : left hits near' < left hits near := by
  induction hits with
  | nil => simp at hm
  | cons a l ih =>
    have mono : ∀ l : List (Hit K M), left l near' ≤ left l near := by
      intro l
      apply List.countP_mono_left
      intro x _ hx
      simp only [decide_eq_true_eq] at hx ⊢
      exact hle.trans hx
    unfold left
    rw [List.countP_cons, List.countP_cons]
    rcases List.mem_cons.mp hm with rfl | hm
    · rw [if_neg (by simpa using h2), if_pos (by simpa using h1)]
      have := mono l
      unfold left at this
      omega
    · have := ih hm
      unfold left at this
      by_cases ha : near' ≤ a.t
      · rw [if_pos (by simpa using ha), if_pos (by simpa using hle.trans ha)]; omega
      · rw [if_neg (by simpa using ha)]; split_ifs <;> omega

private theorem left_le (hits : List (Hit K M)) (near : K) : left hits near ≤ hits.length := List.countP_le_length

/-- The query ends, for every scene with finitely many surfaces on the ray. -/
theorem non_null_terminates (eps : K) (he : 0 < eps) (hits : List (Hit K M)) (far near : K)
    (accel : K → Option (Hit K M)) (H : IsFirst hits far accel) :
    ∃ r, intersectNonNull eps accel (hits.length + 1) near = some r := by
  suffices G : ∀ fuel near, left hits near < fuel → ∃ r, intersectNonNull eps accel fuel near = some r by
    exact G _ near (Nat.lt_succ_of_le (left_le hits near))
  intro fuel
  induction fuel with
  | zero => intro near h; omega
  | succ f ih =>
    intro near hl
    unfold intersectNonNull
    cases e : accel near with
    | none => exact ⟨_, rfl⟩
    | some h =>
      dsimp only
      split_ifs
      · obtain ⟨h1, h2, _, _⟩ := isFirst_some H e
        have := left_lt h1 h2 (lt_add_of_pos_right h.t he) (h2.trans (le_add_of_nonneg_right he.le))
        exact ih _ (by omega)
      · exact ⟨_, rfl⟩

/-- Partial (visible surfaces not closely behind null ones; the full claim has no such condition and is refuted
below): the query returns a nearest visible surface, or reports a miss exactly if there is none. -/
theorem non_null_first_partial (eps : K) (he : 0 < eps) (hits : List (Hit K M)) (far near : K)
    (accel : K → Option (Hit K M)) (H : IsFirst hits far accel) (S : Separated eps hits) (fuel : ℕ)
    (r : Option (Hit K M)) (hr : intersectNonNull eps accel fuel near = some r) :
    match r with
    | some h => Visible hits near far h ∧ ∀ h', Visible hits near far h' → h.t ≤ h'.t
    | none => ∀ h', ¬ Visible hits near far h' := by
  induction fuel generalizing near with
  | zero => cases hr
  | succ f ih =>
    unfold intersectNonNull at hr
    cases e : accel near with
    | none =>
      rw [e] at hr
      obtain rfl := Option.some.inj hr
      rintro h' ⟨a, b, c, d⟩
      exact absurd (isFirst_none H e h' a c) (not_lt.mpr d)
    | some h =>
      rw [e] at hr
      dsimp only at hr
      obtain ⟨h1, h2, h3, h4⟩ := isFirst_some H e
      by_cases hn : h.isNull = true
      · rw [if_pos hn] at hr
        have key : ∀ h', Visible hits near far h' ↔ Visible hits (h.t + eps) far h' := by
          intro h'
          constructor
          · rintro ⟨a, b, c, d⟩
            exact ⟨a, b, S h h1 hn h' a b (h4 h' a c d), d⟩
          · rintro ⟨a, b, c, d⟩
            exact ⟨a, b, by linarith, d⟩
        have := ih _ hr
        cases r with
        | none => intro h' hv; exact this h' ((key h').mp hv)
        | some g => exact ⟨(key g).mpr this.1, fun h' hv => this.2 h' ((key h').mp hv)⟩
      · rw [if_neg hn] at hr
        obtain rfl := Option.some.inj hr
        exact ⟨⟨h1, by simpa using hn, h2, h3⟩, fun h' hv => h4 h' hv.1 hv.2.2.1 hv.2.2.2⟩

/-- Without the condition: what is returned is always visible and on the ray, and a visible surface that was
passed over lies within `eps` behind a null surface. -/
theorem non_null_skipped (eps : K) (he : 0 < eps) (hits : List (Hit K M)) (far near : K)
    (accel : K → Option (Hit K M)) (H : IsFirst hits far accel) (fuel : ℕ) (r : Option (Hit K M))
    (hr : intersectNonNull eps accel fuel near = some r) :
    (∀ h, r = some h → Visible hits near far h) ∧
    ∀ h', Visible hits near far h' → (∀ h, r = some h → h'.t < h.t) →
      ∃ n ∈ hits, n.isNull = true ∧ near ≤ n.t ∧ n.t ≤ h'.t ∧ h'.t < n.t + eps := by
  induction fuel generalizing near with
  | zero => cases hr
  | succ f ih =>
    unfold intersectNonNull at hr
    cases e : accel near with
    | none =>
      rw [e] at hr
      obtain rfl := Option.some.inj hr
      refine ⟨by simp, ?_⟩
      rintro h' ⟨a, b, c, d⟩
      exact absurd (isFirst_none H e h' a c) (not_lt.mpr d)
    | some h =>
      rw [e] at hr
      dsimp only at hr
      obtain ⟨h1, h2, h3, h4⟩ := isFirst_some H e
      by_cases hn : h.isNull = true
      · rw [if_pos hn] at hr
        obtain ⟨p, q⟩ := ih _ hr
        constructor
        · intro g hg
          obtain ⟨a, b, c, d⟩ := p g hg
          exact ⟨a, b, by linarith, d⟩
        · rintro h' ⟨a, b, c, d⟩ hlt
          by_cases hb : h.t + eps ≤ h'.t
          · obtain ⟨n, n1, n2, n3, n4, n5⟩ := q h' ⟨a, b, hb, d⟩ hlt
            exact ⟨n, n1, n2, by linarith, n4, n5⟩
          · exact ⟨h, h1, hn, h2, h4 h' a c d, not_le.mp hb⟩
      · rw [if_neg hn] at hr
        obtain rfl := Option.some.inj hr
        refine ⟨fun g hg => ?_, ?_⟩
        · obtain rfl := Option.some.inj hg
          exact ⟨h1, by simpa using hn, h2, h3⟩
        · rintro h' ⟨a, b, c, d⟩ hlt
          exact absurd (h4 h' a c d) (not_le.mpr (hlt h rfl))

/-- A nearest-hit accelerator exists for every list, so the theorems are not empty. -/
def firstOf (hits : List (Hit K M)) (far near : K) : Option (Hit K M) :=
  hits.foldl (fun best h => if near ≤ h.t ∧ h.t ≤ far then
    (match best with
      | some b => if h.t < b.t then some h else some b
      | none => some h) else best) none

theorem firstOf_isFirst (hits : List (Hit K M)) (far : K) : IsFirst hits far (firstOf hits far) := by
  intro near
  suffices G : ∀ (l pre : List (Hit K M)) (best : Option (Hit K M)),
      (match best with
        | some h => h ∈ pre ∧ near ≤ h.t ∧ h.t ≤ far ∧ ∀ h' ∈ pre, near ≤ h'.t → h'.t ≤ far → h.t ≤ h'.t
        | none => ∀ h' ∈ pre, near ≤ h'.t → far < h'.t) →
      (match l.foldl (fun best h => if near ≤ h.t ∧ h.t ≤ far then
          (match best with
            | some b => if h.t < b.t then some h else some b
            | none => some h) else best) best with
        | some h => h ∈ pre ++ l ∧ near ≤ h.t ∧ h.t ≤ far ∧ ∀ h' ∈ pre ++ l, near ≤ h'.t → h'.t ≤ far → h.t ≤ h'.t
        | none => ∀ h' ∈ pre ++ l, near ≤ h'.t → far < h'.t) by
    exact G hits [] none (by simp)
  intro l
  induction l with
  | nil => intro pre best h; simpa using h
  | cons a l ih =>
    intro pre best hb
    rw [List.foldl_cons, show pre ++ a :: l = (pre ++ [a]) ++ l by simp]
    apply ih
    by_cases ha : near ≤ a.t ∧ a.t ≤ far
    · rw [if_pos ha]
      cases best with
      | none =>
        refine ⟨by simp, ha.1, ha.2, ?_⟩
        intro h' hm h1 h2
        rcases List.mem_append.mp hm with hm | hm
        · exact absurd (hb h' hm h1) (not_lt.mpr h2)
        · rw [List.mem_singleton.mp hm]
      | some b =>
        obtain ⟨b1, b2, b3, b4⟩ := hb
        dsimp only
        by_cases hlt : a.t < b.t
        · rw [if_pos hlt]
          refine ⟨by simp, ha.1, ha.2, ?_⟩
          intro h' hm h1 h2
          rcases List.mem_append.mp hm with hm | hm
          · exact hlt.le.trans (b4 h' hm h1 h2)
          · rw [List.mem_singleton.mp hm]
        · rw [if_neg hlt]
          refine ⟨by simp [b1], b2, b3, ?_⟩
          intro h' hm h1 h2
          rcases List.mem_append.mp hm with hm | hm
          · exact b4 h' hm h1 h2
          · rw [List.mem_singleton.mp hm]; exact not_lt.mp hlt
    · rw [if_neg ha]
      cases best with
      | none =>
        intro h' hm h1
        rcases List.mem_append.mp hm with hm | hm
        · exact hb h' hm h1
        · rw [List.mem_singleton.mp hm] at h1 ⊢
          by_contra hc
          exact ha ⟨h1, not_lt.mp hc⟩
      | some b =>
        obtain ⟨b1, b2, b3, b4⟩ := hb
        refine ⟨by simp [b1], b2, b3, ?_⟩
        intro h' hm h1 h2
        rcases List.mem_append.mp hm with hm | hm
        · exact b4 h' hm h1 h2
        · rw [List.mem_singleton.mp hm] at h1 h2
          exact absurd ⟨h1, h2⟩ ha

/-- A wall half of `Epsilon` behind a null surface is not seen: the query reports a miss. -/
theorem non_null_first_refuted : ∃ (hits : List (Hit ℚ Unit)) (h : Hit ℚ Unit),
    Visible hits 0 10 h ∧ intersectNonNull (1 / 1000) (firstOf hits 10) (hits.length + 1) 0 = some none := by
  refine ⟨[⟨1, true, none⟩, ⟨1 + 1 / 2000, false, none⟩], ⟨1 + 1 / 2000, false, none⟩, ⟨by simp, rfl, by norm_num, by norm_num⟩, ?_⟩
  norm_num [intersectNonNull, firstOf]

/-- Two null surfaces in front of a wall are passed. -/
example : intersectNonNull (1 / 1000) (firstOf ([⟨1, true, none⟩, ⟨3, false, none⟩, ⟨2, true, none⟩] : List (Hit ℚ Unit)) 10)
    4 0 = some (some ⟨3, false, none⟩) := by
  norm_num [intersectNonNull, firstOf]

/-! ### Shadow rays -/

/-- Specification: all null surfaces on the ray have a boundary record. -/
def Bounded (hits : List (Hit K M)) : Prop := ∀ h ∈ hits, h.isNull = true → h.boundary.isSome

private theorem shadowLoop_ends (eps : K) (he : 0 < eps) (hits : List (Hit K M)) (far : K)
    (accel : K → Option (Hit K M)) (H : IsFirst hits far accel) : ∀ fuel near segs, left hits near < fuel →
      ∃ r, shadowLoop eps far accel fuel near segs = some r := by
  intro fuel
  induction fuel with
  | zero => intro near segs h; omega
  | succ f ih =>
    intro near segs hl
    unfold shadowLoop
    cases e : accel near with
    | none => exact ⟨_, rfl⟩
    | some h =>
      obtain ⟨h1, h2, _, _⟩ := isFirst_some H e
      have hlt := left_lt h1 h2 (lt_add_of_pos_right h.t he) (h2.trans (le_add_of_nonneg_right he.le))
      dsimp only
      split_ifs
      · cases h.boundary with
        | none => exact ⟨_, rfl⟩
        | some b =>
          cases b with
          | none => exact ih _ _ (by omega)
          | some m =>
            dsimp only
            cases accel (h.t + eps) with
            | none => exact ih _ _ (by omega)
            | some h' =>
              dsimp only
              split_ifs
              · exact ⟨_, rfl⟩
              · exact ⟨_, rfl⟩
              · exact ih _ _ (by omega)
      · exact ⟨_, rfl⟩

/-- The shadow query ends. -/
theorem shadow_terminates (eps : K) (he : 0 < eps) (hits : List (Hit K M)) (far near : K)
    (accel : K → Option (Hit K M)) (H : IsFirst hits far accel) (initial : Option M) :
    ∃ r, shadowWalk eps far accel initial (hits.length + 1) near = some r := by
  unfold shadowWalk
  cases initial with
  | none => exact shadowLoop_ends eps he hits far accel H _ _ _ (Nat.lt_succ_of_le (left_le _ _))
  | some m =>
    dsimp only
    cases accel near with
    | none => exact shadowLoop_ends eps he hits far accel H _ _ _ (Nat.lt_succ_of_le (left_le _ _))
    | some h =>
      dsimp only
      split_ifs
      · exact shadowLoop_ends eps he hits far accel H _ _ _ (Nat.lt_succ_of_le (left_le _ _))
      · exact ⟨_, rfl⟩

private theorem shadowLoop_visibility (eps : K) (he : 0 < eps) (hits : List (Hit K M)) (far : K)
    (accel : K → Option (Hit K M)) (H : IsFirst hits far accel) : ∀ fuel near segs r,
      shadowLoop eps far accel fuel near segs = some r →
      (r = .ok .blocked → ∃ h, Visible hits near far h) ∧
      (Separated eps hits → ∀ s, r = .ok (.clear s) → ∀ h, ¬ Visible hits near far h) := by
  intro fuel
  induction fuel with
  | zero => intro near segs r h; cases h
  | succ f ih =>
    intro near segs r hr
    unfold shadowLoop at hr
    cases e : accel near with
    | none =>
      rw [e] at hr
      obtain rfl := Option.some.inj hr
      refine ⟨by simp, ?_⟩
      rintro - s - h' ⟨a, b, c, d⟩
      exact absurd (isFirst_none H e h' a c) (not_lt.mpr d)
    | some h =>
      rw [e] at hr
      dsimp only at hr
      obtain ⟨h1, h2, h3, h4⟩ := isFirst_some H e
      by_cases hn : h.isNull = true
      · rw [if_pos hn] at hr
        have weak : ∀ h', Visible hits (h.t + eps) far h' → Visible hits near far h' := by
          rintro h' ⟨a, b, c, d⟩; exact ⟨a, b, by linarith, d⟩
        have strong : Separated eps hits → ∀ h', Visible hits near far h' → Visible hits (h.t + eps) far h' := by
          rintro S h' ⟨a, b, c, d⟩; exact ⟨a, b, S h h1 hn h' a b (h4 h' a c d), d⟩
        have lift : ∀ segs', shadowLoop eps far accel f (h.t + eps) segs' = some r →
            (r = .ok .blocked → ∃ h, Visible hits near far h) ∧
            (Separated eps hits → ∀ s, r = .ok (.clear s) → ∀ h, ¬ Visible hits near far h) := by
          intro segs' hs
          obtain ⟨p, q⟩ := ih _ _ _ hs
          refine ⟨fun hb => ?_, fun S s hc h' hv => q S s hc h' (strong S h' hv)⟩
          obtain ⟨g, hg⟩ := p hb
          exact ⟨g, weak g hg⟩
        cases hb : h.boundary with
        | none =>
          rw [hb] at hr
          obtain rfl := Option.some.inj hr
          exact ⟨by simp, by simp⟩
        | some b =>
          cases b with
          | none => rw [hb] at hr; exact lift _ hr
          | some m =>
            rw [hb] at hr
            dsimp only at hr
            cases e' : accel (h.t + eps) with
            | none => rw [e'] at hr; exact lift _ hr
            | some h' =>
              rw [e'] at hr
              dsimp only at hr
              obtain ⟨k1, k2, k3, k4⟩ := isFirst_some H e'
              by_cases hn' : h'.isNull = false
              · rw [if_pos hn'] at hr
                obtain rfl := Option.some.inj hr
                exact ⟨fun _ => ⟨h', weak h' ⟨k1, hn', k2, k3⟩⟩, by simp⟩
              · rw [if_neg hn'] at hr
                by_cases hf : h'.t ≥ far
                · rw [if_pos hf] at hr
                  obtain rfl := Option.some.inj hr
                  refine ⟨by simp, ?_⟩
                  intro S s _ g hv
                  obtain ⟨a, b, c, d⟩ := strong S g hv
                  have hle := k4 g a c d
                  have := S h' k1 (by simpa using hn') g a b hle
                  linarith
                · rw [if_neg hf] at hr; exact lift _ hr
      · rw [if_neg hn] at hr
        obtain rfl := Option.some.inj hr
        exact ⟨fun _ => ⟨h, h1, by simpa using hn, h2, h3⟩, by simp⟩

/-- A shadow ray reported as blocked really meets a visible surface; with visible surfaces not closely behind
null ones, a ray reported as clear meets none. -/
theorem shadow_visibility (eps : K) (he : 0 < eps) (hits : List (Hit K M)) (far near : K)
    (accel : K → Option (Hit K M)) (H : IsFirst hits far accel) (initial : Option M) (fuel : ℕ)
    (r : Res (Shadow K M)) (hr : shadowWalk eps far accel initial fuel near = some r) :
    (r = .ok .blocked → ∃ h, Visible hits near far h) ∧
    (Separated eps hits → ∀ s, r = .ok (.clear s) → ∀ h, ¬ Visible hits near far h) := by
  unfold shadowWalk at hr
  cases initial with
  | none => exact shadowLoop_visibility eps he hits far accel H _ _ _ _ hr
  | some m =>
    dsimp only at hr
    cases e : accel near with
    | none => rw [e] at hr; exact shadowLoop_visibility eps he hits far accel H _ _ _ _ hr
    | some h =>
      rw [e] at hr
      dsimp only at hr
      obtain ⟨h1, h2, h3, h4⟩ := isFirst_some H e
      by_cases hn : h.isNull = true
      · rw [if_pos hn] at hr
        obtain ⟨p, q⟩ := shadowLoop_visibility eps he hits far accel H _ _ _ _ hr
        constructor
        · intro hb
          obtain ⟨g, a, b, c, d⟩ := p hb
          exact ⟨g, a, b, by linarith, d⟩
        · rintro S s hc h' ⟨a, b, c, d⟩
          exact q S s hc h' ⟨a, b, S h h1 hn h' a b (h4 h' a c d), d⟩
      · rw [if_neg hn] at hr
        obtain rfl := Option.some.inj hr
        exact ⟨fun _ => ⟨h, h1, by simpa using hn, h2, h3⟩, by simp⟩

private theorem shadowLoop_ub (eps far : K) (hits : List (Hit K M)) (accel : K → Option (Hit K M))
    (H : IsFirst hits far accel) (B : Bounded hits) : ∀ fuel near segs r,
      shadowLoop eps far accel fuel near segs = some r → ∃ s, r = .ok s := by
  intro fuel
  induction fuel with
  | zero => intro near segs r h; cases h
  | succ f ih =>
    intro near segs r hr
    unfold shadowLoop at hr
    cases e : accel near with
    | none => rw [e] at hr; exact ⟨_, (Option.some.inj hr).symm⟩
    | some h =>
      rw [e] at hr
      dsimp only at hr
      by_cases hn : h.isNull = true
      · rw [if_pos hn] at hr
        have hbd := B h (isFirst_some H e).1 hn
        cases hb : h.boundary with
        | none => rw [hb] at hbd; cases hbd
        | some b =>
          rw [hb] at hr
          cases b with
          | none => exact ih _ _ _ hr
          | some m =>
            dsimp only at hr
            cases e' : accel (h.t + eps) with
            | none => rw [e'] at hr; exact ih _ _ _ hr
            | some h' =>
              rw [e'] at hr
              dsimp only at hr
              split_ifs at hr
              · exact ⟨_, (Option.some.inj hr).symm⟩
              · exact ⟨_, (Option.some.inj hr).symm⟩
              · exact ih _ _ _ hr
      · rw [if_neg hn] at hr; exact ⟨_, (Option.some.inj hr).symm⟩

/-- If all null surfaces have a boundary record, the query never dereferences a null pointer. -/
theorem shadow_safe (eps far near : K) (hits : List (Hit K M)) (accel : K → Option (Hit K M))
    (H : IsFirst hits far accel) (B : Bounded hits) (initial : Option M) (fuel : ℕ) (r : Res (Shadow K M))
    (hr : shadowWalk eps far accel initial fuel near = some r) : ∃ s, r = .ok s := by
  unfold shadowWalk at hr
  cases initial with
  | none => exact shadowLoop_ub eps far hits accel H B _ _ _ _ hr
  | some m =>
    dsimp only at hr
    cases e : accel near with
    | none => rw [e] at hr; exact shadowLoop_ub eps far hits accel H B _ _ _ _ hr
    | some h =>
      rw [e] at hr
      dsimp only at hr
      split_ifs at hr
      · exact shadowLoop_ub eps far hits accel H B _ _ _ _ hr
      · exact ⟨_, (Option.some.inj hr).symm⟩

/-- A null surface declared without media: a shadow ray that reaches it first dereferences a null pointer. -/
theorem shadow_no_boundary_ub (eps far near : K) (hits : List (Hit K M)) (accel : K → Option (Hit K M))
    (h : Hit K M) (e : accel near = some h) (hn : h.isNull = true) (hb : h.boundary = none) (fuel : ℕ) :
    shadowWalk eps far accel none (fuel + 1) near = some (.ub "null pointer") := by
  unfold shadowWalk shadowLoop
  simp [e, hn, hb]

/-! ### Transmittance along shadow rays -/

/-- The factor applied to the throughput is the product over the stretches, in any order. -/
theorem transmittance_product (trans : Segment K M → K) : ∀ (segs : List (Segment K M)) (beta : K),
    applyTransmittance trans segs beta = beta * (segs.map trans).prod
  | [], beta => by simp [applyTransmittance]
  | s :: segs, beta => by
    have := transmittance_product trans segs (beta * trans s)
    unfold applyTransmittance at this ⊢
    rw [List.foldl_cons, this, List.map_cons, List.prod_cons, mul_assoc]

/-- Transmittances between 0 and 1 keep the throughput between 0 and its old value. -/
theorem transmittance_bounds (trans : Segment K M → K) (h0 : ∀ s, 0 ≤ trans s) (h1 : ∀ s, trans s ≤ 1) :
    ∀ (segs : List (Segment K M)) (beta : K), 0 ≤ beta →
      0 ≤ applyTransmittance trans segs beta ∧ applyTransmittance trans segs beta ≤ beta
  | [], beta, hb => ⟨hb, le_refl _⟩
  | s :: segs, beta, hb => by
    have := transmittance_bounds trans h0 h1 segs (beta * trans s) (mul_nonneg hb (h0 s))
    have e : applyTransmittance trans (s :: segs) beta = applyTransmittance trans segs (beta * trans s) := rfl
    rw [e]
    exact ⟨this.1, this.2.trans (mul_le_of_le_one_right hb (h1 s))⟩

/-- In empty space the shadow ray is clear and the throughput unchanged. -/
theorem transmittance_empty (eps far near : K) (accel : K → Option (Hit K M)) (h : accel near = none)
    (trans : Segment K M → K) (fuel : ℕ) (beta : K) :
    intersectTransmittance eps far accel none trans (fuel + 1) near beta = some (.ok (false, beta)) := by
  simp [intersectTransmittance, shadowWalk, shadowLoop, h, applyTransmittance]

/-- Partial (one medium on the ray; the full claim is for any number of media and is refuted below): a ray that
enters a medium at `a` and leaves it at `b` is attenuated exactly by the stretch from `a + eps` to `b`. -/
theorem transmittance_one_medium_partial (eps : K) (he : 0 < eps) (far near a b : K) (m : M) (h1 : near ≤ a)
    (h2 : a + eps ≤ b) (h3 : b ≤ far) (accel : K → Option (Hit K M))
    (H : IsFirst [⟨a, true, some (some m)⟩, ⟨b, true, some (some m)⟩] far accel) (trans : Segment K M → K)
    (beta : K) :
    intersectTransmittance eps far accel none trans 3 near beta = some (.ok (false, beta * trans ⟨a + eps, b, m⟩)) := by
  have n0 : accel near = some ⟨a, true, some (some m)⟩ := by
    cases e : accel near with
    | none => have := isFirst_none H e ⟨a, true, some (some m)⟩ (by simp) h1; simp at this; linarith
    | some h =>
      obtain ⟨p, _, _, q⟩ := isFirst_some H e
      have := q ⟨a, true, some (some m)⟩ (by simp) h1 (by simp; linarith)
      simp at p this
      rcases p with rfl | rfl
      · rfl
      · simp at this; linarith
  have n1 : accel (a + eps) = some ⟨b, true, some (some m)⟩ := by
    cases e : accel (a + eps) with
    | none => have := isFirst_none H e ⟨b, true, some (some m)⟩ (by simp) h2; simp at this; linarith
    | some h =>
      obtain ⟨p, p', _, _⟩ := isFirst_some H e
      simp at p
      rcases p with rfl | rfl
      · simp at p'; linarith
      · rfl
  have n2 : accel (b + eps) = none := by
    cases e : accel (b + eps) with
    | none => rfl
    | some h =>
      obtain ⟨p, p', _, _⟩ := isFirst_some H e
      simp at p
      rcases p with rfl | rfl <;> simp at p' <;> linarith
  unfold intersectTransmittance shadowWalk
  by_cases hbf : b ≥ far
  · simp [shadowLoop, n0, n1, hbf, applyTransmittance]
  · simp [shadowLoop, n0, n1, n2, hbf, applyTransmittance]

/-- Two media with empty space between them: the empty stretch is attenuated as if it were filled with the
first medium. -/
theorem transmittance_two_media_refuted :
    ∃ segs, shadowWalk (1 / 10) 100
      (firstOf ([⟨1, true, some (some 1)⟩, ⟨2, true, some (some 1)⟩, ⟨5, true, some (some 2)⟩, ⟨6, true, some (some 2)⟩] :
        List (Hit ℚ ℕ)) 100) none 9 0 = some (.ok (.clear segs)) ∧ (⟨2 + 1 / 10, 5, 1⟩ : Segment ℚ ℕ) ∈ segs := by
  refine ⟨[⟨1 + 1 / 10, 2, 1⟩, ⟨2 + 1 / 10, 5, 1⟩, ⟨5 + 1 / 10, 6, 2⟩], ?_, by simp⟩
  norm_num [shadowWalk, shadowLoop, firstOf]

/-- A ray that starts inside a medium that has no boundary in front of it is attenuated over its whole
length. -/
theorem transmittance_inside (eps far near : K) (accel : K → Option (Hit K M)) (m : M) (h : accel near = none)
    (trans : Segment K M → K) (fuel : ℕ) (beta : K) :
    intersectTransmittance eps far accel (some m) trans (fuel + 1) near beta =
      some (.ok (false, beta * trans ⟨near, far, m⟩)) := by
  simp [intersectTransmittance, shadowWalk, shadowLoop, h, applyTransmittance]

example : Separated (1 / 1000) ([⟨1, true, some none⟩, ⟨3, false, none⟩] : List (Hit ℚ ℕ)) ∧
    Bounded ([⟨1, true, some none⟩, ⟨3, false, none⟩] : List (Hit ℚ ℕ)) ∧
    shadowWalk (1 / 1000) 10 (firstOf ([⟨1, true, some none⟩, ⟨3, false, none⟩] : List (Hit ℚ ℕ)) 10) none 3 0 =
      some (.ok .blocked) := by
  refine ⟨?_, ?_, ?_⟩
  · simp [Separated]; norm_num
  · simp [Bounded]
  · norm_num [shadowWalk, shadowLoop, firstOf]

end Feign.Scene
