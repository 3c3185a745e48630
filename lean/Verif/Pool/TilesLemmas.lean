import Verif.Pool.Tiles

/-! Helper lemmas for the tile theorems. -/

namespace Feign.Pool

theorem loopValues_finishes (lim step : Int) (hs : 0 < step) :
    ∀ (fuel : Nat) (start : Int), (lim - start).toNat < fuel →
      ∃ l, loopValues lim step fuel start = some l := by
  intro fuel
  induction fuel with
  | zero => intro start h; omega
  | succ n ih =>
    intro start h
    unfold loopValues
    split
    · obtain ⟨l, hl⟩ := ih (start + step) (by omega)
      exact ⟨start :: l, by simp [hl]⟩
    · exact ⟨[], rfl⟩

theorem loopValues_mono (lim step : Int) :
    ∀ (fuel : Nat) (start : Int) (l : List Int), loopValues lim step fuel start = some l →
      ∀ fuel', fuel ≤ fuel' → loopValues lim step fuel' start = some l := by
  intro fuel
  induction fuel with
  | zero => intro start l h; simp [loopValues] at h
  | succ n ih =>
    intro start l h fuel' hf
    obtain ⟨m, rfl⟩ : ∃ m, fuel' = m + 1 := ⟨fuel' - 1, by omega⟩
    unfold loopValues at h ⊢
    split
    · rename_i hlt
      rw [if_pos hlt] at h
      cases hr : loopValues lim step n (start + step) with
      | none => simp [hr] at h
      | some r =>
        rw [ih _ _ hr m (by omega)]
        simpa [hr] using h
    · rename_i hlt
      rw [if_neg hlt] at h
      exact h

/-- How often the half-open strip `[v, v+step)` of a loop value `v` contains `x`. -/
def hits (step x : Int) (l : List Int) : Nat :=
  (l.filter (fun v => decide (v ≤ x ∧ x < v + step))).length

theorem loopValues_spec (lim step : Int) (hs : 0 < step) :
    ∀ (fuel : Nat) (start : Int) (l : List Int), loopValues lim step fuel start = some l →
      (∀ v ∈ l, start ≤ v ∧ v < lim) ∧
      (∀ x, x < lim → start ≤ x → hits step x l = 1) ∧
      (∀ x, x < start → hits step x l = 0) := by
  intro fuel
  induction fuel with
  | zero => intro start l h; simp [loopValues] at h
  | succ n ih =>
    intro start l h
    unfold loopValues at h
    split at h
    · rename_i hlt
      cases hr : loopValues lim step n (start + step) with
      | none => simp [hr] at h
      | some r =>
        simp only [hr, Option.map_some, Option.some.injEq] at h
        subst h
        obtain ⟨h1, h2, h3⟩ := ih _ _ hr
        refine ⟨?_, ?_, ?_⟩
        · intro v hv
          rcases List.mem_cons.1 hv with rfl | hv
          · omega
          · have := h1 v hv; omega
        · intro x hx hsx
          by_cases hc : x < start + step
          · have := h3 x hc
            simp only [hits] at this ⊢
            rw [List.filter_cons_of_pos (by simp; omega)]
            simp only [List.length_cons, this]
          · have := h2 x hx (by omega)
            simp only [hits] at this ⊢
            rw [List.filter_cons_of_neg (by simp; omega)]
            exact this
        · intro x hx
          have := h3 x (by omega)
          simp only [hits] at this ⊢
          rw [List.filter_cons_of_neg (by simp; omega)]
          exact this
    · simp only [Option.some.injEq] at h
      subst h
      refine ⟨by simp, ?_, by simp [hits]⟩
      intro x hx hsx
      omega

theorem loopValues_length (lim step : Int) (hs : 0 < step) :
    ∀ (fuel : Nat) (start : Int) (l : List Int), loopValues lim step fuel start = some l →
      start ≤ lim → (l.length : Int) = (lim - start + step - 1) / step := by
  intro fuel
  induction fuel with
  | zero => intro start l h; simp [loopValues] at h
  | succ n ih =>
    intro start l h hle
    unfold loopValues at h
    split at h
    · rename_i hlt
      cases hr : loopValues lim step n (start + step) with
      | none => simp [hr] at h
      | some r =>
        simp only [hr, Option.map_some, Option.some.injEq] at h
        subst h
        by_cases hc : start + step ≤ lim
        · have := ih _ _ hr hc
          simp only [List.length_cons]
          push_cast
          rw [this]
          have e : lim - start + step - 1 = (lim - (start + step) + step - 1) + step * 1 := by omega
          rw [e, Int.add_mul_ediv_left _ _ (by omega)]
        · have hnil : r = [] := by
            cases n with
            | zero => simp [loopValues] at hr
            | succ m =>
              unfold loopValues at hr
              rw [if_neg (by omega)] at hr
              simpa using hr.symm
          subst hnil
          simp only [List.length_cons, List.length_nil]
          symm
          have e : lim - start + step - 1 = (lim - start - 1) + step * 1 := by omega
          rw [e, Int.add_mul_ediv_left _ _ (by omega), Int.ediv_eq_zero_of_lt (by omega) (by omega)]
          rfl
    · simp only [Option.some.injEq] at h
      subst h
      have : lim = start := by omega
      subst this
      simp only [List.length_nil]
      symm
      exact Int.ediv_eq_zero_of_lt (by omega) (by omega)

theorem rowTiles_length (tw w h y : Int) (xs : List Int) (idx : Nat) :
    (rowTiles tw w h y xs idx).length = xs.length := by
  induction xs generalizing idx with
  | nil => rfl
  | cons x xs ih => simp [rowTiles, ih]

theorem allTiles_length (tw w h : Int) (xs ys : List Int) (idx : Nat) :
    (allTiles tw w h xs ys idx).length = ys.length * xs.length := by
  induction ys generalizing idx with
  | nil => simp [allTiles]
  | cons y ys ih => simp [allTiles, ih, rowTiles_length, Nat.add_mul, Nat.add_comm]

theorem rowTiles_mem (tw w h y : Int) (xs : List Int) (idx : Nat) (t : Tile)
    (ht : t ∈ rowTiles tw w h y xs idx) :
    ∃ x ∈ xs, t.minX = x ∧ t.minY = y ∧ t.maxX = min (x + tw) w ∧ t.maxY = min (y + tw) h := by
  induction xs generalizing idx with
  | nil => simp [rowTiles] at ht
  | cons x xs ih =>
    rcases List.mem_cons.1 ht with rfl | ht
    · exact ⟨x, by simp, rfl, rfl, rfl, rfl⟩
    · obtain ⟨x', hx', h⟩ := ih _ ht
      exact ⟨x', by simp [hx'], h⟩

theorem allTiles_mem (tw w h : Int) (xs ys : List Int) (idx : Nat) (t : Tile)
    (ht : t ∈ allTiles tw w h xs ys idx) :
    ∃ x ∈ xs, ∃ y ∈ ys, t.minX = x ∧ t.minY = y ∧ t.maxX = min (x + tw) w ∧
      t.maxY = min (y + tw) h := by
  induction ys generalizing idx with
  | nil => simp [allTiles] at ht
  | cons y ys ih =>
    rcases List.mem_append.1 ht with ht | ht
    · obtain ⟨x, hx, h⟩ := rowTiles_mem _ _ _ _ _ _ _ ht
      exact ⟨x, hx, y, by simp, h⟩
    · obtain ⟨x, hx, y', hy', h⟩ := ih _ ht
      exact ⟨x, hx, y', by simp [hy'], h⟩

theorem rowTiles_index (tw w h y : Int) (xs : List Int) (idx : Nat) :
    (rowTiles tw w h y xs idx).map (·.index) = List.range' idx xs.length := by
  induction xs generalizing idx with
  | nil => rfl
  | cons x xs ih => simp [rowTiles, ih, List.range'_succ]

theorem allTiles_index (tw w h : Int) (xs ys : List Int) (idx : Nat) :
    (allTiles tw w h xs ys idx).map (·.index) = List.range' idx (ys.length * xs.length) := by
  induction ys generalizing idx with
  | nil => simp [allTiles]
  | cons y ys ih =>
    simp only [allTiles, List.map_append, rowTiles_index, ih, List.length_cons]
    rw [List.range'_append_1]
    congr 1
    rw [Nat.add_mul]; omega

end Feign.Pool
