import Verif.Pool.Sched

/-! Helper lemmas for the scheduler theorems. -/

namespace Feign.Pool

variable {τ : Type}

/-- Tiles of the threads that can still be joined. -/
def running (slots : List (Slot τ)) : List τ :=
  (slots.filter (·.joinable)).map (·.tile)

theorem popBack_none {l : List τ} : popBack l = none ↔ l = [] := by
  unfold popBack
  cases h : l.getLast? with
  | none => simp [List.getLast?_eq_none_iff.1 h]
  | some t =>
    simp only [reduceCtorEq, false_iff]
    intro h0; subst h0; simp at h

theorem popBack_some {l rest : List τ} {t : τ} (h : popBack l = some (rest, t)) :
    l = rest ++ [t] := by
  unfold popBack at h
  cases hl : l.getLast? with
  | none => simp [hl] at h
  | some t' =>
    simp only [hl, Option.some.injEq, Prod.mk.injEq] at h
    obtain ⟨rfl, rfl⟩ := h
    obtain ⟨ys, rfl⟩ := List.getLast?_eq_some_iff.1 hl
    simp

/-- What every part of the scheduler preserves. -/
structure Inv (tiles : List τ) (run : List τ) (c : Core τ) : Prop where
  order : c.started ++ c.todo.reverse = tiles.reverse
  perm : (c.joined ++ run).Perm c.started

theorem launch_spec (tiles : List τ) : ∀ (n : Nat) (c : Core τ) (run : List τ),
    Inv tiles run c →
    (n ≤ c.todo.length → ∃ slots c', launch n c = .ok (slots, c') ∧ slots.length = n ∧
      (∀ s ∈ slots, s.joinable = true) ∧ Inv tiles (run ++ running slots) c' ∧
      c'.todo.length = c.todo.length - n ∧ c'.joined = c.joined) ∧
    (c.todo.length < n → launch n c = .ub "tiles_to_do is empty") := by
  intro n
  induction n with
  | zero =>
    intro c run hi
    refine ⟨fun _ => ⟨[], c, rfl, rfl, by simp, by simpa [running] using hi, by simp, rfl⟩, fun h => by omega⟩
  | succ n ih =>
    intro c run hi
    unfold launch
    cases hp : popBack c.todo with
    | none =>
      have h0 := popBack_none.1 hp
      refine ⟨fun h => by simp [h0] at h, fun _ => rfl⟩
    | some p =>
      obtain ⟨rest, t⟩ := p
      have ht := popBack_some hp
      have hi' : Inv tiles (run ++ [t]) { c with todo := rest, started := c.started ++ [t] } := by
        constructor
        · have := hi.order
          rw [ht] at this
          simpa using this
        · have := hi.perm
          simp only
          rw [← List.append_assoc]
          exact this.append_right [t]
      obtain ⟨ih1, ih2⟩ := ih _ _ hi'
      have hlen : c.todo.length = rest.length + 1 := by rw [ht]; simp
      constructor
      · intro hn
        obtain ⟨slots, c', e, hl, hj, hinv, hlen', hjn⟩ := ih1 (by simp only; omega)
        refine ⟨{ tile := t, joinable := true } :: slots, c', ?_, by simp [hl], ?_, ?_, ?_, ?_⟩
        · simp only at e ⊢
          simp [e]
        · intro s hs
          rcases List.mem_cons.1 hs with rfl | hs
          · rfl
          · exact hj s hs
        · simpa [running] using hinv
        · simp only at hlen'; omega
        · simpa using hjn
      · intro hn
        have := ih2 (by simp only; omega)
        simp only at this ⊢
        simp [this]

theorem sweep_spec (tiles : List τ) (flags : Nat → Bool) :
    ∀ (slots : List (Slot τ)) (i : Nat) (c : Core τ) (run : List τ),
    (∀ s ∈ slots, s.joinable = true) → Inv tiles (run ++ running slots) c →
    ∃ slots' c', sweep flags i slots c = .ok (slots', c') ∧ slots'.length = slots.length ∧
      Inv tiles (run ++ running slots') c' ∧
      (c'.todo ≠ [] → ∀ s ∈ slots', s.joinable = true) ∧
      c'.todo.length ≤ c.todo.length ∧
      ((∃ k, i ≤ k ∧ k < i + slots.length ∧ flags k = true) → c.todo ≠ [] →
        c'.todo.length < c.todo.length) := by
  intro slots
  induction slots with
  | nil =>
    intro i c run hj hi
    refine ⟨[], c, rfl, rfl, hi, by simp, Nat.le_refl _, ?_⟩
    rintro ⟨k, h1, h2, -⟩
    simp at h2; omega
  | cons s ss ih =>
    intro i c run hj hi
    have hsj : s.joinable = true := hj s (by simp)
    have hrun : running (s :: ss) = s.tile :: running ss := by simp [running, hsj]
    -- the state after polling `s`
    have key : ∃ s' c1, pollSlot (flags i) s c = .ok (s', c1) ∧
        Inv tiles (run ++ running [s'] ++ running ss) c1 ∧
        (c1.todo ≠ [] → s'.joinable = true) ∧ c1.todo.length ≤ c.todo.length ∧
        (flags i = true → c.todo ≠ [] → c1.todo.length < c.todo.length) := by
      unfold pollSlot
      by_cases hf : flags i = true
      · simp only [hf, if_true, hsj]
        cases hp : popBack c.todo with
        | none =>
          have h0 := popBack_none.1 hp
          refine ⟨_, _, rfl, ?_, ?_, Nat.le_refl _, ?_⟩
          · refine ⟨hi.order, ?_⟩
            have := hi.perm
            rw [hrun] at this
            refine List.Perm.trans ?_ this
            simp only [running, List.filter_cons, List.filter_nil]
            simp only [Bool.false_eq_true, if_false, List.map_nil, List.append_nil, List.append_assoc,
              List.singleton_append]
            refine List.Perm.append_left _ ?_
            exact List.perm_middle.symm
          · intro h; exact absurd h0 h
          · intro _ h; exact absurd h0 h
        | some p =>
          obtain ⟨rest, t⟩ := p
          have ht := popBack_some hp
          refine ⟨_, _, rfl, ?_, fun _ => rfl, ?_, ?_⟩
          · constructor
            · have := hi.order
              rw [ht] at this
              simpa using this
            · have := hi.perm
              rw [hrun] at this
              have h2 : (c.joined ++ [s.tile] ++ (run ++ [t] ++ running ss)).Perm
                  ((c.joined ++ (run ++ s.tile :: running ss)) ++ [t]) := by
                simp only [List.append_assoc, List.singleton_append]
                refine List.Perm.append_left _ ?_
                refine List.Perm.trans ?_
                  (List.perm_middle (l₁ := run) (a := s.tile) (l₂ := running ss ++ [t])).symm
                refine List.Perm.cons _ ?_
                refine List.Perm.append_left _ ?_
                exact (List.perm_append_singleton t (running ss)).symm
              refine List.Perm.trans ?_ (this.append_right [t])
              simpa [running] using h2
          · simp only; rw [ht]; simp
          · intro _ _; simp only; rw [ht]; simp
      · simp only [hf]
        refine ⟨s, c, rfl, ?_, fun _ => hsj, Nat.le_refl _, fun h => absurd h (by simp)⟩
        rw [hrun] at hi
        simpa [running, hsj] using hi
    obtain ⟨s', c1, e1, hi1, hj1, hl1, hp1⟩ := key
    obtain ⟨ss', c2, e2, hlen, hi2, hj2, hl2, hp2⟩ :=
      ih (i + 1) c1 (run ++ running [s']) (fun s hs => hj s (by simp [hs])) hi1
    refine ⟨s' :: ss', c2, ?_, by simp [hlen], ?_, ?_, by omega, ?_⟩
    · simp [sweep, e1, e2]
    · have : run ++ running (s' :: ss') = run ++ running [s'] ++ running ss' := by
        simp [running, List.filter_cons]
        cases s'.joinable <;> simp
      rw [this]; exact hi2
    · intro h x hx
      rcases List.mem_cons.1 hx with rfl | hx
      · apply hj1
        intro h0; apply h
        have : c1.todo.length = 0 := by simp [h0]
        exact List.length_eq_zero_iff.1 (by omega)
      · exact hj2 h x hx
    · rintro ⟨k, hk1, hk2, hk3⟩ hne
      by_cases hki : k = i
      · subst hki
        have := hp1 hk3 hne
        omega
      · by_cases h1 : c1.todo = []
        · have : c1.todo.length = 0 := by simp [h1]
          have : 0 < c.todo.length := List.length_pos_iff.2 hne
          omega
        · have := hp2 ⟨k, by omega, by simp at hk2; omega, hk3⟩ h1
          omega

theorem pollLoop_safe (tiles : List τ) (oracle : Nat → Nat → Bool) :
    ∀ (fuel k : Nat) (slots : List (Slot τ)) (c : Core τ),
    (c.todo ≠ [] → ∀ s ∈ slots, s.joinable = true) → Inv tiles (running slots) c →
    pollLoop oracle fuel k slots c = none ∨
    ∃ slots' c', pollLoop oracle fuel k slots c = some (.ok (slots', c')) ∧ c'.todo = [] ∧
      slots'.length = slots.length ∧ Inv tiles (running slots') c' := by
  intro fuel
  induction fuel with
  | zero => intro k slots c _ _; exact Or.inl rfl
  | succ n ih =>
    intro k slots c hj hi
    unfold pollLoop
    by_cases h0 : c.todo = []
    · right
      exact ⟨slots, c, by simp [h0], h0, rfl, hi⟩
    · rw [if_neg h0]
      obtain ⟨slots', c', e, hlen, hi', hj', -, -⟩ :=
        sweep_spec tiles (oracle k) slots 0 c [] (hj h0) (by simpa using hi)
      rw [e]
      rcases ih (k + 1) slots' c' hj' (by simpa using hi') with h | ⟨s2, c2, e2, t2, l2, i2⟩
      · exact Or.inl h
      · exact Or.inr ⟨s2, c2, e2, t2, by omega, i2⟩

theorem pollLoop_terminates (tiles : List τ) (oracle : Nat → Nat → Bool) (n : Nat)
    (fair : ∀ k, ∃ k', k ≤ k' ∧ ∃ i, i < n ∧ oracle k' i = true) :
    ∀ (m k : Nat) (slots : List (Slot τ)) (c : Core τ), c.todo.length ≤ m → slots.length = n →
    (c.todo ≠ [] → ∀ s ∈ slots, s.joinable = true) → Inv tiles (running slots) c →
    ∃ fuel r, pollLoop oracle fuel k slots c = some r := by
  intro m
  induction m with
  | zero =>
    intro k slots c hm _ _ _
    have : c.todo = [] := List.length_eq_zero_iff.1 (by omega)
    exact ⟨1, .ok (slots, c), by simp [pollLoop, this]⟩
  | succ m ih =>
    intro k slots c hm hn hj hi
    obtain ⟨k', hk', i, hin, hf⟩ := fair k
    -- induction on the number of sweeps until the flagged one
    obtain ⟨d, rfl⟩ : ∃ d, k' = k + d := ⟨k' - k, by omega⟩
    clear hk'
    induction d generalizing k slots c with
    | zero =>
      by_cases h0 : c.todo = []
      · exact ⟨1, .ok (slots, c), by simp [pollLoop, h0]⟩
      · obtain ⟨slots', c', e, hlen, hi', hj', _, hp⟩ :=
          sweep_spec tiles (oracle k) slots 0 c [] (hj h0) (by simpa using hi)
        have hlt := hp ⟨i, by omega, by omega, by simpa using hf⟩ h0
        obtain ⟨fuel, r, hr⟩ := ih (k + 1) slots' c' (by omega) (by omega) hj' (by simpa using hi')
        exact ⟨fuel + 1, r, by simp [pollLoop, h0, e, hr]⟩
    | succ d ihd =>
      by_cases h0 : c.todo = []
      · exact ⟨1, .ok (slots, c), by simp [pollLoop, h0]⟩
      · obtain ⟨slots', c', e, hlen, hi', hj', hle, -⟩ :=
          sweep_spec tiles (oracle k) slots 0 c [] (hj h0) (by simpa using hi)
        obtain ⟨fuel, r, hr⟩ := ihd (k + 1) slots' c' (by omega) (by omega) hj' (by simpa using hi')
          (by rw [show k + 1 + d = k + (d + 1) by omega]; exact hf)
        exact ⟨fuel + 1, r, by simp [pollLoop, h0, e, hr]⟩

theorem finalJoin_spec (slots : List (Slot τ)) (c : Core τ) :
    (finalJoin slots c).2.joined = c.joined ++ running slots ∧
    (finalJoin slots c).2.started = c.started ∧ (finalJoin slots c).2.todo = c.todo ∧
    (∀ s ∈ (finalJoin slots c).1, s.joinable = false) ∧
    (finalJoin slots c).1.length = slots.length := by
  induction slots generalizing c with
  | nil => simp [finalJoin, running]
  | cons s ss ih =>
    simp only [finalJoin]
    obtain ⟨h1, h2, h3, h4, h5⟩ := ih (if s.joinable then { c with joined := c.joined ++ [s.tile] } else c)
    refine ⟨?_, ?_, ?_, ?_, ?_⟩
    · rw [h1]
      cases hj : s.joinable <;> simp [running, hj]
    · rw [h2]; split <;> rfl
    · rw [h3]; split <;> rfl
    · intro x hx
      rcases List.mem_cons.1 hx with rfl | hx
      · rfl
      · exact h4 x hx
    · simp [h5]

end Feign.Pool
