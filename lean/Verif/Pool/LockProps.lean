import Verif.Pool.Lock
import Mathlib.Tactic.Abel
import Mathlib.Algebra.Order.BigOperators.Group.Finset
import Mathlib.Data.List.FinRange

/-!
# C04: the accumulated image does not depend on how workers interleave
-/

namespace Feign.Pool

variable {P K : Type} [DecidableEq P] [AddCommGroup K] {n : Nat}

/-! ### Invariant (helpers) -/

/-- What `u` contributes to channel `c` of pixel `p`. -/
def contrib (p : P) (c : Fin 4) (u : Upd P K) : K := if p = u.pix then u.amount c else 0

/-- What the list of updates contributes. -/
def contribs (p : P) (c : Fin 4) (us : List (Upd P K)) : K := (us.map (contrib p c)).sum

/-- What a worker still has to contribute. -/
def pend (p : P) (c : Fin 4) (w : Worker P K) : K :=
  contribs p c w.rest +
    match w.cur with
    | none => 0
    | some b => if p = b.upd.pix ∧ b.next ≤ (c : Nat) then b.upd.amount c else 0

structure LockInv (total : P → Fin 4 → K) (s : Shared P K n) : Prop where
  conserve : ∀ p c, s.mem p c + ∑ t, pend p c (s.worker t) = total p c
  holds : ∀ t b, (s.worker t).cur = some b → s.lock b.upd.pix = some t
  held : ∀ p t, s.lock p = some t → ∃ b, (s.worker t).cur = some b ∧ b.upd.pix = p
  regs : ∀ t b r, (s.worker t).cur = some b → b.reg = some r →
    ∃ c : Fin 4, b.next = c ∧ r = s.mem b.upd.pix c
  range : ∀ t b, (s.worker t).cur = some b → b.next ≤ 4

theorem foldl_applyUpd (us : List (Upd P K)) (mem : P → Fin 4 → K) (p : P) (c : Fin 4) :
    us.foldl applyUpd mem p c = mem p c + contribs p c us := by
  induction us generalizing mem with
  | nil => simp [contribs]
  | cons u us ih =>
    simp only [List.foldl_cons, ih, contribs, List.map_cons, List.sum_cons, applyUpd, contrib]
    split <;> abel

theorem contribs_append (p : P) (c : Fin 4) (a b : List (Upd P K)) :
    contribs p c (a ++ b) = contribs p c a + contribs p c b := by
  simp [contribs]

theorem contribs_flatten (p : P) (c : Fin 4) (l : List (List (Upd P K))) :
    contribs p c l.flatten = (l.map (contribs p c)).sum := by
  induction l with
  | nil => simp [contribs]
  | cons a l ih => simp [contribs_append, ih]

omit [DecidableEq P] in
private theorem sum_update (f : Worker P K → K) (w : Fin n → Worker P K) (t : Fin n) (x : Worker P K) :
    ∑ i, f (Function.update w t x i) + f (w t) = ∑ i, f (w i) + f x := by
  have h1 := Finset.add_sum_erase Finset.univ (fun i => f (Function.update w t x i)) (Finset.mem_univ t)
  have h2 := Finset.add_sum_erase Finset.univ (fun i => f (w i)) (Finset.mem_univ t)
  have h3 : ∑ i ∈ Finset.univ.erase t, f (Function.update w t x i) =
      ∑ i ∈ Finset.univ.erase t, f (w i) := by
    apply Finset.sum_congr rfl
    intro i hi
    rw [Function.update_of_ne (Finset.ne_of_mem_erase hi)]
  simp only [Function.update_self] at h1
  rw [← h1, ← h2, h3]
  abel

theorem LockInv.start (mem0 : P → Fin 4 → K) (progs : Fin n → List (Upd P K)) :
    LockInv (fun p c => mem0 p c + ∑ t, contribs p c (progs t)) (Shared.start mem0 progs) := by
  constructor
  · intro p c; simp [Shared.start, pend]
  · intro t b h; simp [Shared.start] at h
  · intro p t h; simp [Shared.start] at h
  · intro t b r h; simp [Shared.start] at h
  · intro t b h; simp [Shared.start] at h

theorem LockInv.step {total : P → Fin 4 → K} {s s' : Shared P K n} (hs : LockInv total s)
    (h : Step s s') : LockInv total s' := by
  cases h with
  | acquire t u us hcur hfree =>
    constructor
    · intro p c
      have e := sum_update (pend p c) s.worker t ⟨us, some ⟨u, 0, none⟩⟩
      have e2 : pend p c (s.worker t) = pend p c ⟨us, some ⟨u, 0, none⟩⟩ := by
        rw [hcur]; simp [pend, contribs, contrib]; abel
      have := hs.conserve p c
      simp only
      rw [e2] at e
      rw [add_right_cancel e]
      exact this
    · intro t' b hb
      by_cases htt : t' = t
      · subst htt
        simp only [Function.update_self, Option.some.injEq] at hb
        subst hb
        simp
      · simp only [Function.update_of_ne htt] at hb
        have hl := hs.holds t' b hb
        have hne : b.upd.pix ≠ u.pix := by
          intro h; rw [h, hfree] at hl; cases hl
        simp only [Function.update_of_ne hne]
        exact hl
    · intro p t' hl
      by_cases hp : p = u.pix
      · subst hp
        simp only [Function.update_self, Option.some.injEq] at hl
        subst hl
        exact ⟨⟨u, 0, none⟩, by simp, rfl⟩
      · simp only [Function.update_of_ne hp] at hl
        obtain ⟨b, hb, hbp⟩ := hs.held p t' hl
        have htt : t' ≠ t := by
          intro h; subst h; rw [hcur] at hb; cases hb
        exact ⟨b, by simp only [Function.update_of_ne htt]; exact hb, hbp⟩
    · intro t' b r hb hr
      by_cases htt : t' = t
      · subst htt
        simp only [Function.update_self, Option.some.injEq] at hb
        subst hb
        cases hr
      · simp only [Function.update_of_ne htt] at hb
        exact hs.regs t' b r hb hr
    · intro t' b hb
      by_cases htt : t' = t
      · subst htt
        simp only [Function.update_self, Option.some.injEq] at hb
        subst hb
        simp
      · simp only [Function.update_of_ne htt] at hb
        exact hs.range t' b hb
  | read t us u c hcur =>
    constructor
    · intro p c'
      have e := sum_update (pend p c') s.worker t ⟨us, some ⟨u, c, some (s.mem u.pix c)⟩⟩
      have e2 : pend p c' (s.worker t) = pend p c' ⟨us, some ⟨u, c, some (s.mem u.pix c)⟩⟩ := by
        rw [hcur]; simp [pend]
      have := hs.conserve p c'
      simp only
      rw [e2] at e
      rw [add_right_cancel e]
      exact this
    · intro t' b hb
      by_cases htt : t' = t
      · subst htt
        simp only [Function.update_self, Option.some.injEq] at hb
        subst hb
        exact hs.holds t' ⟨u, c, none⟩ (by rw [hcur])
      · simp only [Function.update_of_ne htt] at hb
        exact hs.holds t' b hb
    · intro p t' hl
      obtain ⟨b, hb, hbp⟩ := hs.held p t' hl
      by_cases htt : t' = t
      · subst htt
        rw [hcur] at hb
        simp only [Option.some.injEq] at hb
        subst hb
        exact ⟨⟨u, c, some (s.mem u.pix c)⟩, by simp, hbp⟩
      · exact ⟨b, by simp only [Function.update_of_ne htt]; exact hb, hbp⟩
    · intro t' b r hb hr
      by_cases htt : t' = t
      · subst htt
        simp only [Function.update_self, Option.some.injEq] at hb
        subst hb
        simp only [Option.some.injEq] at hr
        subst hr
        exact ⟨c, rfl, rfl⟩
      · simp only [Function.update_of_ne htt] at hb
        exact hs.regs t' b r hb hr
    · intro t' b hb
      by_cases htt : t' = t
      · subst htt
        simp only [Function.update_self, Option.some.injEq] at hb
        subst hb
        simp only
        omega
      · simp only [Function.update_of_ne htt] at hb
        exact hs.range t' b hb
  | write t us u c r hcur =>
    have hl : s.lock u.pix = some t := hs.holds t ⟨u, c, some r⟩ (by rw [hcur])
    have hr : r = s.mem u.pix c := by
      obtain ⟨c', h1, h2⟩ := hs.regs t ⟨u, c, some r⟩ r (by rw [hcur]) rfl
      have : c = c' := Fin.ext h1
      rw [this]; exact h2
    constructor
    · intro p c'
      have e := sum_update (pend p c') s.worker t ⟨us, some ⟨u, c + 1, none⟩⟩
      have := hs.conserve p c'
      simp only
      by_cases hp : p = u.pix
      · subst hp
        by_cases hc : c' = c
        · subst hc
          have e2 : pend u.pix c' (s.worker t) =
              pend u.pix c' ⟨us, some ⟨u, c' + 1, none⟩⟩ + u.amount c' := by
            rw [hcur]; simp [pend]
          rw [e2, ← add_assoc, add_right_comm] at e
          have e3 := add_right_cancel e
          simp only [Function.update_self]
          rw [hr, ← this, ← e3]
          abel
        · have e2 : pend u.pix c' (s.worker t) = pend u.pix c' ⟨us, some ⟨u, c + 1, none⟩⟩ := by
            rw [hcur]
            simp only [pend, true_and]
            have hne : (c : Nat) ≠ c' := fun h => hc (Fin.ext h.symm)
            congr 1
            by_cases hle : (c : Nat) ≤ c'
            · rw [if_pos hle, if_pos (by omega)]
            · rw [if_neg hle, if_neg (by omega)]
          rw [e2] at e
          simp only [Function.update_self, Function.update_of_ne hc]
          rw [add_right_cancel e]
          exact this
      · have e2 : pend p c' (s.worker t) = pend p c' ⟨us, some ⟨u, c + 1, none⟩⟩ := by
          rw [hcur]; simp [pend, hp]
        rw [e2] at e
        simp only [Function.update_of_ne hp]
        rw [add_right_cancel e]
        exact this
    · intro t' b hb
      by_cases htt : t' = t
      · subst htt
        simp only [Function.update_self, Option.some.injEq] at hb
        subst hb
        exact hl
      · simp only [Function.update_of_ne htt] at hb
        exact hs.holds t' b hb
    · intro p t' hl'
      obtain ⟨b, hb, hbp⟩ := hs.held p t' hl'
      by_cases htt : t' = t
      · subst htt
        rw [hcur] at hb
        simp only [Option.some.injEq] at hb
        subst hb
        exact ⟨⟨u, c + 1, none⟩, by simp, hbp⟩
      · exact ⟨b, by simp only [Function.update_of_ne htt]; exact hb, hbp⟩
    · intro t' b r' hb hr'
      by_cases htt : t' = t
      · subst htt
        simp only [Function.update_self, Option.some.injEq] at hb
        subst hb
        cases hr'
      · simp only [Function.update_of_ne htt] at hb
        have hne : b.upd.pix ≠ u.pix := by
          intro h
          have := hs.holds t' b hb
          rw [h, hl] at this
          exact htt (Option.some.inj this).symm
        obtain ⟨c', h1, h2⟩ := hs.regs t' b r' hb hr'
        exact ⟨c', h1, by simp only [Function.update_of_ne hne]; exact h2⟩
    · intro t' b hb
      by_cases htt : t' = t
      · subst htt
        simp only [Function.update_self, Option.some.injEq] at hb
        subst hb
        simp only
        omega
      · simp only [Function.update_of_ne htt] at hb
        exact hs.range t' b hb
  | release t us u hcur =>
    constructor
    · intro p c
      have e := sum_update (pend p c) s.worker t ⟨us, none⟩
      have e2 : pend p c (s.worker t) = pend p c ⟨us, none⟩ := by
        rw [hcur]
        simp only [pend]
        rw [if_neg (by omega)]
      have := hs.conserve p c
      simp only
      rw [e2] at e
      rw [add_right_cancel e]
      exact this
    · intro t' b hb
      by_cases htt : t' = t
      · subst htt
        simp at hb
      · simp only [Function.update_of_ne htt] at hb
        have hl' := hs.holds t' b hb
        have hl := hs.holds t ⟨u, 4, none⟩ (by rw [hcur])
        have hne : b.upd.pix ≠ u.pix := by
          intro h; rw [h] at hl'; simp only at hl; rw [hl] at hl'
          exact htt (Option.some.inj hl').symm
        simp only [Function.update_of_ne hne]
        exact hl'
    · intro p t' hl'
      by_cases hp : p = u.pix
      · subst hp
        simp at hl'
      · simp only [Function.update_of_ne hp] at hl'
        obtain ⟨b, hb, hbp⟩ := hs.held p t' hl'
        have htt : t' ≠ t := by
          intro h; subst h; rw [hcur] at hb
          simp only [Option.some.injEq] at hb
          subst hb
          exact hp hbp.symm
        exact ⟨b, by simp only [Function.update_of_ne htt]; exact hb, hbp⟩
    · intro t' b r hb hr
      by_cases htt : t' = t
      · subst htt
        simp at hb
      · simp only [Function.update_of_ne htt] at hb
        exact hs.regs t' b r hb hr
    · intro t' b hb
      by_cases htt : t' = t
      · subst htt
        simp at hb
      · simp only [Function.update_of_ne htt] at hb
        exact hs.range t' b hb

theorem LockInv.reachable {total : P → Fin 4 → K} {s s' : Shared P K n} (hs : LockInv total s)
    (h : Relation.ReflTransGen Step s s') : LockInv total s' := by
  induction h with
  | refl => exact hs
  | tail _ h ih => exact ih.step h

/-! ### Property theorems -/

/-- **C04.** Start any number of workers on any programs, let them interleave in any way at the
granularity of single reads and writes; when all have finished, the buffers hold exactly what performing
the same updates one after another (worker by worker) would have produced. -/
theorem interleaving_independent (mem0 : P → Fin 4 → K) (progs : Fin n → List (Upd P K))
    (s : Shared P K n) (h : Relation.ReflTransGen Step (Shared.start mem0 progs) s) (hd : s.Done) :
    s.mem = ((List.finRange n).map progs).flatten.foldl applyUpd mem0 := by
  have hi := (LockInv.start mem0 progs).reachable h
  funext p c
  rw [foldl_applyUpd, contribs_flatten, List.map_map]
  have := hi.conserve p c
  simp only [hd _, pend, contribs, List.map_nil, List.sum_nil, add_zero, Finset.sum_const_zero] at this
  rw [this]
  congr 1

/-- **C04, order of workers and samples.** The sequential result only depends on which updates are
performed, not on their order: any permutation of all updates gives the same buffers. -/
theorem update_order_irrelevant (mem0 : P → Fin 4 → K) (a b : List (Upd P K)) (h : a.Perm b) :
    a.foldl applyUpd mem0 = b.foldl applyUpd mem0 := by
  funext p c
  rw [foldl_applyUpd, foldl_applyUpd]
  congr 1
  exact List.Perm.sum_eq (h.map _)

/-- **C04, mutual exclusion.** Two workers are never inside the locked block of the same pixel. -/
theorem mutual_exclusion (mem0 : P → Fin 4 → K) (progs : Fin n → List (Upd P K))
    (s : Shared P K n) (h : Relation.ReflTransGen Step (Shared.start mem0 progs) s)
    (t t' : Fin n) (b b' : Busy P K) (hb : (s.worker t).cur = some b)
    (hb' : (s.worker t').cur = some b') (hp : b.upd.pix = b'.upd.pix) : t = t' := by
  have hi := (LockInv.start mem0 progs).reachable h
  have h1 := hi.holds t b hb
  have h2 := hi.holds t' b' hb'
  rw [hp, h2] at h1
  exact (Option.some.inj h1).symm

/-- **C04, no deadlock.** As long as some worker has not finished, some worker can take a step. -/
theorem no_deadlock (mem0 : P → Fin 4 → K) (progs : Fin n → List (Upd P K))
    (s : Shared P K n) (h : Relation.ReflTransGen Step (Shared.start mem0 progs) s) (hd : ¬ s.Done) :
    ∃ s', Step s s' := by
  have hi := (LockInv.start mem0 progs).reachable h
  -- a worker inside the block can always step
  have busy : ∀ t b, (s.worker t).cur = some b → ∃ s', Step s s' := by
    intro t b hb
    obtain ⟨u, c, reg⟩ := b
    have hw : s.worker t = ⟨(s.worker t).rest, some ⟨u, c, reg⟩⟩ := by
      rw [← hb]
    cases reg with
    | none =>
      have hr := hi.range t _ hb
      simp only at hr
      by_cases hc : c = 4
      · subst hc
        exact ⟨_, Step.release s t _ u hw⟩
      · exact ⟨_, Step.read s t _ u ⟨c, by omega⟩ hw⟩
    | some r =>
      obtain ⟨c', h1, -⟩ := hi.regs t _ r hb rfl
      simp only at h1
      subst h1
      exact ⟨_, Step.write s t _ u c' r hw⟩
  by_cases hall : ∃ t b, (s.worker t).cur = some b
  · obtain ⟨t, b, hb⟩ := hall
    exact busy t b hb
  · have hnone : ∀ t, (s.worker t).cur = none := by
      intro t
      cases hc : (s.worker t).cur with
      | none => rfl
      | some b => exact absurd ⟨t, b, hc⟩ hall
    have : ∃ t, s.worker t ≠ ⟨[], none⟩ := by
      simpa [Shared.Done] using hd
    obtain ⟨t, ht⟩ := this
    have hc := hnone t
    cases hr : (s.worker t).rest with
    | nil =>
      exfalso; apply ht
      rw [← hr, ← hc]
    | cons u us =>
      have hw : s.worker t = ⟨u :: us, none⟩ := by rw [← hr, ← hc]
      have hfree : s.lock u.pix = none := by
        cases hl : s.lock u.pix with
        | none => rfl
        | some t' =>
          obtain ⟨b, hb, -⟩ := hi.held _ _ hl
          rw [hnone t'] at hb
          cases hb
      exact ⟨_, Step.acquire s t u us hw hfree⟩

/-- Every run is finite: the number of steps still to be taken decreases with every step, so together
with `no_deadlock` every maximal run ends with all workers done. -/
def remaining (s : Shared P K n) : Nat :=
  ∑ t, ((s.worker t).rest.length * 10 +
    match (s.worker t).cur with
    | none => 0
    | some b => 9 - 2 * b.next - (if b.reg.isSome then 1 else 0))

omit [DecidableEq P] [AddCommGroup K] in
private theorem nat_sum_update (f : Worker P K → Nat) (w : Fin n → Worker P K) (t : Fin n)
    (x : Worker P K) (h : f x < f (w t)) : ∑ i, f (Function.update w t x i) < ∑ i, f (w i) := by
  apply Finset.sum_lt_sum
  · intro i _
    by_cases hi : i = t
    · subst hi; simp only [Function.update_self]; omega
    · rw [Function.update_of_ne hi]
  · exact ⟨t, Finset.mem_univ t, by simpa using h⟩

theorem steps_decrease {s s' : Shared P K n} (h : Step s s') : remaining s' < remaining s := by
  let f : Worker P K → Nat := fun w => w.rest.length * 10 +
    match w.cur with
    | none => 0
    | some b => 9 - 2 * b.next - (if b.reg.isSome then 1 else 0)
  have key : ∀ (t : Fin n) (x : Worker P K), f x < f (s.worker t) →
      ∑ i, f (Function.update s.worker t x i) < ∑ i, f (s.worker i) :=
    fun t x hx => nat_sum_update f s.worker t x hx
  cases h with
  | acquire t u us hcur _ => exact key t _ (by rw [hcur]; simp [f]; omega)
  | read t us u c hcur => exact key t _ (by rw [hcur]; simp [f]; omega)
  | write t us u c r hcur => exact key t _ (by rw [hcur]; simp [f]; omega)
  | release t us u hcur => exact key t _ (by rw [hcur]; simp [f])

/-- Non-vacuity: two workers contending for one pixel; there is a reachable state in which one of them
is in the middle of its update while the other waits. -/
example : ∃ s : Shared Unit ℤ 2,
    Relation.ReflTransGen Step
      (Shared.start (fun _ _ => 0) (fun _ => [⟨(), fun _ => 5⟩])) s ∧
    s.lock () = some 0 ∧ ¬ s.Done := by
  refine ⟨_, .single (Step.acquire _ 0 ⟨(), fun _ => 5⟩ [] rfl rfl), by simp, ?_⟩
  intro h
  have := h 0
  simp at this

end Feign.Pool
