import Verif.Photons.ScatterProps
import Mathlib.Tactic.Push

/-! # When photon tracing ends -/

set_option linter.unusedSectionVars false
set_option linter.unusedVariables false
set_option linter.unusedSimpArgs false

namespace Feign.Photons

variable {K : Type} [Field K] [LinearOrder K] [IsStrictOrderedRing K]

/-- Specification: within `n` bounces, starting with bounce `i` at power `pw`, the path reaches a surface that is not
specular. Before that it may be passed on by specular surfaces: the sampled direction has a non-zero density and the
roulette lets the path live. -/
inductive Arrives (bs : ℕ → Bounce K) : ℕ → ℕ → V3 (Flt K) → Prop
  | here {n i : ℕ} {pw : V3 (Flt K)} {pos dir albedo : V3 K} {cos pdf u : K}
      (h : bs i = .hit pos dir false albedo cos pdf u) : Arrives bs (n + 1) i pw
  | passed {n i : ℕ} {pw : V3 (Flt K)} {pos dir albedo : V3 K} {cos pdf u : K}
      (h : bs i = .hit pos dir true albedo cos pdf u) (hp : pdf ≠ 0)
      (hu : Flt.gt (some u) (nextPower pw true albedo cos pdf).2 = false)
      (next : Arrives bs n (i + 1)
        (divPowerS (nextPower pw true albedo cos pdf).1 (nextPower pw true albedo cos pdf).2)) :
      Arrives bs (n + 1) i pw

/-- A path only adds photons, at most one per bounce, or overruns the array. -/
private theorem trace_grows (cap : ℕ) (bs : ℕ → Bounce K) : ∀ (n i : ℕ) (pw : V3 (Flt K)) (buf : List (Stored K)),
    (∃ new : List (Stored K), trace cap bs n i pw buf = .ok (buf ++ new) ∧ new.length ≤ n) ∨
      ∃ w, trace cap bs n i pw buf = .ub w
  | 0, i, pw, buf => Or.inl ⟨[], by simp [trace], by simp⟩
  | n + 1, i, pw, buf => by
    unfold trace
    cases hb : bs i with
    | miss => exact Or.inl ⟨[], by simp, by simp⟩
    | hit pos dir specular albedo cos pdf u =>
      dsimp only
      cases specular with
      | true =>
        simp only [if_true, Res.pure_eq, Res.bind_ok]
        by_cases h0 : pdf = 0
        · rw [if_pos h0]; exact Or.inl ⟨[], by simp, by simp⟩
        · rw [if_neg h0]
          split_ifs
          · exact Or.inl ⟨[], by simp, by simp⟩
          · rcases trace_grows cap bs n (i + 1) (divPowerS (nextPower pw true albedo cos pdf).1
              (nextPower pw true albedo cos pdf).2) buf with ⟨new, e, hl⟩ | ⟨w, e⟩
            · exact Or.inl ⟨new, e, by omega⟩
            · exact Or.inr ⟨w, e⟩
      | false =>
        by_cases hc : buf.length < cap
        · have hs : store cap buf ⟨pos, dir, pw⟩ = .ok (buf ++ [⟨pos, dir, pw⟩]) := by
            unfold store; rw [if_pos hc]
          simp only [Bool.false_eq_true, if_false, hs, Res.pure_eq, Res.bind_ok]
          by_cases h0 : pdf = 0
          · rw [if_pos h0]; exact Or.inl ⟨[_], rfl, by simp⟩
          · rw [if_neg h0]
            split_ifs
            · exact Or.inl ⟨[_], rfl, by simp⟩
            · rcases trace_grows cap bs n (i + 1) (divPowerS (nextPower pw false albedo cos pdf).1
                (nextPower pw false albedo cos pdf).2) (buf ++ [⟨pos, dir, pw⟩]) with ⟨new, e, hl⟩ | ⟨w, e⟩
              · exact Or.inl ⟨⟨pos, dir, pw⟩ :: new, by rw [e]; simp, by simp; omega⟩
              · exact Or.inr ⟨w, e⟩
        · have hs : store cap buf ⟨pos, dir, pw⟩ = .ub "photon array overrun" := by
            unfold store; rw [if_neg hc]
          simp only [Bool.false_eq_true, if_false, hs, Res.bind_ub]
          exact Or.inr ⟨_, rfl⟩

/-- A path that arrives adds a photon, or overruns the array. -/
private theorem trace_arrives (cap : ℕ) (bs : ℕ → Bounce K) {n i : ℕ} {pw : V3 (Flt K)} (h : Arrives bs n i pw)
    (buf : List (Stored K)) :
    (∃ new : List (Stored K), trace cap bs n i pw buf = .ok (buf ++ new) ∧ 1 ≤ new.length) ∨
      ∃ w, trace cap bs n i pw buf = .ub w := by
  induction h with
  | @here n i pw pos dir albedo cos pdf u h =>
    unfold trace
    rw [h]
    dsimp only
    by_cases hc : buf.length < cap
    · have hs : store cap buf ⟨pos, dir, pw⟩ = .ok (buf ++ [⟨pos, dir, pw⟩]) := by
        unfold store; rw [if_pos hc]
      simp only [Bool.false_eq_true, if_false, hs, Res.pure_eq, Res.bind_ok]
      by_cases h0 : pdf = 0
      · rw [if_pos h0]; exact Or.inl ⟨[_], rfl, by simp⟩
      · rw [if_neg h0]
        split_ifs
        · exact Or.inl ⟨[_], rfl, by simp⟩
        · rcases trace_grows cap bs n (i + 1) (divPowerS (nextPower pw false albedo cos pdf).1
            (nextPower pw false albedo cos pdf).2) (buf ++ [⟨pos, dir, pw⟩]) with ⟨new, e, hl⟩ | ⟨w, e⟩
          · exact Or.inl ⟨⟨pos, dir, pw⟩ :: new, by rw [e]; simp, by simp⟩
          · exact Or.inr ⟨w, e⟩
    · have hs : store cap buf ⟨pos, dir, pw⟩ = .ub "photon array overrun" := by
        unfold store; rw [if_neg hc]
      simp only [Bool.false_eq_true, if_false, hs, Res.bind_ub]
      exact Or.inr ⟨_, rfl⟩
  | @passed n i pw pos dir albedo cos pdf u h hp hu next ih =>
    unfold trace
    rw [h]
    simp only [if_true, Res.pure_eq, Res.bind_ok]
    rw [if_neg hp, if_neg (by simp [hu])]
    exact ih

/-- A path that does not arrive stores nothing. -/
private theorem trace_lost (cap : ℕ) (bs : ℕ → Bounce K) : ∀ (n i : ℕ) (pw : V3 (Flt K)) (buf : List (Stored K)),
    ¬ Arrives bs n i pw → trace cap bs n i pw buf = .ok buf
  | 0, i, pw, buf, _ => rfl
  | n + 1, i, pw, buf, h => by
    unfold trace
    cases hb : bs i with
    | miss => rfl
    | hit pos dir specular albedo cos pdf u =>
      cases specular with
      | false => exact absurd (Arrives.here hb) h
      | true =>
        simp only [if_true, Res.pure_eq, Res.bind_ok]
        by_cases h0 : pdf = 0
        · rw [if_pos h0]
        · rw [if_neg h0]
          by_cases hu : Flt.gt (some u) (nextPower pw true albedo cos pdf).2 = true
          · rw [if_pos hu]
          · rw [if_neg hu]
            exact trace_lost cap bs n (i + 1) _ buf fun a =>
              h (Arrives.passed hb h0 (by simpa using hu) a)

/-- Specification: path `j` brings a photon to a surface that is not specular. -/
def Path.Lands (p : Path K) (maxBounces : ℕ) : Prop := Arrives p.bounce maxBounces 0 p.power

private theorem scatter_mono (cap num b : ℕ) (paths : ℕ → Path K) (r : Res (List (Stored K))) :
    ∀ (fuel j : ℕ) (buf : List (Stored K)), scatter cap num b paths fuel j buf = some r →
      scatter cap num b paths (fuel + 1) j buf = some r
  | 0, j, buf, h => by
    unfold scatter at h ⊢
    split_ifs at h with hb
    rw [if_neg hb]; exact h
  | fuel + 1, j, buf, h => by
    unfold scatter at h ⊢
    by_cases hb : buf.length < num
    · rw [if_pos hb] at h ⊢
      cases ht : trace cap (paths j).bounce b 0 (paths j).power buf with
      | ok buf' => rw [ht] at h; exact scatter_mono cap num b paths r fuel (j + 1) buf' h
      | throw m => rw [ht] at h; exact h
      | ub w => rw [ht] at h; exact h
    · rw [if_neg hb] at h ⊢; exact h

/-- While paths keep landing, the loop ends. -/
private theorem scatter_ends (cap num b : ℕ) (paths : ℕ → Path K)
    (H : ∀ J, ∃ j, J ≤ j ∧ (paths j).Lands b) :
    ∀ (need : ℕ) (j : ℕ) (buf : List (Stored K)), num ≤ buf.length + need →
      ∃ fuel r, scatter cap num b paths fuel j buf = some r
  | 0, j, buf, h => ⟨0, .ok buf, by unfold scatter; rw [if_neg (by omega)]⟩
  | need + 1, j, buf, h => by
    obtain ⟨l, hl, hland⟩ := H j
    obtain ⟨d, rfl⟩ := Nat.exists_eq_add_of_le hl
    clear hl
    induction d generalizing j buf with
    | zero =>
      by_cases hb : buf.length < num
      · rcases trace_arrives cap (paths (j + 0)).bounce hland buf with ⟨new, e, h1⟩ | ⟨w, e⟩
        · obtain ⟨fuel, r, hr⟩ := scatter_ends cap num b paths H need (j + 1) (buf ++ new) (by simp; omega)
          refine ⟨fuel + 1, r, ?_⟩
          rw [Nat.add_zero] at e
          unfold scatter; rw [if_pos hb, e]; exact hr
        · rw [Nat.add_zero] at e
          exact ⟨1, .ub w, by unfold scatter; rw [if_pos hb, e]⟩
      · exact ⟨0, .ok buf, by unfold scatter; rw [if_neg hb]⟩
    | succ d ih =>
      by_cases hb : buf.length < num
      · rcases trace_grows cap (paths j).bounce b 0 (paths j).power buf with ⟨new, e, _⟩ | ⟨w, e⟩
        · obtain ⟨fuel, r, hr⟩ := ih (j + 1) (buf ++ new) (by simp; omega)
            (by rw [show j + 1 + d = j + (d + 1) by omega]; exact hland)
          exact ⟨fuel + 1, r, by unfold scatter; rw [if_pos hb, e]; exact hr⟩
        · exact ⟨1, .ub w, by unfold scatter; rw [if_pos hb, e]⟩
      · exact ⟨0, .ok buf, by unfold scatter; rw [if_neg hb]⟩

/-- From a path on after which nothing lands, with too few photons stored, the loop goes on for ever. -/
private theorem scatter_stuck (cap num b : ℕ) (paths : ℕ → Path K) :
    ∀ (fuel j : ℕ) (buf : List (Stored K)), buf.length < num → (∀ k, j ≤ k → ¬ (paths k).Lands b) →
      scatter cap num b paths fuel j buf = none
  | 0, j, buf, hb, _ => by unfold scatter; rw [if_pos hb]
  | fuel + 1, j, buf, hb, h => by
    unfold scatter
    rw [if_pos hb, trace_lost _ _ _ _ _ _ (h j le_rfl)]
    exact scatter_stuck cap num b paths fuel (j + 1) buf hb fun k hk => h k (by omega)

private theorem trace_room (cap : ℕ) (bs : ℕ → Bounce K) (n : ℕ) (pw : V3 (Flt K)) (buf : List (Stored K)) :
    ∀ i, buf.length + n ≤ cap →
      ∃ new : List (Stored K), trace cap bs n i pw buf = .ok (buf ++ new) ∧ new.length ≤ n := by
  induction n generalizing pw buf with
  | zero => intro i _; exact ⟨[], by simp [trace], by simp⟩
  | succ n ih =>
    intro i h
    unfold trace
    cases hb : bs i with
    | miss => exact ⟨[], by simp, by simp⟩
    | hit pos dir specular albedo cos pdf u =>
      dsimp only
      cases specular with
      | true =>
        simp only [if_true, Res.pure_eq, Res.bind_ok]
        split_ifs
        · exact ⟨[], by simp, by simp⟩
        · exact ⟨[], by simp, by simp⟩
        · obtain ⟨new, e, hl⟩ := ih (divPowerS (nextPower pw true albedo cos pdf).1
            (nextPower pw true albedo cos pdf).2) buf (i + 1) (by omega)
          exact ⟨new, e, by omega⟩
      | false =>
        have hs : store cap buf ⟨pos, dir, pw⟩ = .ok (buf ++ [⟨pos, dir, pw⟩]) := by
          unfold store; rw [if_pos (by omega)]
        simp only [Bool.false_eq_true, if_false, hs, Res.pure_eq, Res.bind_ok]
        split_ifs
        · exact ⟨[_], rfl, by simp⟩
        · exact ⟨[_], rfl, by simp⟩
        · obtain ⟨new, e, hl⟩ := ih (divPowerS (nextPower pw false albedo cos pdf).1
            (nextPower pw false albedo cos pdf).2) (buf ++ [⟨pos, dir, pw⟩]) (i + 1) (by simp; omega)
          exact ⟨⟨pos, dir, pw⟩ :: new, by rw [e]; simp, by simp; omega⟩

/-- The first `J` paths store at most `J * b` photons; asking for more than that, the loop is still running after
them, and goes on for ever if nothing lands any more. -/
private theorem scatter_few (num b : ℕ) (paths : ℕ → Path K) (J : ℕ) (hJ : ∀ k, J ≤ k → ¬ (paths k).Lands b) :
    ∀ (d j fuel : ℕ) (buf : List (Stored K)), j + d = J → buf.length + d * b < num →
      scatter num num b paths fuel j buf = none
  | 0, j, fuel, buf, hj, hb =>
    scatter_stuck num num b paths fuel j buf (by omega) fun k hk => hJ k (by omega)
  | d + 1, j, 0, buf, hj, hb => by unfold scatter; rw [if_pos (by omega)]
  | d + 1, j, fuel + 1, buf, hj, hb => by
    have hmul : (d + 1) * b = d * b + b := Nat.succ_mul d b
    unfold scatter
    rw [if_pos (by omega)]
    obtain ⟨new, e, hl⟩ := trace_room num (paths j).bounce b (paths j).power buf 0 (by omega)
    rw [e]
    exact scatter_few num b paths J hJ d (j + 1) fuel (buf ++ new) (by omega) (by simp; omega)

/-- **C68.** Photon tracing ends for every requested number of photons if and only if paths keep bringing photons to
surfaces that are not specular: after every path there is a further one that lands. -/
theorem photon_tracing_ends_iff (maxBounces : ℕ) (paths : ℕ → Path K) :
    (∀ num, ∃ fuel r, scatterPhotons num maxBounces paths fuel = some r) ↔
      ∀ J, ∃ j, J ≤ j ∧ (paths j).Lands maxBounces := by
  constructor
  · intro h
    by_contra hc
    push Not at hc
    obtain ⟨J, hJ⟩ := hc
    obtain ⟨fuel, r, hr⟩ := h (J * maxBounces + 1)
    have := scatter_few (J * maxBounces + 1) maxBounces paths J hJ J 0 fuel [] (by omega) (by simp)
    unfold scatterPhotons at hr
    rw [this] at hr
    cases hr
  · intro H num
    obtain ⟨fuel, r, hr⟩ := scatter_ends num num maxBounces paths H num 0 [] (by simp)
    exact ⟨fuel, r >>= fun buf => pure (finish num buf), by unfold scatterPhotons; rw [hr]; rfl⟩

/-- **C68.** Once enough photons are stored no further path is started: the answer does not change when the loop is
given more steps, and it does not depend on paths after the ones that were followed. -/
theorem photon_tracing_stops (num maxBounces : ℕ) (paths paths' : ℕ → Path K) (fuel : ℕ) (r : Res (List (Stored K)))
    (h : scatterPhotons num maxBounces paths fuel = some r) (same : ∀ j, j < fuel → paths' j = paths j) (more : ℕ) :
    scatterPhotons num maxBounces paths' (fuel + more) = some r := by
  have key : ∀ (f j : ℕ) (buf : List (Stored K)) (q : Res (List (Stored K))),
      (∀ k, j ≤ k → k < j + f → paths' k = paths k) →
      scatter num num maxBounces paths f j buf = some q → scatter num num maxBounces paths' f j buf = some q := by
    intro f
    induction f with
    | zero => intro j buf q _ e; unfold scatter at e ⊢; exact e
    | succ f ih =>
      intro j buf q hs e
      unfold scatter at e ⊢
      by_cases hb : buf.length < num
      · rw [if_pos hb] at e ⊢
        rw [hs j le_rfl (by omega)]
        cases ht : trace num (paths j).bounce maxBounces 0 (paths j).power buf with
        | ok buf' => rw [ht] at e; exact ih (j + 1) buf' q (fun k h1 h2 => hs k (by omega) (by omega)) e
        | throw m => rw [ht] at e; exact e
        | ub w => rw [ht] at e; exact e
      · rw [if_neg hb] at e ⊢; exact e
  unfold scatterPhotons at h ⊢
  cases hq : scatter num num maxBounces paths fuel 0 [] with
  | none => rw [hq] at h; cases h
  | some q =>
    rw [hq] at h
    have e1 := key fuel 0 [] q (fun k _ h2 => same k (by omega)) hq
    have e2 : scatter num num maxBounces paths' (fuel + more) 0 [] = some q := by
      induction more with
      | zero => exact e1
      | succ m ih => exact scatter_mono _ _ _ _ _ _ _ _ ih
    rw [e2]; exact h

/-- Every second path misses the scene, the others pass a mirror and then reach a wall: tracing ends. -/
example (num : ℕ) : ∃ fuel r, scatterPhotons (K := ℚ) num 2 (fun j =>
    ⟨⟨some 1, some 1, some 1⟩, fun i => if j % 2 = 0 then .miss else
      if i = 0 then .hit 0 0 true ⟨1, 1, 1⟩ 1 1 0 else .hit 0 0 false ⟨1, 1, 1⟩ 1 1 0⟩) fuel = some r := by
  refine (photon_tracing_ends_iff 2 _).mpr (fun J => ⟨2 * J + 1, by omega, ?_⟩) num
  refine Arrives.passed (pos := 0) (dir := 0) (albedo := ⟨1, 1, 1⟩) (cos := 1) (pdf := 1) (u := 0) ?_ one_ne_zero ?_
    (Arrives.here (pos := 0) (dir := 0) (albedo := ⟨1, 1, 1⟩) (cos := 1) (pdf := 1) (u := 0) ?_)
  · have : (2 * J + 1) % 2 = 1 := by omega
    simp [this]
  · show Flt.gt (some (0 : ℚ)) (nextPower ⟨some 1, some 1, some 1⟩ true ⟨1, 1, 1⟩ 1 1).2 = false
    decide +kernel
  · have : (2 * J + 1) % 2 = 1 := by omega
    simp [this]

/-- A scene of mirrors only: tracing never ends, although a single photon is asked for. -/
theorem photon_tracing_mirrors_refuted : ∃ paths : ℕ → Path ℚ,
    (∀ j i, ∃ pos dir albedo cos pdf u, (paths j).bounce i = .hit pos dir true albedo cos pdf u ∧ pdf ≠ 0) ∧
      ∀ maxBounces fuel, scatterPhotons 1 maxBounces paths fuel = none := by
  refine ⟨fun _ => ⟨⟨some 1, some 1, some 1⟩, fun _ => .hit 0 0 true ⟨1, 1, 1⟩ 1 1 0⟩, fun j i =>
    ⟨0, 0, ⟨1, 1, 1⟩, 1, 1, 0, rfl, one_ne_zero⟩, fun b fuel => ?_⟩
  refine photon_tracing_diverges 1 b le_rfl _ ?_ fuel
  intro j i pos dir sp al cos pdf u h
  injection h with _ _ h3
  exact h3.symm

end Feign.Photons
