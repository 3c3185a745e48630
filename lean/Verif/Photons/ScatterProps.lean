import Verif.Photons.Scatter
import Mathlib.Tactic.Linarith
import Mathlib.Tactic.NormNum
import Mathlib.Tactic.Positivity
import Mathlib.Algebra.Order.Ring.Rat

/-! # Photon tracing: buffer, termination, powers -/

set_option linter.unusedSectionVars false

namespace Feign.Photons

variable {K : Type} [Field K] [LinearOrder K] [IsStrictOrderedRing K]

/-! ### The buffer -/

/-- A path of at most `n` bounces stores at most `n` photons, after the ones already there, and does not overrun
if there is room for `n`. -/
private theorem trace_spec (cap : ℕ) (bs : ℕ → Bounce K) : ∀ (n i : ℕ) (pw : V3 (Flt K)) (buf : List (Stored K)),
    buf.length + n ≤ cap →
    ∃ new : List (Stored K), trace cap bs n i pw buf = .ok (buf ++ new) ∧ new.length ≤ n
  | 0, i, pw, buf, _ => ⟨[], by simp [trace], by simp⟩
  | n + 1, i, pw, buf, h => by
    unfold trace
    cases hb : bs i with
    | miss => exact ⟨[], by simp, by simp⟩
    | hit pos dir specular albedo cos pdf u =>
      dsimp only
      cases specular with
      | true =>
        simp only [if_true, Res.pure_eq, Res.bind_ok]
        by_cases h0 : pdf = 0
        · rw [if_pos h0]; exact ⟨[], by simp, by simp⟩
        · rw [if_neg h0]
          split_ifs
          · exact ⟨[], by simp, by simp⟩
          · obtain ⟨new, e, hl⟩ := trace_spec cap bs n (i + 1) (divPowerS (nextPower pw true albedo cos pdf).1
              (nextPower pw true albedo cos pdf).2) buf (by omega)
            exact ⟨new, e, by omega⟩
      | false =>
        have hs : store cap buf ⟨pos, dir, pw⟩ = .ok (buf ++ [⟨pos, dir, pw⟩]) := by
          unfold store; rw [if_pos (by omega)]
        simp only [Bool.false_eq_true, if_false, hs, Res.pure_eq, Res.bind_ok]
        by_cases h0 : pdf = 0
        · rw [if_pos h0]; exact ⟨[_], rfl, by simp⟩
        · rw [if_neg h0]
          split_ifs
          · exact ⟨[_], rfl, by simp⟩
          · obtain ⟨new, e, hl⟩ := trace_spec cap bs n (i + 1) (divPowerS (nextPower pw false albedo cos pdf).1
              (nextPower pw false albedo cos pdf).2) (buf ++ [⟨pos, dir, pw⟩]) (by simp; omega)
            exact ⟨⟨pos, dir, pw⟩ :: new, by rw [e]; simp, by simp; omega⟩

/-- An array with room for `maxBounces - 1` photons more than asked for is never overrun, whatever the
paths do; when the loop ends, at least the requested number has been stored. -/
theorem photon_buffer_sufficient (cap num maxBounces : ℕ) (hc : num + maxBounces ≤ cap + 1) (paths : ℕ → Path K) :
    ∀ (fuel j : ℕ) (buf : List (Stored K)), buf.length ≤ cap →
      scatter cap num maxBounces paths fuel j buf = none ∨
      ∃ buf', scatter cap num maxBounces paths fuel j buf = some (.ok buf') ∧ num ≤ buf'.length ∧ buf'.length ≤ cap
  | 0, j, buf, hb => by
    unfold scatter
    by_cases h : buf.length < num
    · rw [if_pos h]; exact Or.inl rfl
    · rw [if_neg h]; exact Or.inr ⟨buf, rfl, not_lt.mp h, hb⟩
  | fuel + 1, j, buf, hb => by
    unfold scatter
    by_cases h : buf.length < num
    · rw [if_pos h]
      obtain ⟨new, e, hl⟩ := trace_spec cap (paths j).bounce maxBounces 0 (paths j).power buf (by omega)
      rw [e]
      exact photon_buffer_sufficient cap num maxBounces hc paths fuel (j + 1) (buf ++ new) (by simp; omega)
    · rw [if_neg h]; exact Or.inr ⟨buf, rfl, not_lt.mp h, hb⟩

/-- Partial (bounce limit at most one; the full claim is for every limit and is refuted below): the array is
never overrun, and the list handed on has exactly the requested number of photons. -/
theorem photon_buffer_partial (num maxBounces : ℕ) (hm : maxBounces ≤ 1) (paths : ℕ → Path K) (fuel : ℕ) :
    scatterPhotons num maxBounces paths fuel = none ∨
    ∃ buf, scatterPhotons num maxBounces paths fuel = some (.ok buf) ∧ buf.length = num := by
  unfold scatterPhotons
  rcases photon_buffer_sufficient num num maxBounces (by omega) paths fuel 0 [] (by simp) with h | ⟨buf, h, h1, h2⟩
  · rw [h]; exact Or.inl rfl
  · rw [h]; exact Or.inr ⟨_, rfl, by simp [finish]; omega⟩

/-- A path that is stored at each of its first `k` bounces and then leaves the scene. -/
private def hits (k : ℕ) : Path K :=
  ⟨⟨some 1, some 1, some 1⟩, fun i => if i < k then .hit 0 0 false ⟨1, 1, 1⟩ 1 1 0 else .miss⟩

private theorem nextPower_one : nextPower (K := K) ⟨some 1, some 1, some 1⟩ false ⟨1, 1, 1⟩ 1 1 =
    (⟨some 1, some 1, some 1⟩, some 1) := by
  simp [nextPower, scalePower, Flt.mulNum, cosTerm, divPower, Flt.div, maxValueF, Flt.gt, minOne]

private theorem divPowerS_one : divPowerS (K := K) ⟨some 1, some 1, some 1⟩ (some 1) = ⟨some 1, some 1, some 1⟩ := by
  simp [divPowerS, Flt.div]

private theorem trace_hit_step (cap k n i : ℕ) (hik : i < k) (buf : List (Stored K)) (hb : buf.length < cap) :
    trace cap (hits (K := K) k).bounce (n + 1) i ⟨some 1, some 1, some 1⟩ buf =
      trace cap (hits (K := K) k).bounce n (i + 1) ⟨some 1, some 1, some 1⟩
        (buf ++ [⟨0, 0, ⟨some 1, some 1, some 1⟩⟩]) := by
  conv_lhs => unfold trace
  have : (hits (K := K) k).bounce i = .hit 0 0 false ⟨1, 1, 1⟩ 1 1 0 := by simp [hits, hik]
  rw [this]
  have hs : store cap buf (⟨0, 0, ⟨some 1, some 1, some 1⟩⟩ : Stored K) = .ok (buf ++ [⟨0, 0, ⟨some 1, some 1, some 1⟩⟩]) := by
    unfold store; rw [if_pos hb]
  simp only [Bool.false_eq_true, if_false, hs, Res.bind_ok, one_ne_zero, nextPower_one, divPowerS_one]
  simp [Flt.gt]

private theorem trace_hit_full (cap k n i : ℕ) (hik : i < k) (buf : List (Stored K)) (hb : cap ≤ buf.length) :
    trace cap (hits (K := K) k).bounce (n + 1) i ⟨some 1, some 1, some 1⟩ buf = .ub "photon array overrun" := by
  unfold trace
  have : (hits (K := K) k).bounce i = .hit 0 0 false ⟨1, 1, 1⟩ 1 1 0 := by simp [hits, hik]
  rw [this]
  have hs : store cap buf (⟨0, 0, ⟨some 1, some 1, some 1⟩⟩ : Stored K) = .ub "photon array overrun" := by
    unfold store; rw [if_neg (by omega)]
  simp only [Bool.false_eq_true, if_false, hs, Res.bind_ub]

private theorem trace_hit_end (cap k n i : ℕ) (hik : k ≤ i) (pw : V3 (Flt K)) (buf : List (Stored K)) :
    trace cap (hits (K := K) k).bounce n i pw buf = .ok buf := by
  cases n with
  | zero => rfl
  | succ n =>
    unfold trace
    have : (hits (K := K) k).bounce i = .miss := by simp [hits, Nat.not_lt.mpr hik]
    rw [this]

/-- Whenever more than one bounce is allowed and a photon is asked for, some behaviour of the paths writes past
the end of the array: one path fills the array to the last entry, the next stores two photons. -/
theorem photon_buffer_refuted (num maxBounces : ℕ) (hn : 1 ≤ num) (hm : 2 ≤ maxBounces) :
    ∃ (paths : ℕ → Path K) (fuel : ℕ), scatterPhotons num maxBounces paths fuel = some (.ub "photon array overrun") := by
  obtain ⟨b, rfl⟩ : ∃ b, maxBounces = b + 2 := ⟨maxBounces - 2, by omega⟩
  obtain ⟨n, rfl⟩ : ∃ n, num = n + 1 := ⟨num - 1, by omega⟩
  refine ⟨fun j => if j < n then hits 1 else hits 2, n + 1, ?_⟩
  have pwr : ∀ k, (hits (K := K) k).power = ⟨some 1, some 1, some 1⟩ := fun _ => rfl
  suffices H : ∀ (d j : ℕ) (buf : List (Stored K)), j + d = n → buf.length = j →
      scatter (n + 1) (n + 1) (b + 2) (fun j => if j < n then hits (K := K) 1 else hits 2) (d + 1) j buf =
        some (.ub "photon array overrun") by
    unfold scatterPhotons
    rw [H n 0 [] (by omega) rfl]
    rfl
  intro d
  induction d with
  | zero =>
    intro j buf hj hb
    unfold scatter
    rw [if_pos (by omega), if_neg (by omega), pwr, trace_hit_step _ _ _ _ (by omega) _ (by omega),
      trace_hit_full _ _ _ _ (by omega) _ (by simp; omega)]
  | succ d ih =>
    intro j buf hj hb
    unfold scatter
    rw [if_pos (by omega), if_pos (by omega), pwr, trace_hit_step _ _ _ _ (by omega) _ (by omega),
      trace_hit_end _ _ _ _ (by omega)]
    exact ih (j + 1) _ (by omega) (by simp; omega)

/-- If no path ever reaches a surface that is not specular, the loop never ends. -/
theorem photon_tracing_diverges (num maxBounces : ℕ) (hn : 1 ≤ num) (paths : ℕ → Path K)
    (h : ∀ j i pos dir specular albedo cos pdf u,
      (paths j).bounce i = .hit pos dir specular albedo cos pdf u → specular = true) (fuel : ℕ) :
    scatterPhotons num maxBounces paths fuel = none := by
  have ht : ∀ (j n i : ℕ) (pw : V3 (Flt K)) (buf : List (Stored K)),
      trace num (paths j).bounce n i pw buf = .ok buf := by
    intro j n
    induction n with
    | zero => intros; rfl
    | succ n ih =>
      intro i pw buf
      unfold trace
      cases hb : (paths j).bounce i with
      | miss => rfl
      | hit pos dir specular albedo cos pdf u =>
        have := h j i _ _ _ _ _ _ _ hb
        subst this
        simp only [if_true, Res.pure_eq, Res.bind_ok]
        split_ifs
        · rfl
        · rfl
        · exact ih _ _ _
  have hs : ∀ fuel j, scatter num num maxBounces paths fuel j [] = none := by
    intro fuel
    induction fuel with
    | zero => intro j; unfold scatter; rw [if_pos (by simp; omega)]
    | succ f ih => intro j; unfold scatter; rw [if_pos (by simp; omega), ht]; exact ih (j + 1)
  unfold scatterPhotons
  rw [hs]; rfl

/-- With a bounce limit of zero nothing is ever stored: the loop never ends. -/
theorem photon_tracing_no_bounces (num : ℕ) (hn : 1 ≤ num) (paths : ℕ → Path K) (fuel : ℕ) :
    scatterPhotons num 0 paths fuel = none := by
  have hs : ∀ fuel j, scatter num num 0 paths fuel j [] = none := by
    intro fuel
    induction fuel with
    | zero => intro j; unfold scatter; rw [if_pos (by simp; omega)]
    | succ f ih => intro j; unfold scatter; rw [if_pos (by simp; omega)]; exact ih (j + 1)
  unfold scatterPhotons
  rw [hs]; rfl

/-- If every path stores a photon at its first bounce, the loop ends after at most as many paths as photons
are wanted (and an array with room to spare is then filled without error). -/
theorem photon_tracing_ends (cap num maxBounces : ℕ) (hc : num + maxBounces ≤ cap + 1) (hm : 1 ≤ maxBounces)
    (paths : ℕ → Path K)
    (h : ∀ j, ∃ pos dir albedo cos pdf u, (paths j).bounce 0 = .hit pos dir false albedo cos pdf u) :
    ∃ buf, scatter cap num maxBounces paths num 0 [] = some (.ok buf) ∧ num ≤ buf.length := by
  have ht : ∀ (j : ℕ) (buf : List (Stored K)), buf.length < num →
      ∃ new : List (Stored K), trace cap (paths j).bounce maxBounces 0 (paths j).power buf = .ok (buf ++ new) ∧
        1 ≤ new.length ∧ new.length ≤ maxBounces := by
    intro j buf hb
    obtain ⟨new, e, hl⟩ := trace_spec cap (paths j).bounce maxBounces 0 (paths j).power buf (by omega)
    refine ⟨new, e, ?_, hl⟩
    obtain ⟨b, rfl⟩ : ∃ b, maxBounces = b + 1 := ⟨maxBounces - 1, by omega⟩
    obtain ⟨pos, dir, albedo, cos, pdf, u, hh⟩ := h j
    by_contra h0
    have hnew : new = [] := List.length_eq_zero_iff.mp (by omega)
    subst hnew
    unfold trace at e
    rw [hh] at e
    have hs : store cap buf ⟨pos, dir, (paths j).power⟩ = .ok (buf ++ [⟨pos, dir, (paths j).power⟩]) := by
      unfold store; rw [if_pos (by omega)]
    simp only [Bool.false_eq_true, if_false, hs, Res.pure_eq, Res.bind_ok, List.append_nil] at e
    split_ifs at e
    · have := congrArg List.length (Res.ok.inj e); simp at this
    · have := congrArg List.length (Res.ok.inj e); simp at this
    · obtain ⟨new', e', _⟩ := trace_spec cap (paths j).bounce b (0 + 1)
        (divPowerS (nextPower (paths j).power false albedo cos pdf).1 (nextPower (paths j).power false albedo cos pdf).2)
        (buf ++ [⟨pos, dir, (paths j).power⟩]) (by simp; omega)
      rw [e'] at e
      have := congrArg List.length (Res.ok.inj e); simp at this
  suffices H : ∀ (f j : ℕ) (buf : List (Stored K)), num ≤ buf.length + f →
      ∃ buf', scatter cap num maxBounces paths f j buf = some (.ok buf') ∧ num ≤ buf'.length by
    exact H num 0 [] (by simp)
  intro f
  induction f with
  | zero => intro j buf hb; unfold scatter; rw [if_neg (by omega)]; exact ⟨buf, rfl, by omega⟩
  | succ f ih =>
    intro j buf hb
    unfold scatter
    by_cases hlt : buf.length < num
    · rw [if_pos hlt]
      obtain ⟨new, e, h1, _⟩ := ht j buf hlt
      rw [e]
      exact ih (j + 1) (buf ++ new) (by simp; omega)
    · rw [if_neg hlt]; exact ⟨buf, rfl, by omega⟩

/-! ### Powers -/

/-- All three channels are numbers, and positive. -/
def Positive (p : V3 (Flt K)) : Prop := ∃ x y z, p = ⟨some x, some y, some z⟩ ∧ 0 < x ∧ 0 < y ∧ 0 < z

/-- A photon's channel is a number. -/
def Finite (p : V3 (Flt K)) : Prop := p.x.isSome ∧ p.y.isSome ∧ p.z.isSome

private theorem nextPower_positive (p : V3 (Flt K)) (hp : Positive p) (sp : Bool) (al : V3 K) (cos pdf : K)
    (h1 : 0 < al.x) (h2 : 0 < al.y) (h3 : 0 < al.z) (hc : 0 < cos) (hpdf : 0 < pdf) :
    Positive (divPowerS (nextPower p sp al cos pdf).1 (nextPower p sp al cos pdf).2) := by
  obtain ⟨x, y, z, rfl, hx, hy, hz⟩ := hp
  have hct : 0 < cosTerm sp cos := by unfold cosTerm; split_ifs <;> simp_all
  have f1 : 0 < al.x * cosTerm sp cos / pdf := by positivity
  have f2 : 0 < al.y * cosTerm sp cos / pdf := by positivity
  have f3 : 0 < al.z * cosTerm sp cos / pdf := by positivity
  unfold nextPower
  dsimp only
  generalize al.x * cosTerm sp cos / pdf = a at *
  generalize al.y * cosTerm sp cos / pdf = b at *
  generalize al.z * cosTerm sp cos / pdf = c at *
  have key : ∃ r, minOne (maxValueF (divPower (scalePower (⟨some x, some y, some z⟩ : V3 (Flt K)) ⟨a, b, c⟩)
      ⟨some x, some y, some z⟩)) = some r ∧ 0 < r := by
    simp only [scalePower, Flt.mulNum, Option.map_some, divPower, Flt.div, hx.ne', hy.ne', hz.ne', if_false]
    rw [mul_div_cancel_left₀ _ hx.ne', mul_div_cancel_left₀ _ hy.ne', mul_div_cancel_left₀ _ hz.ne']
    have hm : ∃ m, maxValueF (⟨some a, some b, some c⟩ : V3 (Flt K)) = some m ∧ 0 < m := by
      unfold maxValueF
      simp only [Flt.gt]
      by_cases h1 : b > a <;> simp only [h1, decide_true, decide_false, if_true, if_false, Bool.false_eq_true]
      · by_cases h2 : c > b <;> simp only [h2, decide_true, decide_false, if_true, if_false, Bool.false_eq_true]
        exacts [⟨c, rfl, f3⟩, ⟨b, rfl, f2⟩]
      · by_cases h2 : c > a <;> simp only [h2, decide_true, decide_false, if_true, if_false, Bool.false_eq_true]
        exacts [⟨c, rfl, f3⟩, ⟨a, rfl, f1⟩]
    obtain ⟨m, hm, hm0⟩ := hm
    rw [hm]
    unfold minOne
    split_ifs
    · exact ⟨1, rfl, one_pos⟩
    · exact ⟨m, rfl, hm0⟩
  obtain ⟨r, hr, hr0⟩ := key
  rw [hr]
  refine ⟨x * a / r, y * b / r, z * c / r, ?_, by positivity, by positivity, by positivity⟩
  simp [divPowerS, scalePower, Flt.mulNum, Flt.div, hr0.ne']

/-- Partial (positive channels everywhere; the full claim allows black channels and is refuted below): if all
lights, albedos, cosines and densities are positive, every stored power is a positive number. -/
theorem photon_power_partial (num maxBounces : ℕ) (paths : ℕ → Path K) (fuel : ℕ) (buf : List (Stored K))
    (hl : ∀ j, Positive (paths j).power)
    (hb : ∀ j i pos dir sp al cos pdf u, (paths j).bounce i = .hit pos dir sp al cos pdf u →
      0 < al.x ∧ 0 < al.y ∧ 0 < al.z ∧ 0 < cos ∧ 0 < pdf)
    (h : scatterPhotons num maxBounces paths fuel = some (.ok buf)) :
    ∀ p ∈ buf, Positive p.power := by
  have ht : ∀ (cap j n i : ℕ) (pw : V3 (Flt K)) (b b' : List (Stored K)), Positive pw →
      (∀ p ∈ b, Positive p.power) → trace cap (paths j).bounce n i pw b = .ok b' → ∀ p ∈ b', Positive p.power := by
    intro cap j n
    induction n with
    | zero => intro i pw b b' _ hb0 e; cases e; exact hb0
    | succ n ih =>
      intro i pw b b' hpw hb0 e
      unfold trace at e
      cases hbb : (paths j).bounce i with
      | miss => rw [hbb] at e; cases e; exact hb0
      | hit pos dir sp al cos pdf u =>
        obtain ⟨h1, h2, h3, h4, h5⟩ := hb j i _ _ _ _ _ _ _ hbb
        rw [hbb] at e
        have hnext := nextPower_positive pw hpw sp al cos pdf h1 h2 h3 h4 h5
        have rest : ∀ b1 : List (Stored K), (∀ p ∈ b1, Positive p.power) →
            (if pdf = 0 then pure b1 else
              if Flt.gt (some u) (nextPower pw sp al cos pdf).2 = true then pure b1
              else trace cap (paths j).bounce n (i + 1)
                (divPowerS (nextPower pw sp al cos pdf).1 (nextPower pw sp al cos pdf).2) b1) = Res.ok b' →
            ∀ p ∈ b', Positive p.power := by
          intro b1 hb1 e2
          rw [if_neg h5.ne'] at e2
          by_cases hg : Flt.gt (some u) (nextPower pw sp al cos pdf).2 = true
          · rw [if_pos hg] at e2; cases e2; exact hb1
          · rw [if_neg hg] at e2; exact ih _ _ _ _ hnext hb1 e2
        cases sp with
        | true => exact rest b hb0 e
        | false =>
          simp only [Bool.false_eq_true, if_false, store] at e
          by_cases hc : b.length < cap
          · rw [if_pos hc] at e
            refine rest _ ?_ e
            intro p hp
            rcases List.mem_append.mp hp with hp | hp
            · exact hb0 p hp
            · rw [List.mem_singleton.mp hp]; exact hpw
          · rw [if_neg hc] at e; cases e
  have hs : ∀ (cap fuel j : ℕ) (b b' : List (Stored K)), (∀ p ∈ b, Positive p.power) →
      scatter cap num maxBounces paths fuel j b = some (.ok b') → num ≤ b'.length ∧ ∀ p ∈ b', Positive p.power := by
    intro cap fuel
    induction fuel with
    | zero =>
      intro j b b' hb0 e
      unfold scatter at e
      split_ifs at e
      cases e; exact ⟨by omega, hb0⟩
    | succ f ih =>
      intro j b b' hb0 e
      unfold scatter at e
      split_ifs at e
      · cases ht' : trace cap (paths j).bounce maxBounces 0 (paths j).power b with
        | ok b1 => rw [ht'] at e; exact ih _ _ _ (ht _ _ _ _ _ _ _ (hl j) hb0 ht') e
        | throw m => rw [ht'] at e; cases e
        | ub w => rw [ht'] at e; cases e
      · cases e; exact ⟨by omega, hb0⟩
  unfold scatterPhotons at h
  cases hsc : scatter num num maxBounces paths fuel 0 [] with
  | none => rw [hsc] at h; cases h
  | some r =>
    rw [hsc] at h
    simp only [Option.map_some, Option.some.injEq] at h
    cases r with
    | throw m => cases h
    | ub w => cases h
    | ok b =>
      simp only [Res.bind_ok, Res.pure_eq, Res.ok.injEq] at h
      subst h
      intro p hp
      unfold finish at hp
      obtain ⟨q, hq, rfl⟩ := List.mem_map.mp hp
      obtain ⟨hlen, hpos⟩ := hs _ _ _ _ _ (by simp) hsc
      obtain ⟨x, y, z, e, hx, hy, hz⟩ := hpos q hq
      have hnum : (0 : K) < (num : K) := by
        by_contra hneg
        have h0 : num = 0 := by
          by_contra hne
          exact hneg (by exact_mod_cast Nat.pos_of_ne_zero hne)
        subst h0
        -- nothing is stored when no photon is asked for
        cases fuel with
        | zero => unfold scatter at hsc; simp at hsc; subst hsc; simp at hq
        | succ f => unfold scatter at hsc; simp at hsc; subst hsc; simp at hq
      refine ⟨x / num, y / num, z / num, ?_, by positivity, by positivity, by positivity⟩
      simp [e, divPowerS, Flt.div, hnum.ne']

/-- A light without red: from the second surface on, all channels of the photon are not-a-number. The surface
is white, and nothing is unusual about the path. -/
theorem photon_power_refuted :
    ∃ (paths : ℕ → Path ℚ) (buf : List (Stored ℚ)), (∀ j, Finite (paths j).power) ∧
      (∀ j i pos dir sp al cos pdf u, (paths j).bounce i = .hit pos dir sp al cos pdf u →
        0 < al.x ∧ 0 < al.y ∧ 0 < al.z ∧ 0 < cos ∧ 0 < pdf) ∧
      scatterPhotons 2 2 paths 1 = some (.ok buf) ∧ ∃ p ∈ buf, ¬ Finite p.power := by
  refine ⟨fun _ => ⟨⟨some 0, some 1, some 1⟩, fun _ => .hit 0 0 false ⟨1, 1, 1⟩ 1 1 0⟩,
    [⟨0, 0, ⟨some 0, some (1/2), some (1/2)⟩⟩, ⟨0, 0, ⟨none, none, none⟩⟩], ?_, ?_, ?_, ⟨0, 0, ⟨none, none, none⟩⟩, by simp, ?_⟩
  · intro j; simp [Finite]
  · intro j i pos dir sp al cos pdf u h
    cases h
    norm_num
  · decide +kernel
  · simp [Finite]

/-- The same happens with a white light after a surface that reflects no red. -/
theorem photon_power_green_wall_refuted :
    ∃ (paths : ℕ → Path ℚ) (buf : List (Stored ℚ)), (∀ j, (paths j).power = ⟨some 1, some 1, some 1⟩) ∧
      scatterPhotons 3 3 paths 1 = some (.ok buf) ∧ ∃ p ∈ buf, ¬ Finite p.power := by
  refine ⟨fun _ => ⟨⟨some 1, some 1, some 1⟩, fun i => .hit 0 0 false (if i = 0 then ⟨0, 1, 0⟩ else ⟨1, 1, 1⟩) 1 1 0⟩,
    [⟨0, 0, ⟨some (1/3), some (1/3), some (1/3)⟩⟩, ⟨0, 0, ⟨some 0, some (1/3), some 0⟩⟩, ⟨0, 0, ⟨none, none, none⟩⟩],
    fun _ => rfl, ?_, ⟨0, 0, ⟨none, none, none⟩⟩, by simp, ?_⟩
  · decide +kernel
  · simp [Finite]

/-- Instance of the partial theorems: one bounce, four photons. -/
example : ∃ buf, scatterPhotons (K := ℚ) 4 1 (fun _ => hits 1) 4 = some (.ok buf) ∧ buf.length = 4 ∧
    ∀ p ∈ buf, Positive p.power := by
  have h : ∃ buf, scatterPhotons (K := ℚ) 4 1 (fun _ => hits 1) 4 = some (.ok buf) := by
    refine ⟨List.replicate 4 ⟨0, 0, ⟨some (1/4), some (1/4), some (1/4)⟩⟩, ?_⟩
    decide +kernel
  obtain ⟨buf, h⟩ := h
  refine ⟨buf, h, ?_, photon_power_partial 4 1 _ 4 buf (fun _ => ⟨1, 1, 1, rfl, by norm_num, by norm_num, by norm_num⟩) ?_ h⟩
  · rcases photon_buffer_partial (K := ℚ) 4 1 (le_refl _) (fun _ => hits 1) 4 with h' | ⟨b, h', hl⟩
    · rw [h] at h'; cases h'
    · rw [h] at h'; cases h'; exact hl
  · intro j i pos dir sp al cos pdf u hh
    simp only [hits] at hh
    split_ifs at hh
    cases hh
    norm_num

end Feign.Photons
