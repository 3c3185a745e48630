import Verif.Photons.ScatterProps
import Mathlib.Tactic.FieldSimp
import Mathlib.Tactic.Ring

/-!
# Stored photons share out the emitted power (C93, second half)

If `N` paths are emitted, a photon that a path leaves with power `P` has to be stored with power `P / N`: only then do
the photons of the first hits add up to the part of the emitted power that reaches a surface.
-/

set_option linter.unusedSectionVars false
set_option linter.unusedSimpArgs false
set_option linter.unusedVariables false

namespace Feign.Photons

variable {K : Type} [Field K] [LinearOrder K] [IsStrictOrderedRing K]

/-- The photons that one path leaves, with the powers it carries, when the array has room. -/
def Leaves (maxBounces : ℕ) (p : Path K) (l : List (Stored K)) : Prop :=
  trace maxBounces p.bounce maxBounces 0 p.power [] = .ok l

/-- The photons that the first `n` paths leave, in order. -/
inductive LeftBy (maxBounces : ℕ) (paths : ℕ → Path K) : ℕ → List (Stored K) → Prop
  | none : LeftBy maxBounces paths 0 []
  | next {n l l'} : LeftBy maxBounces paths n l → Leaves maxBounces (paths n) l' →
      LeftBy maxBounces paths (n + 1) (l ++ l')

/-- A photon with its power divided by `c`. -/
def Stored.share (c : K) (p : Stored K) : Stored K := { p with power := divPowerS p.power (some c) }

/-- The photons of a path do not depend on what is stored before, as long as nothing overruns. -/
theorem trace_append (bs : ℕ → Bounce K) : ∀ (n i : ℕ) (pw : V3 (Flt K)) (cap : ℕ) (buf r : List (Stored K)),
    trace cap bs n i pw buf = .ok r →
    ∃ l, r = buf ++ l ∧ ∀ (cap' : ℕ) (buf' : List (Stored K)), buf'.length + n ≤ cap' →
      trace cap' bs n i pw buf' = .ok (buf' ++ l)
  | 0, i, pw, cap, buf, r, h => by
    unfold trace at h
    cases h
    exact ⟨[], by simp, fun cap' buf' _ => by unfold trace; simp⟩
  | n + 1, i, pw, cap, buf, r, h => by
    unfold trace at h
    cases hb : bs i with
    | miss =>
      rw [hb] at h
      cases h
      exact ⟨[], by simp, fun cap' buf' _ => by unfold trace; rw [hb]; simp⟩
    | hit pos dir specular albedo cos pdf u =>
      rw [hb] at h
      dsimp only at h
      cases specular with
      | true =>
        simp only [if_true, Res.pure_eq, Res.bind_ok] at h
        by_cases h0 : pdf = 0
        · rw [if_pos h0] at h
          cases h
          refine ⟨[], by simp, fun cap' buf' _ => ?_⟩
          unfold trace
          rw [hb]
          simp only [if_true, Res.pure_eq, Res.bind_ok, if_pos h0, List.append_nil]
        · rw [if_neg h0] at h
          by_cases hr : Flt.gt (some u) (nextPower pw true albedo cos pdf).2 = true
          · rw [if_pos hr] at h
            cases h
            refine ⟨[], by simp, fun cap' buf' _ => ?_⟩
            unfold trace
            rw [hb]
            simp only [if_true, Res.pure_eq, Res.bind_ok, if_neg h0, if_pos hr, List.append_nil]
          · rw [if_neg hr] at h
            obtain ⟨l, e, hl⟩ := trace_append bs n (i + 1) _ cap buf r h
            refine ⟨l, e, fun cap' buf' hc => ?_⟩
            rw [trace, hb]
            simp only [if_true, Res.pure_eq, Res.bind_ok, if_neg h0, if_neg hr]
            exact hl cap' buf' (by omega)
      | false =>
        simp only [Bool.false_eq_true, if_false, Res.pure_eq] at h
        have hs' : ∀ (cap' : ℕ) (buf' : List (Stored K)), buf'.length + (n + 1) ≤ cap' →
            store cap' buf' ⟨pos, dir, pw⟩ = .ok (buf' ++ [⟨pos, dir, pw⟩]) := by
          intro cap' buf' hc
          unfold store
          rw [if_pos (by omega)]
        by_cases hs : buf.length < cap
        · have hst : store cap buf ⟨pos, dir, pw⟩ = .ok (buf ++ [⟨pos, dir, pw⟩]) := by
            unfold store; rw [if_pos hs]
          rw [hst] at h
          simp only [Res.bind_ok] at h
          by_cases h0 : pdf = 0
          · rw [if_pos h0] at h
            cases h
            refine ⟨[⟨pos, dir, pw⟩], rfl, fun cap' buf' hc => ?_⟩
            unfold trace
            rw [hb]
            simp only [Bool.false_eq_true, if_false, Res.pure_eq, hs' cap' buf' hc, Res.bind_ok, if_pos h0]
          · rw [if_neg h0] at h
            by_cases hr : Flt.gt (some u) (nextPower pw false albedo cos pdf).2 = true
            · rw [if_pos hr] at h
              cases h
              refine ⟨[⟨pos, dir, pw⟩], rfl, fun cap' buf' hc => ?_⟩
              unfold trace
              rw [hb]
              simp only [Bool.false_eq_true, if_false, Res.pure_eq, hs' cap' buf' hc, Res.bind_ok, if_neg h0, if_pos hr]
            · rw [if_neg hr] at h
              obtain ⟨l, e, hl⟩ := trace_append bs n (i + 1) _ cap _ r h
              refine ⟨⟨pos, dir, pw⟩ :: l, by rw [e]; simp, fun cap' buf' hc => ?_⟩
              rw [trace, hb]
              simp only [Bool.false_eq_true, if_false, Res.pure_eq, hs' cap' buf' hc, Res.bind_ok, if_neg h0, if_neg hr]
              have := hl cap' (buf' ++ [(⟨pos, dir, pw⟩ : Stored K)]) (by simp; omega)
              rw [List.append_assoc] at this
              exact this
        · exfalso
          have hst : store cap buf ⟨pos, dir, pw⟩ = .ub "photon array overrun" := by
            unfold store; rw [if_neg hs]
          rw [hst] at h
          simp only [Res.bind_ub] at h
          cases h

theorem leftBy_unique {maxBounces : ℕ} {paths : ℕ → Path K} {n : ℕ} {l l' : List (Stored K)}
    (h : LeftBy maxBounces paths n l) (h' : LeftBy maxBounces paths n l') : l = l' := by
  induction h generalizing l' with
  | none => cases h'; rfl
  | next h1 h2 ih =>
    cases h' with
    | next h1' h2' =>
      rw [ih h1']
      unfold Leaves at h2 h2'
      rw [h2] at h2'
      cases h2'
      rfl

theorem scatter_leftBy (cap num maxBounces : ℕ) (paths : ℕ → Path K) :
    ∀ (fuel j : ℕ) (buf r : List (Stored K)), LeftBy maxBounces paths j buf →
      (∀ k l, k < j → LeftBy maxBounces paths k l → l.length < num) →
      scatter cap num maxBounces paths fuel j buf = some (.ok r) →
      ∃ n, LeftBy maxBounces paths n r ∧ num ≤ r.length ∧
        ∀ k l, k < n → LeftBy maxBounces paths k l → l.length < num := by
  intro fuel
  induction fuel with
  | zero =>
    intro j buf r hj hlt h
    unfold scatter at h
    by_cases hb : buf.length < num
    · rw [if_pos hb] at h; cases h
    · rw [if_neg hb] at h
      cases h
      exact ⟨j, hj, not_lt.1 hb, hlt⟩
  | succ f ih =>
    intro j buf r hj hlt h
    unfold scatter at h
    by_cases hb : buf.length < num
    · rw [if_pos hb] at h
      cases ht : trace cap (paths j).bounce maxBounces 0 (paths j).power buf with
      | ok b =>
        rw [ht] at h
        obtain ⟨l, e, hl⟩ := trace_append _ _ _ _ _ _ _ ht
        refine ih (j + 1) b r ?_ ?_ h
        · rw [e]
          exact .next hj (by have := hl maxBounces [] (by simp); simpa [Leaves] using this)
        · intro k l' hk hl'
          rcases Nat.lt_succ_iff_lt_or_eq.1 hk with hk | rfl
          · exact hlt k l' hk hl'
          · rw [leftBy_unique hl' hj]; exact hb
      | «throw» m => rw [ht] at h; cases h
      | ub w => rw [ht] at h; cases h
    · rw [if_neg hb] at h
      cases h
      exact ⟨j, hj, not_lt.1 hb, hlt⟩

/-- The number of paths that are emitted: they leave the wanted number of photons, and no fewer paths do. -/
def Emitted (num maxBounces : ℕ) (paths : ℕ → Path K) (n : ℕ) : Prop :=
  (∃ l, LeftBy maxBounces paths n l ∧ num ≤ l.length) ∧ ∀ k l, k < n → LeftBy maxBounces paths k l → l.length < num

/-- **C93, what is stored.** When photon tracing ends, the map holds exactly the photons left by the emitted paths, in
order, each with its power divided by the number of *wanted photons*. -/
theorem photon_shares (num maxBounces : ℕ) (paths : ℕ → Path K) (fuel : ℕ) (buf : List (Stored K))
    (h : scatterPhotons num maxBounces paths fuel = some (.ok buf)) :
    ∃ n traced, Emitted num maxBounces paths n ∧ LeftBy maxBounces paths n traced ∧
      buf = traced.map (Stored.share (num : K)) := by
  unfold scatterPhotons at h
  cases hs : scatter num num maxBounces paths fuel 0 [] with
  | none => rw [hs] at h; cases h
  | some r =>
    rw [hs] at h
    cases r with
    | ok b =>
      obtain ⟨n, h1, h2, h3⟩ := scatter_leftBy num num maxBounces paths fuel 0 [] b .none
        (fun k l hk => absurd hk (Nat.not_lt_zero k)) hs
      refine ⟨n, b, ⟨⟨b, h1, h2⟩, h3⟩, h1, ?_⟩
      simp only [Option.map_some, Res.bind_ok, Res.pure_eq, Option.some.injEq, Res.ok.injEq] at h
      exact h.symm
    | «throw» m => cases h
    | ub w => cases h

/-- Some photon carries power. -/
def Carries (l : List (Stored K)) : Prop :=
  ∃ p ∈ l, (∃ x, p.power.x = some x ∧ x ≠ 0) ∨ (∃ x, p.power.y = some x ∧ x ≠ 0) ∨ (∃ x, p.power.z = some x ∧ x ≠ 0)

theorem div_eq_div {x : K} (hx : x ≠ 0) {a b : ℕ} (h : Flt.div (some x) (some (a : K)) = Flt.div (some x) (some (b : K))) :
    a = b := by
  unfold Flt.div at h
  by_cases ha : (a : K) = 0 <;> by_cases hb : (b : K) = 0
  · rw [Nat.cast_eq_zero] at ha hb; omega
  · simp [ha, hb] at h
  · simp [ha, hb] at h
  · simp only [ha, hb, if_false, Option.some.injEq] at h
    rw [div_eq_div_iff ha hb] at h
    have := mul_left_cancel₀ hx h
    exact_mod_cast this.symm

/-- **C93, exact condition.** The stored photons share out the emitted power (each has the power its path carried,
divided by the number of emitted paths) exactly if as many paths were emitted as photons were wanted. -/
theorem photon_shares_iff (num maxBounces : ℕ) (paths : ℕ → Path K) (fuel n : ℕ) (buf traced : List (Stored K))
    (h : scatterPhotons num maxBounces paths fuel = some (.ok buf)) (hn : Emitted num maxBounces paths n)
    (ht : LeftBy maxBounces paths n traced) (hc : Carries traced) :
    buf = traced.map (Stored.share (n : K)) ↔ n = num := by
  obtain ⟨m, tr, hm, htr, e⟩ := photon_shares num maxBounces paths fuel buf h
  have hmn : m = n := by
    obtain ⟨⟨l1, hl1, hl1'⟩, hmin1⟩ := hm
    obtain ⟨⟨l2, hl2, hl2'⟩, hmin2⟩ := hn
    rcases lt_trichotomy m n with hlt | rfl | hlt
    · have := hmin2 m l1 hlt hl1; omega
    · rfl
    · have := hmin1 n l2 hlt hl2; omega
  subst hmn
  have htt := leftBy_unique htr ht
  subst htt
  constructor
  · intro h2
    rw [h2] at e
    obtain ⟨p, hp, hx⟩ := hc
    have hp' : p.share (m : K) = p.share (num : K) := List.map_inj_left.1 e p hp
    have hpw : divPowerS p.power (some (m : K)) = divPowerS p.power (some (num : K)) :=
      congrArg Stored.power hp'
    rcases hx with ⟨x, hx, hx0⟩ | ⟨x, hx, hx0⟩ | ⟨x, hx, hx0⟩
    · have := congrArg V3.x hpw
      simp only [divPowerS, hx] at this
      exact div_eq_div hx0 this
    · have := congrArg V3.y hpw
      simp only [divPowerS, hx] at this
      exact div_eq_div hx0 this
    · have := congrArg V3.z hpw
      simp only [divPowerS, hx] at this
      exact div_eq_div hx0 this
  · rintro rfl
    exact e

/-- **C93, the part that holds.** If at most one bounce is traced and every path hits a diffuse surface, the stored
photons share out the emitted power: there are as many paths as photons. -/
theorem photon_shares_partial (num : ℕ) (paths : ℕ → Path K)
    (h : ∀ j, ∃ pos dir albedo cos pdf u, (paths j).bounce 0 = .hit pos dir false albedo cos pdf u) :
    ∃ traced, scatterPhotons num 1 paths num = some (.ok (traced.map (Stored.share (num : K)))) ∧
      LeftBy 1 paths num traced := by
  have hleaf : ∀ j, ∃ p : Stored K, Leaves 1 (paths j) [p] := by
    intro j
    obtain ⟨pos, dir, albedo, cos, pdf, u, hh⟩ := h j
    refine ⟨⟨pos, dir, (paths j).power⟩, ?_⟩
    unfold Leaves trace
    rw [hh]
    simp only [Bool.false_eq_true, if_false, store, List.length_nil, Nat.lt_one_iff, if_true, Res.pure_eq, Res.bind_ok,
      List.nil_append]
    split_ifs <;> rfl
  have hlen : ∀ n l, LeftBy 1 paths n l → l.length = n := by
    intro n l hl
    induction hl with
    | none => rfl
    | @next n l l' h1 h2 ih =>
      obtain ⟨p, hp⟩ := hleaf n
      unfold Leaves at h2 hp
      rw [h2] at hp
      cases hp
      simp [ih]
  obtain ⟨b, hb, _⟩ := photon_tracing_ends num num 1 (by omega) le_rfl paths h
  have hs : scatterPhotons num 1 paths num = some (.ok (finish num b)) := by
    unfold scatterPhotons
    rw [hb]
    rfl
  obtain ⟨n, traced, hn, ht, e⟩ := photon_shares num 1 paths num _ hs
  have hnn : n = num := by
    obtain ⟨⟨l, hl, hl'⟩, hmin⟩ := hn
    rw [hlen n l hl] at hl'
    by_contra hne
    obtain ⟨l2, hl2⟩ : ∃ l2, LeftBy 1 paths num l2 := by
      have : ∀ k, ∃ l2, LeftBy 1 paths k l2 := by
        intro k
        induction k with
        | zero => exact ⟨[], .none⟩
        | succ k ih =>
          obtain ⟨l2, hl2⟩ := ih
          obtain ⟨p, hp⟩ := hleaf k
          exact ⟨_, .next hl2 hp⟩
      exact this num
    have := hmin num l2 (by omega) hl2
    rw [hlen num l2 hl2] at this
    omega
  subst hnn
  exact ⟨traced, by rw [hs, e], ht⟩

/-! ## Counterexamples -/

/-- A path of power 1 that hits a white diffuse surface `k` times and then leaves the scene. -/
def bouncing (k : ℕ) : Path ℚ :=
  ⟨⟨some 1, some 1, some 1⟩, fun i => if i < k then .hit 0 0 false ⟨1, 1, 1⟩ 1 1 0 else .miss⟩

/-- **C93 refuted, interreflection.** A white room, two bounces, two photons wanted. One path is emitted and leaves two
photons of the full power, but they are stored with half of it: the light arriving at the first surface is halved. -/
theorem interreflection_refuted :
    scatterPhotons 2 2 (fun _ => bouncing 2) 1 =
      some (.ok [⟨0, 0, ⟨some (1 / 2), some (1 / 2), some (1 / 2)⟩⟩, ⟨0, 0, ⟨some (1 / 2), some (1 / 2), some (1 / 2)⟩⟩]) ∧
    Emitted 2 2 (fun _ => bouncing 2) 1 ∧
    LeftBy 2 (fun _ => bouncing 2) 1 [⟨0, 0, ⟨some 1, some 1, some 1⟩⟩, ⟨0, 0, ⟨some 1, some 1, some 1⟩⟩] := by
  have h1 : LeftBy 2 (fun _ => bouncing 2) 1
      [⟨0, 0, ⟨some 1, some 1, some 1⟩⟩, ⟨0, 0, ⟨some 1, some 1, some 1⟩⟩] :=
    .next .none (by unfold Leaves; decide +kernel)
  refine ⟨by decide +kernel, ⟨⟨_, h1, by decide⟩, ?_⟩, h1⟩
  intro k l hk hl
  have : k = 0 := by omega
  subst this
  cases hl
  decide

/-- **C93 refuted, escaping light.** Every other path leaves the scene without hitting anything. One photon is wanted:
two paths are emitted, each with power 1, so the arriving part is one half; the photon is stored with power 1, as if
all light had arrived. -/
theorem escaping_refuted :
    let paths : ℕ → Path ℚ := fun j => if j % 2 = 0 then bouncing 0 else bouncing 1
    scatterPhotons 1 1 paths 2 = some (.ok [⟨0, 0, ⟨some 1, some 1, some 1⟩⟩]) ∧
    Emitted 1 1 paths 2 ∧ LeftBy 1 paths 2 [⟨0, 0, ⟨some 1, some 1, some 1⟩⟩] := by
  intro paths
  have h1 : LeftBy 1 paths 1 [] := .next .none (by unfold Leaves; decide +kernel)
  have h2 : LeftBy 1 paths 2 [⟨0, 0, ⟨some 1, some 1, some 1⟩⟩] := .next h1 (by unfold Leaves; decide +kernel)
  refine ⟨by decide +kernel, ⟨⟨_, h2, by decide⟩, ?_⟩, h2⟩
  intro k l hk hl
  have : k = 0 ∨ k = 1 := by omega
  rcases this with rfl | rfl
  · cases hl; decide
  · rw [leftBy_unique hl h1]; decide

/-- The hypothesis of the partial theorem is met by a scene in which every path hits a wall. -/
example : ∀ j : ℕ, ∃ pos dir albedo cos pdf u, ((fun _ => bouncing 3) j).bounce 0 = .hit pos dir false albedo cos pdf u :=
  fun _ => ⟨_, _, _, _, _, _, rfl⟩

end Feign.Photons
