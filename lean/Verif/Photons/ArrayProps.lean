import Verif.Photons.Array
import Mathlib.Tactic.Ring
import Mathlib.Tactic.Linarith
import Mathlib.Tactic.FieldSimp
import Mathlib.Algebra.Order.Ring.Rat
import Mathlib.Data.List.Perm.Basic
import Mathlib.Algebra.BigOperators.Group.List.Basic

/-! # Photon queries: nearest photons and density estimates -/

set_option linter.unusedSectionVars false

namespace Feign.Photons

variable {K : Type} [Field K] [LinearOrder K] [IsStrictOrderedRing K]

/-! ### Specifications -/

/-- Specification: the squared distance of a photon from a point. -/
def Dist2 (pt : V3 K) (p : Photon K) : K :=
  (p.pos.x - pt.x) ^ 2 + (p.pos.y - pt.y) ^ 2 + (p.pos.z - pt.z) ^ 2

theorem sqDist_eq (pt : V3 K) (p : Photon K) : sqDist pt p = Dist2 pt p := by
  simp only [sqDist, Dist2, V3.sqrNorm, V3.sub_x, V3.sub_y, V3.sub_z]; ring

/-- Specification: `sel` lists the `min k n` photons nearest to `pt`, nearest first. -/
structure NearestK (ps : List (Photon K)) (pt : V3 K) (k : ℕ) (sel : List ℕ) : Prop where
  count : sel.length = min k ps.length
  distinct : sel.Nodup
  exist : ∀ i ∈ sel, i < ps.length
  sorted : sel.Pairwise fun i j => ∀ p q, ps[i]? = some p → ps[j]? = some q → Dist2 pt p ≤ Dist2 pt q
  nearest : ∀ i ∈ sel, ∀ j, j ∉ sel → ∀ p q, ps[i]? = some p → ps[j]? = some q → Dist2 pt p ≤ Dist2 pt q

/-- Specification: the disc estimate of channel `c` with radius `R`: the photons nearer than `R`, over the
disc's area. -/
def DiscEstimate (pi R : K) (resp : V3 K → V3 K) (ps : List (Photon K)) (pt : V3 K) (c : Fin 3) : K :=
  ((ps.filter fun p => decide (Dist2 pt p < R * R)).map fun p => (resp p.dir).get c * p.power.get c).sum
    / (pi * (R * R))

/-- Specification: total contribution of the listed photons to channel `c`. -/
def Total (resp : V3 K → V3 K) (ps : List (Photon K)) (sel : List ℕ) (c : Fin 3) : K :=
  (sel.map fun i => match ps[i]? with
    | some p => (resp p.dir).get c * p.power.get c
    | none => 0).sum

/-- What is known of the machine's reciprocal. -/
def IsRecip (recip : K → K) : Prop := ∀ x, x ≠ 0 → recip x = 1 / x

/-! ### Nearest photons -/

private theorem insertPass_spec : ∀ (l : List (K × ℕ)) (x : K × ℕ), l.Pairwise (fun a b => a.1 ≤ b.1) →
    ((insertPass l x).1 ++ [(insertPass l x).2]).Perm (x :: l) ∧
    ((insertPass l x).1 ++ [(insertPass l x).2]).Pairwise (fun a b => a.1 ≤ b.1) ∧
    (insertPass l x).1.length = l.length
  | [], x, _ => by simp [insertPass]
  | y :: l, x, hs => by
    rw [List.pairwise_cons] at hs
    by_cases h : x.1 < y.1
    · obtain ⟨p, s, len⟩ := insertPass_spec l y hs.2
      simp only [insertPass, h, if_true, List.cons_append, List.length_cons, len, and_true]
      refine ⟨p.cons x, ?_⟩
      rw [List.pairwise_cons]
      refine ⟨fun z hz => ?_, s⟩
      rcases List.mem_cons.mp (p.subset hz) with rfl | hz
      · exact h.le
      · exact h.le.trans (hs.1 z hz)
    · obtain ⟨p, s, len⟩ := insertPass_spec l x hs.2
      simp only [insertPass, h, if_false, List.cons_append, List.length_cons, len, and_true]
      refine ⟨(p.cons y).trans (List.Perm.swap x y l), ?_⟩
      rw [List.pairwise_cons]
      refine ⟨fun z hz => ?_, s⟩
      rcases List.mem_cons.mp (p.subset hz) with rfl | hz
      · exact not_lt.mp h
      · exact hs.1 z hz

/-- The state of the selection after the photons with indices below `m`. -/
private structure Inv (d : ℕ → K) (k m : ℕ) (l : List (K × ℕ)) : Prop where
  count : l.length = min k m
  entry : ∀ x ∈ l, x.1 = d x.2 ∧ x.2 < m
  distinct : (l.map (·.2)).Nodup
  sorted : l.Pairwise fun a b => a.1 ≤ b.1
  nearest : ∀ j < m, j ∉ l.map (·.2) → ∀ x ∈ l, x.1 ≤ d j

private theorem Inv.step {d : ℕ → K} {k m : ℕ} {l : List (K × ℕ)} (hk : 1 ≤ k) (h : Inv d k m l) :
    Inv d k (m + 1) (maybeAdd (k : ℤ) l (d m, m)) := by
  unfold maybeAdd
  by_cases he : l = []
  · subst he
    have hm : m = 0 := by
      have := h.count
      simp at this
      omega
    subst hm
    rw [if_pos rfl]
    refine ⟨by simp; omega, by simp, by simp, by simp, ?_⟩
    intro j hj hj'
    have : j = 0 := by omega
    subst this
    simp at hj'
  rw [if_neg he]
  obtain ⟨p, s, len⟩ := insertPass_spec l (d m, m) h.sorted
  generalize insertPass l (d m, m) = o at p s len
  obtain ⟨l', r⟩ := o
  simp only at p s len ⊢
  have hnot : m ∉ l.map (·.2) := by
    intro hm
    obtain ⟨x, hx, hxm⟩ := List.mem_map.mp hm
    have := (h.entry x hx).2
    omega
  have hentry : ∀ x ∈ l' ++ [r], x.1 = d x.2 ∧ x.2 < m + 1 := by
    intro x hx
    rcases List.mem_cons.mp (p.subset hx) with rfl | hx
    · exact ⟨rfl, Nat.lt_succ_self m⟩
    · exact ⟨(h.entry x hx).1, Nat.lt_succ_of_lt (h.entry x hx).2⟩
  have hnod : ((l' ++ [r]).map (·.2)).Nodup := by
    rw [(p.map _).nodup_iff, List.map_cons, List.nodup_cons]
    exact ⟨hnot, h.distinct⟩
  by_cases hsz : sizeLess l.length (k : ℤ)
  · rw [if_pos hsz]
    have hlt : l.length < k := by
      rcases hsz with h0 | h0
      · omega
      · exact_mod_cast h0
    refine ⟨?_, hentry, hnod, s, ?_⟩
    · have := h.count
      simp only [List.length_append, List.length_singleton, len]
      omega
    · intro j hj hj'
      exfalso
      have hcnt := h.count
      have hlm : l.length = m := by omega
      -- all indices below `m + 1` are present
      have hsub : (l.map (·.2)) ⊆ List.range m := by
        intro i hi
        obtain ⟨x, hx, rfl⟩ := List.mem_map.mp hi
        exact List.mem_range.mpr (h.entry x hx).2
      have hperm : (l.map (·.2)).Perm (List.range m) :=
        (List.subperm_of_subset h.distinct hsub).perm_of_length_le (by simp [hlm])
      apply hj'
      rw [(p.map _).mem_iff, List.map_cons, List.mem_cons]
      by_cases hjm : j = m
      · exact Or.inl hjm
      · exact Or.inr ((hperm.mem_iff).mpr (List.mem_range.mpr (by omega)))
  · rw [if_neg hsz]
    have hge : k ≤ l.length := by
      unfold sizeLess at hsz
      push Not at hsz
      exact_mod_cast hsz.2
    have hr : ∀ x ∈ l', x.1 ≤ r.1 := by
      intro x hx
      exact (List.pairwise_append.mp s).2.2 x hx r (by simp)
    refine ⟨?_, fun x hx => hentry x (by simp [hx]), ?_, (List.pairwise_append.mp s).1, ?_⟩
    · have := h.count
      rw [len]; omega
    · rw [List.map_append] at hnod
      exact (List.nodup_append.mp hnod).1
    · intro j hj hj' x hx
      have hxr := hr x hx
      have hall : j ∈ (l' ++ [r]).map (·.2) → x.1 ≤ d j := by
        intro hmem
        rw [List.map_append, List.mem_append] at hmem
        rcases hmem with hm | hm
        · exact absurd hm hj'
        · simp at hm
          subst hm
          rw [← (hentry r (by simp)).1]
          exact hxr
      by_cases hj2 : j ∈ (l' ++ [r]).map (·.2)
      · exact hall hj2
      · rw [(p.map _).mem_iff, List.map_cons, List.mem_cons, not_or] at hj2
        have hjm : j < m := by
          have := hj2.1
          simp at this
          omega
        have hold := h.nearest j hjm hj2.2
        rcases List.mem_cons.mp (p.subset (show r ∈ l' ++ [r] by simp)) with hre | hre
        · have hp : l'.Perm l := by
            have h1 : (r :: l').Perm (l' ++ [r]) := (List.perm_append_singleton r l').symm
            have := h1.trans p
            rw [hre] at this
            exact this.cons_inv
          exact hold x (hp.subset hx)
        · exact hxr.trans (hold r hre)

private theorem Inv.foldl {k : ℕ} (hk : 1 ≤ k) (pt : V3 K) : ∀ (ps : List (Photon K)) (m : ℕ) (d : ℕ → K)
    (l : List (K × ℕ)), Inv d k m l → (∀ i p, ps[i]? = some p → d (m + i) = sqDist pt p) →
    Inv d k (m + ps.length) (((ps.zipIdx m).map fun p => (sqDist pt p.1, p.2)).foldl (maybeAdd (k : ℤ)) l)
  | [], m, d, l, h, _ => by simpa using h
  | p :: ps, m, d, l, h, hd => by
    rw [List.zipIdx_cons, List.map_cons, List.foldl_cons]
    have h0 : d m = sqDist pt p := by simpa using hd 0 p (by simp)
    have := Inv.foldl hk pt ps (m + 1) d (maybeAdd (k : ℤ) l (sqDist pt p, m)) (by rw [← h0]; exact h.step hk)
      (fun i q hq => by
        have := hd (i + 1) q (by simpa using hq)
        rw [← this]; congr 1; omega)
    rw [show m + (p :: ps).length = m + 1 + ps.length by simp; omega]
    exact this

private theorem closestK_inv (ps : List (Photon K)) (pt : V3 K) (k : ℕ) (hk : 1 ≤ k) :
    Inv (fun i => match ps[i]? with | some p => sqDist pt p | none => 0) k ps.length (closestK ps pt (k : ℤ)) := by
  have := Inv.foldl hk pt ps 0 (fun i => match ps[i]? with | some p => sqDist pt p | none => 0) []
    ⟨by simp, by simp, by simp, by simp, by simp⟩ (fun i p hp => by simp [hp])
  simpa [closestK] using this

/-- For every `k ≥ 1`, the query keeps exactly the `k` nearest photons, nearest first, with their squared
distances. -/
theorem nearest_photons (ps : List (Photon K)) (pt : V3 K) (k : ℕ) (hk : 1 ≤ k) :
    NearestK ps pt k ((closestK ps pt (k : ℤ)).map (·.2)) ∧
    ∀ x ∈ closestK ps pt (k : ℤ), ∃ p, ps[x.2]? = some p ∧ x.1 = Dist2 pt p := by
  have h := closestK_inv ps pt k hk
  simp only [sqDist_eq] at h
  have hent : ∀ x ∈ closestK ps pt (k : ℤ), ∃ p, ps[x.2]? = some p ∧ x.1 = Dist2 pt p := by
    intro x hx
    obtain ⟨a, b⟩ := h.entry x hx
    refine ⟨ps[x.2], List.getElem?_eq_getElem b, ?_⟩
    rw [a, List.getElem?_eq_getElem b]
  refine ⟨⟨by rw [List.length_map]; exact h.count, h.distinct, ?_, ?_, ?_⟩, hent⟩
  · intro i hi
    obtain ⟨x, hx, rfl⟩ := List.mem_map.mp hi
    exact (h.entry x hx).2
  · rw [List.pairwise_map]
    refine List.Pairwise.imp_of_mem ?_ h.sorted
    intro a b ha hb hab p q hp hq
    obtain ⟨p', hp', e⟩ := hent a ha
    obtain ⟨q', hq', e'⟩ := hent b hb
    obtain rfl := Option.some.inj (hp.symm.trans hp')
    obtain rfl := Option.some.inj (hq.symm.trans hq')
    rw [← e, ← e']; exact hab
  · intro i hi j hj p q hp hq
    obtain ⟨x, hx, rfl⟩ := List.mem_map.mp hi
    obtain ⟨p', hp', e⟩ := hent x hx
    obtain rfl := Option.some.inj (hp.symm.trans hp')
    have := h.nearest j (List.getElem?_eq_some_iff.mp hq).1 hj x hx
    rw [hq] at this
    rw [← e]; exact this

/-- With `k = 0` one photon is kept although none was asked for. -/
theorem nearest_photons_zero_refuted (p : Photon K) (pt : V3 K) :
    (closestK [p] pt 0).length = 1 ∧ ¬ NearestK [p] pt 0 ((closestK [p] pt 0).map (·.2)) := by
  have : closestK [p] pt 0 = [(sqDist pt p, 0)] := by simp [closestK, maybeAdd]
  rw [this]
  refine ⟨rfl, fun h => ?_⟩
  have := h.count
  simp at this

/-! ### Estimates with a radius -/

private theorem get_add_mul (n a b : V3 K) (s : K) : ∀ c : Fin 3,
    (n + a * b.smul s).get c = n.get c + a.get c * (b.get c * s)
  | 0 => rfl
  | 1 => rfl
  | 2 => rfl

private theorem gather_get (resp : V3 K → V3 K) (a thr : K) (pt : V3 K) (c : Fin 3) :
    ∀ (ps : List (Photon K)) (nee : V3 K), (gather resp a thr pt ps nee).get c = nee.get c +
      ((ps.filter fun p => decide (sqDist pt p < thr)).map fun p => (resp p.dir).get c * p.power.get c).sum * a
  | [], nee => by simp [gather]
  | p :: ps, nee => by
    unfold gather
    rw [gather_get resp a thr pt c ps]
    by_cases h : sqDist pt p < thr
    · simp only [h, if_true, decide_true, List.filter_cons_of_pos, List.map_cons, List.sum_cons]
      rw [get_add_mul]; ring
    · simp [h]

/-- Partial (the argument is not the radius): called with the *square* of the radius, the estimate is the
disc estimate. The full claim, refuted below, is the same with the radius itself as the argument. -/
theorem radius_estimate_partial (recip : K → K) (hrec : IsRecip recip) (pi : K) (hpi : pi ≠ 0)
    (resp : V3 K → V3 K) (ps : List (Photon K)) (pt : V3 K) (R : K) (hR : R ≠ 0) (nee : V3 K) (c : Fin 3) :
    (evalRadius recip pi resp ps pt (R * R) nee).get c = nee.get c + DiscEstimate pi R resp ps pt c := by
  unfold evalRadius
  dsimp only
  rw [gather_get, hrec _ (mul_ne_zero hpi (mul_ne_zero hR hR))]
  unfold DiscEstimate
  simp only [sqDist_eq]
  ring

/-- The estimate is the disc estimate of its argument, for all photons, only for radius one. -/
theorem radius_estimate_iff (recip : K → K) (hrec : IsRecip recip) (pi : K) (hpi : pi ≠ 0) (r : K) (hr : 0 < r) :
    (∀ (resp : V3 K → V3 K) (ps : List (Photon K)) (pt nee : V3 K) (c : Fin 3),
      (evalRadius recip pi resp ps pt r nee).get c = nee.get c + DiscEstimate pi r resp ps pt c) ↔ r = 1 := by
  constructor
  · intro h
    have := h (fun _ => ⟨1, 1, 1⟩) [⟨⟨0, 0, 0⟩, ⟨0, 1, 0⟩, ⟨1, 1, 1⟩⟩] ⟨0, 0, 0⟩ ⟨0, 0, 0⟩ 0
    unfold evalRadius at this
    dsimp only at this
    rw [gather_get, hrec _ (mul_ne_zero hpi hr.ne')] at this
    simp [DiscEstimate, Dist2, sqDist, V3.sqrNorm, V3.get, hr] at this
    have hne := hr.ne'
    field_simp at this
    exact this.resolve_right hpi
  · rintro rfl resp ps pt nee c
    have := radius_estimate_partial recip hrec pi hpi resp ps pt 1 one_ne_zero nee c
    rwa [mul_one] at this

/-- The radius used by the photon mapper, 0.01, is not 1: its estimate is not the disc estimate. (The photons
nearer than 0.1 are used.) -/
theorem radius_estimate_refuted : ∃ (ps : List (Photon ℚ)) (pt : V3 ℚ),
    (evalRadius (fun x => 1 / x) 3 (fun _ => ⟨1, 1, 1⟩) ps pt (1 / 100) 0).get 0 ≠
      DiscEstimate 3 (1 / 100) (fun _ => ⟨1, 1, 1⟩) ps pt 0 := by
  refine ⟨[⟨⟨5 / 100, 0, 0⟩, ⟨0, 1, 0⟩, ⟨1, 1, 1⟩⟩], ⟨0, 0, 0⟩, ?_⟩
  norm_num [evalRadius, gather, DiscEstimate, Dist2, sqDist, V3.sqrNorm, V3.get]

/-- `nearPhoton` compares the squared distance with the radius. -/
theorem near_photon_partial (ps : List (Photon K)) (pt : V3 K) (R : K) :
    nearPhoton ps pt (R * R) = true ↔ ∃ p ∈ ps, Dist2 pt p < R * R := by
  simp [nearPhoton, sqDist_eq]

/-- It answers the question for its argument, for all photon sets, only for radius one. -/
theorem near_photon_iff (r : K) (hr : 0 < r) :
    (∀ (ps : List (Photon K)) (pt : V3 K), nearPhoton ps pt r = true ↔ ∃ p ∈ ps, Dist2 pt p < r * r) ↔ r = 1 := by
  constructor
  · intro h
    rcases lt_trichotomy r 1 with hlt | rfl | hgt
    · have := (h [⟨⟨r, 0, 0⟩, ⟨0, 1, 0⟩, ⟨1, 1, 1⟩⟩] ⟨0, 0, 0⟩).mp
        (by simp [nearPhoton, sqDist, V3.sqrNorm]; nlinarith)
      simp [Dist2] at this
      nlinarith
    · rfl
    · have := (h [⟨⟨(1 + r) / 2, 0, 0⟩, ⟨0, 1, 0⟩, ⟨1, 1, 1⟩⟩] ⟨0, 0, 0⟩).mpr
        ⟨_, List.mem_singleton.mpr rfl, by simp [Dist2]; nlinarith⟩
      simp [nearPhoton, sqDist, V3.sqrNorm] at this
      nlinarith [sq_nonneg (r - 1)]
  · rintro rfl ps pt
    have := near_photon_partial ps pt 1
    rwa [mul_one] at this ⊢

/-! ### Estimates with the nearest photons -/

private theorem gatherK_get (resp : V3 K → V3 K) (ps : List (Photon K)) (far a : K) (c : Fin 3) :
    ∀ (l : List (K × ℕ)) (nee : V3 K), (∀ x ∈ l, x.1 ≤ far) → (∀ x ∈ l, x.2 < ps.length) →
      ∃ r, gatherK resp ps far a l nee = .ok r ∧ r.get c = nee.get c + Total resp ps (l.map (·.2)) c * a
  | [], nee, _, _ => ⟨nee, rfl, by simp [Total]⟩
  | x :: l, nee, h1, h2 => by
    have hx := h2 x (by simp)
    obtain ⟨r, hr, e⟩ := gatherK_get resp ps far a c l (nee + resp ps[x.2].dir * ps[x.2].power.smul a)
      (fun y hy => h1 y (by simp [hy])) (fun y hy => h2 y (by simp [hy]))
    refine ⟨r, ?_, ?_⟩
    · unfold gatherK
      rw [if_neg (not_lt.mpr (h1 x (by simp))), List.getElem?_eq_getElem hx]
      exact hr
    · rw [e]
      simp only [Total, List.map_cons, List.sum_cons, List.getElem?_eq_getElem hx]
      rw [get_add_mul]; ring

/-- Partial (the farthest of the `k` photons is not counted): with at least `k ≥ 1` photons the estimate uses
the `k` nearest except the last, over the disc through the last. The full claim counts all of `sel`. -/
theorem nearest_estimate_partial (recip : K → K) (pi : K) (resp : V3 K → V3 K) (ps : List (Photon K))
    (pt : V3 K) (k : ℕ) (hk : 1 ≤ k) (hn : k ≤ ps.length) (nee : V3 K) (c : Fin 3) :
    ∃ (sel : List ℕ) (last : ℕ) (pl : Photon K) (r : V3 K), NearestK ps pt k (sel ++ [last]) ∧
      ps[last]? = some pl ∧ evalK recip pi resp ps pt k nee = .ok r ∧
      r.get c = nee.get c + Total resp ps sel c * recip (pi * Dist2 pt pl) := by
  obtain ⟨hN, hent⟩ := nearest_photons ps pt k hk
  have hsort := (closestK_inv ps pt k hk).sorted
  have hlen : (closestK ps pt (k : ℤ)).length = k := by
    have := hN.count
    rw [List.length_map] at this
    omega
  unfold evalK
  generalize closestK ps pt (k : ℤ) = l at *
  have hne : l ≠ [] := by intro h; subst h; simp at hlen; omega
  obtain ⟨l0, x, rfl⟩ : ∃ l0 x, l = l0 ++ [x] := ⟨l.dropLast, l.getLast hne, (List.dropLast_append_getLast hne).symm⟩
  obtain ⟨pl, hpl, hx⟩ := hent x (by simp)
  simp only [List.length_append, List.length_singleton] at hlen
  have hpair : pairAt (l0 ++ [x]) ((k : ℤ) - 1) = .ok x := by
    unfold pairAt
    rw [if_neg (by omega)]
    have : ((k : ℤ) - 1).toNat = l0.length := by omega
    rw [this, List.getElem?_append_right (le_refl _)]
    simp
  obtain ⟨r, hr, e⟩ := gatherK_get resp ps x.1 (recip (pi * x.1)) c l0 nee
    (fun y hy => (List.pairwise_append.mp hsort).2.2 y hy x (by simp))
    (fun y hy => hN.exist y.2 (List.mem_map_of_mem (by simp [hy])))
  refine ⟨l0.map (·.2), x.2, pl, r, by simpa using hN, hpl, ?_, by rw [e, hx]⟩
  dsimp only
  rw [hpair]
  simp only [List.length_append, List.length_singleton, Nat.add_sub_cancel, List.take_left']
  exact hr

/-- With `k = 1` nothing is gathered at all, whatever the photons. -/
theorem nearest_estimate_refuted (recip : K → K) (pi : K) (resp : V3 K → V3 K) (ps : List (Photon K))
    (pt : V3 K) (hn : ps ≠ []) (nee : V3 K) : evalK recip pi resp ps pt 1 nee = .ok nee := by
  obtain ⟨hN, _⟩ := nearest_photons ps pt 1 (le_refl _)
  have hpos : 0 < ps.length := List.length_pos_iff.mpr hn
  have hlen : (closestK ps pt 1).length = 1 := by
    have := hN.count
    rw [List.length_map] at this
    simpa [Nat.min_eq_left hpos] using this
  obtain ⟨x, hx⟩ := List.length_eq_one_iff.mp hlen
  unfold evalK
  simp [hx, pairAt, gatherK]

/-- With fewer photons than asked for, or none asked for, the estimate reads outside the list. -/
theorem nearest_estimate_ub (recip : K → K) (pi : K) (resp : V3 K → V3 K) (ps : List (Photon K))
    (pt : V3 K) (k : ℤ) (hk : k ≤ 0 ∨ (ps.length : ℤ) < k) (nee : V3 K) :
    ∃ w, evalK recip pi resp ps pt k nee = .ub w := by
  unfold evalK
  have : pairAt (closestK ps pt k) (k - 1) = .ub "index out of range" := by
    unfold pairAt
    rcases hk with hk | hk
    · rw [if_pos (by omega)]
    · rw [if_neg (by omega)]
      lift k to ℕ using by omega
      obtain ⟨hN, _⟩ := nearest_photons ps pt k (by omega)
      have := hN.count
      rw [List.length_map] at this
      rw [List.getElem?_eq_none (by omega)]
  dsimp only
  rw [this]
  exact ⟨_, rfl⟩

/-! ### Instances -/

private def ex : List (Photon ℚ) :=
  [⟨⟨3, 0, 0⟩, 0, ⟨1, 1, 1⟩⟩, ⟨⟨1, 0, 0⟩, 0, ⟨1, 1, 1⟩⟩, ⟨⟨2, 0, 0⟩, 0, ⟨1, 1, 1⟩⟩, ⟨⟨1, 0, 0⟩, 0, ⟨1, 1, 1⟩⟩]

example : closestK ex 0 2 = [(1, 1), (1, 3)] := by decide +kernel
example : closestK ex 0 9 = [(1, 1), (1, 3), (4, 2), (9, 0)] := by decide +kernel
/-- The three nearest have weight 3; two are counted. -/
example : evalK (fun x => 1 / x) 3 (fun _ => ⟨1, 1, 1⟩) ex 0 3 0 = .ok ⟨1 / 6, 1 / 6, 1 / 6⟩ := by decide +kernel

end Feign.Photons
