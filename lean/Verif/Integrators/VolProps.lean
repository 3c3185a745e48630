import Verif.Integrators.VolLemmas
import Verif.Integrators.PathProps
import Mathlib.Tactic.Linarith
import Mathlib.Tactic.FieldSimp

/-!
# C85, C87: what the volumetric path integrators return

The statements are about `volLi`; events, throughput and light found are in `Verif/Integrators/VolSpec.lean`.
-/

set_option linter.unusedSectionVars false
set_option linter.unusedSimpArgs false

namespace Feign.Integrators.Vol

variable {K M : Type} [Field K] [LinearOrder K] [IsStrictOrderedRing K]

/-! ## C85: the value returned -/

theorem fresh_agrees (quot : K → K → K) (env : Option M) (ans : ℕ → VolAnswer K M) :
    Agrees quot (eventAt env ans) 0 (⟨0, white, Closure.fresh, [], env, 0⟩ : VolState K M) :=
  ⟨rfl, rfl, rfl, rfl, rfl, rfl, rfl⟩

/-- C85. Whatever scene, media and sampler answer: if the path ends within `fuel` passes, what is returned is the sum
over the passes of the light found there times the throughput, counting the passes that are reached. -/
theorem vol_radiance (quot : K → K → K) (maxBounces : ℕ) (env : Option M) (ans : ℕ → VolAnswer K M) (fuel : ℕ)
    (h : ∃ k < fuel, Ends quot maxBounces (eventAt env ans) k) :
    volLi quot maxBounces env ans fuel =
      some (∑ k ∈ Finset.range fuel, contribution quot maxBounces (eventAt env ans) k) := by
  have := (volLoop_spec quot maxBounces env ans fuel 0 _ (fresh_agrees quot env ans) rfl
    (fun j hj => absurd hj (Nat.not_lt_zero j))).1 (by simpa only [Nat.zero_add] using h)
  simp only [Nat.zero_add, zero_add] at this
  exact this

/-- C85. It is still running after `fuel` passes exactly if the path does not end in any of them. -/
theorem vol_running_iff (quot : K → K → K) (maxBounces : ℕ) (env : Option M) (ans : ℕ → VolAnswer K M) (fuel : ℕ) :
    volLi quot maxBounces env ans fuel = none ↔ ∀ k < fuel, ¬ Ends quot maxBounces (eventAt env ans) k := by
  constructor
  · intro h k hk he
    rw [vol_radiance quot maxBounces env ans fuel ⟨k, hk, he⟩] at h
    cases h
  · intro h
    exact (volLoop_spec quot maxBounces env ans fuel 0 _ (fresh_agrees quot env ans) rfl
      (fun j hj => absurd hj (Nat.not_lt_zero j))).2 (by simpa only [Nat.zero_add] using h)

/-- The event is the crossing of a null surface. -/
def IsNull : Event K M → Bool
  | .null .. => true
  | _ => false

/-- Number of null surfaces crossed before pass `k`. -/
def crossings (ev : ℕ → Event K M) (k : ℕ) : ℕ := ((Finset.range k).filter fun j => IsNull (ev j) = true).card

theorem vertices_add_crossings (ev : ℕ → Event K M) (k : ℕ) : vertices ev k + crossings ev k = k := by
  induction k with
  | zero => rfl
  | succ k ih =>
    unfold crossings at *
    rw [Finset.range_add_one, Finset.filter_insert, vertices]
    have hne : k ∉ (Finset.range k).filter fun j => IsNull (ev j) = true := by simp
    cases hk : ev k with
    | null w b =>
      rw [if_pos (show IsNull (Event.null w b) = true from rfl), Finset.card_insert_of_notMem hne]
      simp only
      omega
    | escape e =>
      rw [if_neg (show ¬ IsNull (Event.escape (M := M) e) = true from Bool.false_ne_true)]
      simp only
      omega
    | scatter w v =>
      rw [if_neg (show ¬ IsNull (Event.scatter (M := M) w v) = true from Bool.false_ne_true)]
      simp only
      omega
    | surface w s =>
      rw [if_neg (show ¬ IsNull (Event.surface (M := M) w s) = true from Bool.false_ne_true)]
      simp only
      omega

/-- C85. At most `maxBounces` vertices are visited: with at most `m` null surfaces crossed in the first
`maxBounces + m` passes, the loop has returned after one more. -/
theorem vol_returns (quot : K → K → K) (maxBounces m : ℕ) (env : Option M) (ans : ℕ → VolAnswer K M)
    (h : crossings (eventAt env ans) (maxBounces + m) ≤ m) :
    ∃ v, volLi quot maxBounces env ans (maxBounces + m + 1) = some v := by
  refine ⟨_, vol_radiance quot maxBounces env ans _ ⟨maxBounces + m, by omega, ?_⟩⟩
  rintro ⟨⟨_, _, hv⟩, _⟩
  have := vertices_add_crossings (eventAt env ans) (maxBounces + m)
  omega

/-- C85. A value once returned does not change with more passes. -/
theorem vol_fuel (quot : K → K → K) (maxBounces : ℕ) (env : Option M) (ans : ℕ → VolAnswer K M) (fuel fuel' : ℕ)
    (hf : fuel ≤ fuel') (v : V3 K) (h : volLi quot maxBounces env ans fuel = some v) :
    volLi quot maxBounces env ans fuel' = some v := by
  by_cases he : ∃ k < fuel, Ends quot maxBounces (eventAt env ans) k
  · obtain ⟨k, hk, hek⟩ := he
    rw [vol_radiance quot maxBounces env ans fuel ⟨k, hk, hek⟩] at h
    rw [vol_radiance quot maxBounces env ans fuel' ⟨k, by omega, hek⟩, ← h]
    congr 1
    symm
    refine Finset.sum_subset (Finset.range_subset_range.2 hf) fun j _ hj => ?_
    rw [Finset.mem_range, not_lt] at hj
    exact contribution_eq_zero (not_reached_of_ends hek (by omega))
  · rw [(vol_running_iff quot maxBounces env ans fuel).2 fun k hk hek => he ⟨k, hk, hek⟩] at h
    cases h

/-- C85 fails without a bound on the null surfaces met: they do not count as bounces, so a path that meets one after
the other (two of them back to back further from the origin than `Epsilon` can resolve, say) never returns. -/
theorem vol_endless_refuted (quot : K → K → K) (maxBounces : ℕ) (hb : 0 < maxBounces) (env : Option M)
    (w : M → V3 K) (hw : ∀ m, env = some m → w m = white) (fuel : ℕ) :
    volLi quot maxBounces env (fun _ => .hit (fun m => ⟨w m, none⟩) none .null) fuel = none := by
  have hev : ∀ k, mediumAt env (fun _ => .hit (fun m => ⟨w m, none⟩) none .null) k = env ∧
      eventAt env (fun _ => .hit (fun m => ⟨w m, none⟩) none .null) k = .null white none := by
    have key : happens (K := K) (.hit (fun m => ⟨w m, none⟩) none .null) env = .null white none := by
      cases henv : env with
      | none => rfl
      | some m => simp only [happens, arrive, hw m henv]
    intro k
    induction k with
    | zero => exact ⟨rfl, key⟩
    | succ k ih =>
      have h1 : mediumAt env (fun _ => .hit (fun m => ⟨w m, none⟩) none .null) (k + 1) = env := by
        rw [mediumAt, ih.1, key]
      exact ⟨h1, by rw [eventAt, h1, key]⟩
  have hthr : ∀ k, thr quot (eventAt env fun _ => .hit (fun m => ⟨w m, none⟩) none .null) k = white := by
    intro k
    induction k with
    | zero => rfl
    | succ k ih => simp only [thr, (hev k).2, ih, mul_white]
  have hver : ∀ k, vertices (eventAt env fun _ => .hit (fun m => ⟨w m, none⟩) none .null) k = 0 := by
    intro k
    induction k with
    | zero => rfl
    | succ k ih => simp only [vertices, (hev k).2, ih]
  have hsur : ∀ k, Survives quot (eventAt env fun _ => .hit (fun m => ⟨w m, none⟩) none .null) k := by
    intro k
    simp only [Survives, (hev k).2]
  rw [vol_running_iff]
  intro k _ he
  refine he ⟨⟨fun j _ => hsur j, fun j _ => ?_, by rw [hver]; exact hb⟩, hsur k⟩
  rw [hthr]
  have : ¬ ((1 : K) < 10000⁻¹) := by norm_num
  simp [Negligible, white, this]

/-! ## C85: media and boundaries -/

/-- C85. The path is in the medium behind the last boundary it crossed, and in the medium of the environment as long as
it has crossed none. Scattering and surfaces with a material do not change the medium. -/
theorem medium_after_boundary (env : Option M) (ans : ℕ → VolAnswer K M) (j k : ℕ) (w : V3 K) (b : Boundary K M)
    (hjk : j < k) (hj : eventAt env ans j = .null w (some b))
    (hlast : ∀ i, j < i → i < k → ∀ w' b', eventAt env ans i ≠ .null w' (some b')) :
    mediumAt env ans k = if b.cos ≤ 0 then b.outside else b.inside := by
  induction k with
  | zero => omega
  | succ k ih =>
    rw [mediumAt, ← eventAt]
    rcases Nat.lt_or_eq_of_le (Nat.lt_succ_iff.1 hjk) with h | rfl
    · have hk := hlast k h (by omega)
      have := ih h fun i h1 h2 => hlast i h1 (by omega)
      rw [← this]
      cases hev : eventAt env ans k with
      | null w' b' =>
        cases b' with
        | none => rfl
        | some b' => exact absurd hev (hk w' b')
      | _ => rfl
    · rw [hj]; rfl

theorem medium_before_boundaries (env : Option M) (ans : ℕ → VolAnswer K M) (k : ℕ)
    (h : ∀ i < k, ∀ w b, eventAt env ans i ≠ .null w (some b)) : mediumAt env ans k = env := by
  induction k with
  | zero => rfl
  | succ k ih =>
    rw [mediumAt, ← eventAt, ih fun i hi => h i (by omega)]
    cases hev : eventAt env ans k with
    | null w b =>
      cases b with
      | none => rfl
      | some b => exact absurd hev (h k (by omega) w b)
    | _ => rfl

/-- C85 asks that a path is in the medium behind the last boundary it passed. For a boundary on an object with a
material (glass filled with fog) that fails: the path goes on in the medium it was in. -/
theorem glass_boundary_refuted (env : Option M) (medium : M → MediumSample K) (b : Boundary K M) (s : VSurface K)
    (ans : ℕ → VolAnswer K M) (h0 : ans 0 = .hit medium (some b) (.surface s)) : mediumAt env ans 1 = env := by
  cases env with
  | none => simp only [mediumAt, h0, happens, arrive]
  | some m =>
    simp only [mediumAt, h0, happens]
    cases (medium m).scatter <;> rfl

/-! ## C85: no light is invented -/

/-- Nothing the event brings is negative. -/
def NonNegEvent : Event K M → Prop
  | .escape env => NonNeg env
  | .scatter w v => NonNeg w ∧ 0 ≤ v.phase v.wi ∧ ∀ r ∈ v.rays, NonNeg r.throughput
  | .null w _ => NonNeg w
  | .surface w s =>
    NonNeg w ∧ NonNeg s.emitted ∧ (∀ r ∈ s.rays, NonNeg r.throughput) ∧ (∀ d, NonNeg (s.mat d)) ∧
      ∀ a p, s.scatter = .bsdf a p → NonNeg a ∧ 0 ≤ p

/-- The random number drawn for termination, if one is drawn, is positive. -/
def PositiveDraw : Event K M → Prop
  | .scatter _ v => 0 < v.u
  | .surface _ s => 0 < s.u
  | _ => True

theorem density_nonneg {ev : ℕ → Event K M} (h : ∀ k, NonNegEvent (ev k)) (k : ℕ) : 0 ≤ density ev k := by
  induction k with
  | zero => exact zero_le_one
  | succ k ih =>
    have hk := h k
    rw [density]
    split
    · rename_i heq
      rw [heq] at hk
      exact (hk.2.2.2.2 _ _ rfl).2
    · exact ih

theorem mediumWeight_nonneg {ev : ℕ → Event K M} (h : ∀ k, NonNegEvent (ev k)) (k : ℕ) :
    NonNeg (mediumWeight (ev k)) := by
  have hk := h k
  cases he : ev k with
  | escape env => exact NonNeg.white
  | scatter w v => rw [he] at hk; exact hk.1
  | null w b => rw [he] at hk; exact hk
  | surface w s => rw [he] at hk; exact hk.1

/-- Where a path goes on after a draw of a positive number, the probability of going on is positive. -/
theorem goOn_pos_of_survives {quot : K → K → K} {ev : ℕ → Event K M} {k : ℕ} (hs : Survives quot ev k)
    (hu : PositiveDraw (ev k)) : IsNull (ev k) = true ∨ 0 < min (thrAt quot ev k).maxValue 1 := by
  cases he : ev k with
  | escape env => simp only [Survives, he] at hs
  | scatter w v =>
    simp only [Survives, he, PositiveDraw] at hs hu
    exact Or.inr (lt_of_lt_of_le hu hs)
  | null w b => exact Or.inl rfl
  | surface w s =>
    simp only [Survives, he, PositiveDraw] at hs hu
    exact Or.inr (lt_of_lt_of_le hu hs.1)

theorem thr_nonneg {quot : K → K → K} (hq : IsQuot quot) {ev : ℕ → Event K M} (h : ∀ k, NonNegEvent (ev k))
    (hu : ∀ k, PositiveDraw (ev k)) (k : ℕ) (hs : ∀ j < k, Survives quot ev j) : NonNeg (thr quot ev k) := by
  induction k with
  | zero => exact NonNeg.white
  | succ k ih =>
    have ihk := ih fun j hj => hs j (by omega)
    have hsk := hs k (by omega)
    have hw := mediumWeight_nonneg h k
    have hg := goOn_pos_of_survives hsk (hu k)
    have hk := h k
    have hd := density_nonneg h (k + 1)
    cases he : ev k with
    | escape env => simp only [Survives, he] at hsk
    | scatter w v =>
      simp only [he, IsNull, Bool.false_eq_true, false_or, thrAt, mediumWeight] at hg hw
      simp only [thr, he]
      exact NonNeg.divBy hq (ihk.mul hw) hg
    | null w b =>
      simp only [he, mediumWeight] at hw
      simp only [thr, he]
      exact ihk.mul hw
    | surface w s =>
      simp only [he, IsNull, Bool.false_eq_true, false_or, thrAt, mediumWeight] at hg hw
      simp only [Survives, he] at hsk
      rw [he] at hk
      simp only [thr, he]
      refine (ihk.mul hw).mul (NonNeg.divBy hq (NonNeg.smul ?_ ?_)
        (mul_pos (lt_of_le_of_ne hd (Ne.symm hsk.2)) hg))
      · unfold albedo
        cases hsc : s.scatter with
        | bsdf a p => exact (hk.2.2.2.2 a p hsc).1
        | null => exact NonNeg.white
      · unfold cosine
        split_ifs
        · exact zero_le_one
        · exact abs_nonneg _

theorem total_nonneg {f : V3 K → V3 K} {rays : List (VRay K)} (hr : ∀ r ∈ rays, NonNeg r.throughput)
    (hf : ∀ d, NonNeg (f d)) : NonNeg (total f rays) := by
  induction rays with
  | nil => exact NonNeg.zero
  | cons r rs ih =>
    rw [total_cons]
    have := ih fun r' hr' => hr r' (by simp [hr'])
    split_ifs
    · exact ((hr r (by simp)).mul (hf _)).add this
    · exact this

theorem leftover_nonneg {ev : ℕ → Event K M} (h : ∀ k, NonNegEvent (ev k)) (k : ℕ) :
    ∀ r ∈ leftover ev k, NonNeg r.throughput := by
  induction k with
  | zero => intro r hr; simp [leftover] at hr
  | succ k ih =>
    have hk := h k
    rw [leftover]
    cases he : ev k with
    | scatter w v => rw [he] at hk; exact hk.2.2
    | surface w s => intro r hr; simp at hr
    | _ => exact ih

theorem light_nonneg {ev : ℕ → Event K M} (h : ∀ k, NonNegEvent (ev k)) (k : ℕ) : NonNeg (light ev k) := by
  have hk := h k
  unfold light
  cases he : ev k with
  | escape env => rw [he] at hk; exact hk
  | scatter w v => rw [he] at hk; exact total_nonneg hk.2.2 fun _ => ⟨hk.2.1, hk.2.1, hk.2.1⟩
  | null w b => exact NonNeg.zero
  | surface w s =>
    rw [he] at hk
    refine NonNeg.add ?_ (total_nonneg ?_ hk.2.2.2.1)
    · split_ifs
      · exact hk.2.1
      · exact NonNeg.zero
    · unfold raysAt
      split_ifs
      · exact hk.2.2.1
      · exact leftover_nonneg h k

/-- C85. If nothing scene and media answer is negative, neither is the radiance. (`_partial`: the random numbers drawn
for termination are positive; see `vol_zero_draw_refuted`.) -/
theorem vol_nonneg_partial (quot : K → K → K) (hq : IsQuot quot) (maxBounces : ℕ) (env : Option M)
    (ans : ℕ → VolAnswer K M) (h : ∀ k, NonNegEvent (eventAt env ans k)) (hu : ∀ k, PositiveDraw (eventAt env ans k))
    (fuel : ℕ) (v : V3 K) (hv : volLi quot maxBounces env ans fuel = some v) : NonNeg v := by
  by_cases he : ∃ k < fuel, Ends quot maxBounces (eventAt env ans) k
  · rw [vol_radiance quot maxBounces env ans fuel he] at hv
    cases hv
    refine NonNeg.sum fun k _ => ?_
    unfold contribution
    split_ifs with hre
    · exact ((thr_nonneg hq h hu k hre.1).mul (mediumWeight_nonneg h k)).mul (light_nonneg h k)
    · exact NonNeg.zero
  · rw [(vol_running_iff quot maxBounces env ans fuel).2 fun k hk hek => he ⟨k, hk, hek⟩] at hv
    cases hv

/-- C85. Under the same condition nothing is ever divided by zero: the value returned is the same for every way of
answering such a division. -/
theorem vol_no_zero_division_partial (quot quot' : K → K → K) (hq : IsQuot quot) (hq' : IsQuot quot') (maxBounces : ℕ)
    (env : Option M) (ans : ℕ → VolAnswer K M) (hu : ∀ k, PositiveDraw (eventAt env ans k)) (fuel : ℕ) :
    volLi quot maxBounces env ans fuel = volLi quot' maxBounces env ans fuel := by
  have hdiv : ∀ (v : V3 K) (c : K), c ≠ 0 → divBy quot v c = divBy quot' v c := by
    intro v c hc
    simp only [divBy, hq _ _ hc, hq' _ _ hc]
  set ev := eventAt env ans with hev
  have key : ∀ k, (∀ j < k, Survives quot ev j) → thr quot ev k = thr quot' ev k := by
    intro k
    induction k with
    | zero => intro _; rfl
    | succ k ih =>
      intro hs
      have ihk := ih fun j hj => hs j (by omega)
      have hsk := hs k (by omega)
      have hg := goOn_pos_of_survives hsk (hu k)
      cases he : ev k with
      | escape env => simp only [Survives, he] at hsk
      | scatter w v =>
        simp only [he, IsNull, Bool.false_eq_true, false_or, thrAt, mediumWeight] at hg
        simp only [thr, he, ← ihk]
        exact hdiv _ _ hg.ne'
      | null w b => simp only [thr, he, ihk]
      | surface w s =>
        simp only [he, IsNull, Bool.false_eq_true, false_or, thrAt, mediumWeight] at hg
        simp only [Survives, he] at hsk
        simp only [thr, he, ← ihk]
        rw [hdiv _ _ (mul_ne_zero hsk.2 hg.ne')]
  have hsur : ∀ k, (∀ j < k, Survives quot ev j) → (Survives quot ev k ↔ Survives quot' ev k) := by
    intro k hs
    have := key k hs
    unfold Survives thrAt
    rw [this]
  have hsur' : ∀ k, (∀ j < k, Survives quot ev j) ↔ ∀ j < k, Survives quot' ev j := by
    intro k
    induction k with
    | zero => simp
    | succ k ih =>
      constructor
      · intro h j hj
        exact (hsur j fun i hi => h i (by omega)).1 (h j hj)
      · intro h
        have hk := ih.2 fun j hj => h j (by omega)
        intro j hj
        rcases Nat.lt_or_eq_of_le (Nat.lt_succ_iff.1 hj) with hj' | rfl
        · exact hk j hj'
        · exact (hsur j hk).2 (h j hj)
  have hreach : ∀ k, Reached quot maxBounces ev k ↔ Reached quot' maxBounces ev k := by
    intro k
    unfold Reached
    rw [← hsur' k]
    constructor
    · rintro ⟨h1, h2, h3⟩
      exact ⟨h1, fun j hj => by rw [← key j fun i hi => h1 i (by omega)]; exact h2 j hj, h3⟩
    · rintro ⟨h1, h2, h3⟩
      exact ⟨h1, fun j hj => by rw [key j fun i hi => h1 i (by omega)]; exact h2 j hj, h3⟩
  have hends : ∀ k, Ends quot maxBounces ev k ↔ Ends quot' maxBounces ev k := by
    intro k
    unfold Ends
    rw [← hreach k]
    constructor <;>
    · intro h hc
      exact h ⟨hc.1, by have := hsur k hc.1.1; tauto⟩
  have hcon : ∀ k, contribution quot maxBounces ev k = contribution quot' maxBounces ev k := by
    intro k
    unfold contribution
    by_cases hr : Reached quot maxBounces ev k
    · rw [if_pos hr, if_pos ((hreach k).1 hr), thrAt, thrAt, key k hr.1]
    · rw [if_neg hr, if_neg fun h => hr ((hreach k).2 h)]
  by_cases he : ∃ k < fuel, Ends quot maxBounces ev k
  · rw [vol_radiance quot maxBounces env ans fuel he,
      vol_radiance quot' maxBounces env ans fuel (by obtain ⟨k, hk, h⟩ := he; exact ⟨k, hk, (hends k).1 h⟩)]
    simp only [← hev, hcon]
  · rw [(vol_running_iff quot maxBounces env ans fuel).2 fun k hk h => he ⟨k, hk, h⟩,
      (vol_running_iff quot' maxBounces env ans fuel).2 fun k hk h => he ⟨k, hk, (hends k).2 h⟩]

/-! ## C85: random termination -/

/-- Probability of going on after `k`. -/
def goOn (quot : K → K → K) (ev : ℕ → Event K M) (k : ℕ) : K :=
  if IsNull (ev k) then 1 else min (thrAt quot ev k).maxValue 1

/-- Weight of `k`: that of the medium on the way, times albedo times cosine over density at a surface. -/
def weight (ev : ℕ → Event K M) (k : ℕ) : V3 K :=
  match ev k with
  | .escape _ => white
  | .scatter w _ => w
  | .null w _ => w
  | .surface w s =>
    ⟨w.x * ((albedo s).x * cosine s / density ev (k + 1)), w.y * ((albedo s).y * cosine s / density ev (k + 1)),
      w.z * ((albedo s).z * cosine s / density ev (k + 1))⟩

/-- C85. Random termination keeps the expectation: throughput times the probability of surviving is the product of the
weights, as if no path were ended at random. (`_partial`: positive draws, as above.) -/
theorem vol_roulette_partial (quot : K → K → K) (hq : IsQuot quot) (ev : ℕ → Event K M)
    (hu : ∀ k, PositiveDraw (ev k)) (k : ℕ) (hs : ∀ j < k, Survives quot ev j) :
    (thr quot ev k).x * ∏ j ∈ Finset.range k, goOn quot ev j = ∏ j ∈ Finset.range k, (weight ev j).x ∧
    (thr quot ev k).y * ∏ j ∈ Finset.range k, goOn quot ev j = ∏ j ∈ Finset.range k, (weight ev j).y ∧
    (thr quot ev k).z * ∏ j ∈ Finset.range k, goOn quot ev j = ∏ j ∈ Finset.range k, (weight ev j).z := by
  induction k with
  | zero => simp [thr, white]
  | succ k ih =>
    obtain ⟨i1, i2, i3⟩ := ih fun j hj => hs j (by omega)
    have hsk := hs k (by omega)
    have hg := goOn_pos_of_survives hsk (hu k)
    rw [Finset.prod_range_succ, Finset.prod_range_succ, Finset.prod_range_succ, Finset.prod_range_succ, ← i1, ← i2,
      ← i3]
    cases he : ev k with
    | escape env => simp only [Survives, he] at hsk
    | scatter w v =>
      simp only [he, IsNull, Bool.false_eq_true, false_or, thrAt, mediumWeight] at hg
      have hg2 : goOn quot ev k = min (thr quot ev k * w).maxValue 1 := by simp [goOn, he, IsNull, thrAt, mediumWeight]
      simp only [thr, he, weight, hg2, divBy, hq _ _ hg.ne', V3.mul_x, V3.mul_y, V3.mul_z]
      have := hg.ne'
      generalize min (thr quot ev k * w).maxValue 1 = g at this ⊢
      refine ⟨?_, ?_, ?_⟩ <;> field_simp
    | null w b =>
      have hg2 : goOn quot ev k = 1 := by simp [goOn, he, IsNull]
      simp only [thr, he, weight, hg2, V3.mul_x, V3.mul_y, V3.mul_z]
      refine ⟨?_, ?_, ?_⟩ <;> ring
    | surface w s =>
      simp only [he, IsNull, Bool.false_eq_true, false_or, thrAt, mediumWeight] at hg
      simp only [Survives, he] at hsk
      have hg2 : goOn quot ev k = min (thr quot ev k * w).maxValue 1 := by simp [goOn, he, IsNull, thrAt, mediumWeight]
      have hd := hsk.2
      have hm := mul_ne_zero hd hg.ne'
      simp only [thr, he, weight, hg2, divBy, hq _ _ hm, V3.mul_x, V3.mul_y, V3.mul_z, V3.smul_x, V3.smul_y,
        V3.smul_z]
      have := hg.ne'
      generalize min (thr quot ev k * w).maxValue 1 = g at this ⊢
      refine ⟨?_, ?_, ?_⟩ <;> field_simp

/-! ## A concrete path -/

/-- A box of fog in front of a grey wall, in a bright environment: the path enters the fog, scatters once, crosses the
other side, is reflected by the wall and leaves the scene. -/
def fogBox (k : ℕ) : VolAnswer ℚ Unit :=
  let clear : Unit → MediumSample ℚ := fun _ => ⟨white, none⟩
  let wall : VSurface ℚ :=
    ⟨.simple, false, 0, [⟨true, ⟨3, 3, 3⟩, ⟨0, 0, 1⟩⟩], fun _ => ⟨1 / 2, 1 / 2, 1 / 2⟩, .bsdf ⟨1 / 2, 1 / 2, 1 / 2⟩ 1, 1, 1 / 4⟩
  if k = 0 then .hit clear (some ⟨1, some (), none⟩) .null
  else if k = 1 then
    .hit (fun _ => ⟨⟨1 / 2, 1 / 2, 1 / 2⟩, some ⟨[⟨true, ⟨4, 4, 4⟩, ⟨0, 0, 1⟩⟩], fun _ => 1 / 4, ⟨0, 0, 1⟩, 1 / 4⟩⟩) none .null
  else if k = 2 then .hit clear (some ⟨-1, some (), none⟩) .null
  else if k = 3 then .hit clear none (.surface wall)
  else .escape ⟨1, 1, 1⟩

/-- It comes back with the light of the fog (half of a quarter of 4), of the wall and of the environment. -/
example : volLi (· / ·) 5 none fogBox 10 = some ⟨5 / 2, 5 / 2, 5 / 2⟩ := by decide +kernel

/-- The fog is entered and left, and the hypotheses of the theorems above are met. -/
example : mediumAt none fogBox 1 = some () ∧ mediumAt none fogBox 3 = none ∧
    crossings (eventAt none fogBox) 7 ≤ 2 := by
  refine ⟨rfl, rfl, by decide +kernel⟩

example : (∀ k, NonNegEvent (eventAt none fogBox k)) ∧ (∀ k, PositiveDraw (eventAt none fogBox k)) ∧
    (∀ j < 4, Survives (fun a b : ℚ => a / b) (eventAt none fogBox) j) := by
  have hm : ∀ k, 4 ≤ k → eventAt none fogBox k = .escape ⟨1, 1, 1⟩ := by
    intro k hk
    have : fogBox k = .escape ⟨1, 1, 1⟩ := by
      unfold fogBox
      simp [show k ≠ 0 by omega, show k ≠ 1 by omega, show k ≠ 2 by omega, show k ≠ 3 by omega]
    unfold eventAt
    rw [this]
    rfl
  have e0 : eventAt none fogBox 0 = .null white (some ⟨1, some (), none⟩) := rfl
  have e1 : eventAt none fogBox 1 =
    .scatter ⟨1 / 2, 1 / 2, 1 / 2⟩ ⟨[⟨true, ⟨4, 4, 4⟩, ⟨0, 0, 1⟩⟩], fun _ => 1 / 4, ⟨0, 0, 1⟩, 1 / 4⟩ := rfl
  have e2 : eventAt none fogBox 2 = .null white (some ⟨-1, some (), none⟩) := rfl
  have e3 : eventAt none fogBox 3 = .surface white ⟨.simple, false, 0, [⟨true, ⟨3, 3, 3⟩, ⟨0, 0, 1⟩⟩],
    fun _ => ⟨1 / 2, 1 / 2, 1 / 2⟩, .bsdf ⟨1 / 2, 1 / 2, 1 / 2⟩ 1, 1, 1 / 4⟩ := rfl
  refine ⟨fun k => ?_, fun k => ?_, fun j hj => ?_⟩
  · rcases Nat.lt_or_ge k 4 with h | h
    · have : k = 0 ∨ k = 1 ∨ k = 2 ∨ k = 3 := by omega
      rcases this with rfl | rfl | rfl | rfl
      · rw [e0]; simp [NonNegEvent, NonNeg, white]
      · rw [e1]; norm_num [NonNegEvent, NonNeg]
      · rw [e2]; simp [NonNegEvent, NonNeg, white]
      · rw [e3]
        refine ⟨NonNeg.white, NonNeg.zero, by norm_num [NonNeg], by norm_num [NonNeg], ?_⟩
        intro a p h
        cases h
        norm_num [NonNeg]
    · rw [hm k h]; simp [NonNegEvent, NonNeg]
  · rcases Nat.lt_or_ge k 4 with h | h
    · have : k = 0 ∨ k = 1 ∨ k = 2 ∨ k = 3 := by omega
      rcases this with rfl | rfl | rfl | rfl
      · rw [e0]; trivial
      · rw [e1]; norm_num [PositiveDraw]
      · rw [e2]; trivial
      · rw [e3]; norm_num [PositiveDraw]
    · rw [hm k h]; trivial
  · have : j = 0 ∨ j = 1 ∨ j = 2 ∨ j = 3 := by omega
    rcases this with rfl | rfl | rfl | rfl
    · simp only [Survives, e0]
    · simp only [Survives, e1]; decide +kernel
    · simp only [Survives, e2]
    · simp only [Survives, e3]; exact ⟨by decide +kernel, by decide +kernel⟩

/-! ## Draws of zero -/

/-- A medium whose weight is zero at the scattering point, and the number zero drawn for termination. -/
def zeroDraw (k : ℕ) : VolAnswer ℚ Unit :=
  if k = 0 then .hit (fun _ => ⟨0, some ⟨[], fun _ => 1, ⟨0, 0, 1⟩, 0⟩⟩) none .null else .escape ⟨1, 1, 1⟩

/-- C85 fails when a throughput of zero meets a draw of zero: `0 > 0` does not end the path, and `beta` is divided by a
probability of zero. What is returned is whatever that division yields (not a number, in floating point). -/
theorem vol_zero_draw_refuted :
    volLi (fun a b => if b = 0 then 1 else a / b) 2 (some ()) zeroDraw 3 = some ⟨1, 1, 1⟩ ∧
    volLi (fun a b => if b = 0 then -1 else a / b) 2 (some ()) zeroDraw 3 = some ⟨-1, -1, -1⟩ := by
  decide +kernel

end Feign.Integrators.Vol
