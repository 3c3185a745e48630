import Verif.Integrators.PathLemmas
import Mathlib.Tactic.Linarith
import Mathlib.Tactic.FieldSimp
import Mathlib.Tactic.Ring
import Mathlib.Tactic.NormNum
import Mathlib.Algebra.BigOperators.Group.Finset.Basic
import Mathlib.Algebra.Order.Ring.Rat

/-!
# C37, C38, C71: what the path integrator returns

The statements are about `pathLi` itself, timers included; `throughput`, `lightAt` and `Reached` are in
`Verif/Integrators/Spec.lean`.
-/

set_option linter.unusedSectionVars false

namespace Feign.Integrators

variable {K : Type} [Field K] [LinearOrder K] [IsStrictOrderedRing K]

/-- C37. Whatever the scene answers, `Li` returns, and what it returns is the sum over the first `maxBounces`
vertices of the light found there times the throughput, counting the vertices the path reaches. -/
theorem path_radiance (quot : K → K → K) (maxBounces : ℕ) (ans : ℕ → Answer K) (r : Running) (hr : Idle r) :
    pathLi quot maxBounces ans r =
      .ok (∑ k ∈ Finset.range maxBounces, contribution quot ans k, r) := by
  rw [pathLi, pathLoop_eq hr, pathPure_eq]
  · simp only [zero_add]
  · intro j hj; omega
  · rfl
  · exact ⟨rfl, rfl, rfl⟩

/-- C37. At most `maxBounces` vertices are looked at: answers beyond that do not matter. -/
theorem path_bounded (quot : K → K → K) (maxBounces : ℕ) (ans ans' : ℕ → Answer K)
    (h : ∀ k < maxBounces, ans k = ans' k) (r : Running) :
    pathLi quot maxBounces ans r = pathLi quot maxBounces ans' r := by
  unfold pathLi
  suffices H : ∀ (n i : ℕ) (st : PathState K), i + n ≤ maxBounces →
      pathLoop quot ans n i st = pathLoop quot ans' n i st by
    rw [H _ _ _ (by omega)]
  intro n
  induction n with
  | zero => intro i st _; rfl
  | succ n ih =>
    intro i st hi
    rw [pathLoop, pathLoop, h i (by omega)]
    cases ans' i with
    | escape q env => rfl
    | surface q s =>
      simp only [fun st => ih (i + 1) st (by omega)]

/-- No component is negative. -/
def NonNeg (v : V3 K) : Prop := 0 ≤ v.x ∧ 0 ≤ v.y ∧ 0 ≤ v.z

/-- All light, albedos and densities the scene answers with are non-negative. -/
def NonNegAnswer : Answer K → Prop
  | .escape _ env => NonNeg env
  | .surface _ s =>
    NonNeg s.emitted ∧ (∀ r ∈ s.shadowRays, NonNeg r.throughput ∧ NonNeg r.albedo) ∧
      ∀ a p, s.scatter = .bsdf a p → NonNeg a ∧ 0 ≤ p

/-- `quot` is division wherever the divisor is not zero. -/
def IsQuot (quot : K → K → K) : Prop := ∀ a b, b ≠ 0 → quot a b = a / b

theorem NonNeg.add {a b : V3 K} (ha : NonNeg a) (hb : NonNeg b) : NonNeg (a + b) :=
  ⟨add_nonneg ha.1 hb.1, add_nonneg ha.2.1 hb.2.1, add_nonneg ha.2.2 hb.2.2⟩

theorem NonNeg.mul {a b : V3 K} (ha : NonNeg a) (hb : NonNeg b) : NonNeg (a * b) :=
  ⟨mul_nonneg ha.1 hb.1, mul_nonneg ha.2.1 hb.2.1, mul_nonneg ha.2.2 hb.2.2⟩

theorem NonNeg.zero : NonNeg (0 : V3 K) := ⟨le_rfl, le_rfl, le_rfl⟩

theorem NonNeg.smul {a : V3 K} {c : K} (ha : NonNeg a) (hc : 0 ≤ c) : NonNeg (a.smul c) :=
  ⟨mul_nonneg ha.1 hc, mul_nonneg ha.2.1 hc, mul_nonneg ha.2.2 hc⟩

theorem NonNeg.white : NonNeg (white : V3 K) := ⟨zero_le_one, zero_le_one, zero_le_one⟩

theorem NonNeg.divBy {quot : K → K → K} (hq : IsQuot quot) {v : V3 K} {c : K} (hv : NonNeg v) (hc : 0 < c) :
    NonNeg (divBy quot v c) := by
  simp only [NonNeg, Integrators.divBy, hq _ _ hc.ne']
  exact ⟨div_nonneg hv.1 hc.le, div_nonneg hv.2.1 hc.le, div_nonneg hv.2.2 hc.le⟩

theorem le_maxValue (v : V3 K) : v.x ≤ v.maxValue ∧ v.y ≤ v.maxValue ∧ v.z ≤ v.maxValue := by
  simp only [V3.maxValue]
  split_ifs <;> refine ⟨?_, ?_, ?_⟩ <;> linarith

/-- A throughput with non-negative components that does not count as zero gives a positive probability of
going on. -/
theorem goOn_pos {v : V3 K} (hv : NonNeg v) (hz : isZero v = false) : 0 < min v.maxValue 1 := by
  refine lt_min ?_ one_pos
  by_contra hm
  obtain ⟨h1, h2, h3⟩ := le_maxValue v
  have hm := not_lt.1 hm
  have e1 : v.x = 0 := le_antisymm (h1.trans hm) hv.1
  have e2 : v.y = 0 := le_antisymm (h2.trans hm) hv.2.1
  have e3 : v.z = 0 := le_antisymm (h3.trans hm) hv.2.2
  have : (0 : K) < 10000 := by norm_num
  simp [isZero, e1, e2, e3] at hz

theorem densityBefore_nonneg {ans : ℕ → Answer K} (h : ∀ k, NonNegAnswer (ans k)) (k : ℕ) :
    0 ≤ densityBefore ans k := by
  induction k with
  | zero => exact zero_le_one
  | succ k ih =>
    have hk := h k
    rw [densityBefore]
    split
    · rename_i heq
      rw [heq] at hk
      exact (hk.2.2 _ _ rfl).2
    · exact ih

theorem throughput_nonneg {quot : K → K → K} (hq : IsQuot quot) {ans : ℕ → Answer K}
    (h : ∀ k, NonNegAnswer (ans k)) (k : ℕ) (hs : ∀ j < k, Survives quot ans j)
    (hz : ∀ j < k, isZero (throughput quot ans j) = false) : NonNeg (throughput quot ans k) := by
  induction k with
  | zero => exact NonNeg.white
  | succ k ih =>
    have ihk := ih (fun j hj => hs j (by omega)) (fun j hj => hz j (by omega))
    obtain ⟨q, s, ha, _, hd⟩ := hs k (by omega)
    have hk := h k
    rw [ha] at hk
    simp only [throughput, ha]
    refine ihk.mul (NonNeg.divBy hq (NonNeg.smul ?_ ?_) (mul_pos ?_ (goOn_pos ihk (hz k (by omega)))))
    · unfold albedo
      cases hsc : s.scatter with
      | bsdf a p => exact (hk.2.2 a p hsc).1
      | null => exact NonNeg.white
    · unfold cosine
      split_ifs
      · exact zero_le_one
      · exact abs_nonneg _
    · exact lt_of_le_of_ne (densityBefore_nonneg h _) (Ne.symm hd)

theorem lightAt_nonneg {ans : ℕ → Answer K} (h : ∀ k, NonNegAnswer (ans k)) (k : ℕ) : NonNeg (lightAt ans k) := by
  have hk := h k
  unfold lightAt
  cases ha : ans k with
  | escape q env => rw [ha] at hk; exact hk
  | surface q s =>
    rw [ha] at hk
    refine NonNeg.add ?_ ?_
    · unfold emissionAt
      split_ifs
      · exact hk.1
      · exact NonNeg.zero
    · unfold directAt
      split_ifs
      · have key : ∀ l : List (ShadowRay K), (∀ r ∈ l, NonNeg r.throughput ∧ NonNeg r.albedo) →
            NonNeg (l.foldr (fun r v => r.throughput * r.albedo + v) 0) := by
          intro l
          induction l with
          | nil => intro _; exact NonNeg.zero
          | cons r rs ih =>
            intro hl
            exact ((hl r (by simp)).1.mul (hl r (by simp)).2).add (ih fun r' hr' => hl r' (by simp [hr']))
        exact key _ fun r hr => hk.2.1 r (List.mem_filter.1 hr).1
      · exact NonNeg.zero

theorem NonNeg.sum {f : ℕ → V3 K} {s : Finset ℕ} (h : ∀ k ∈ s, NonNeg (f k)) : NonNeg (∑ k ∈ s, f k) := by
  classical
  induction s using Finset.induction_on with
  | empty => exact NonNeg.zero
  | insert a s ha ih =>
    rw [Finset.sum_insert ha]
    exact (h a (Finset.mem_insert_self _ _)).add (ih fun k hk => h k (Finset.mem_insert_of_mem hk))

/-- C37. If nothing the scene answers is negative, neither is the radiance. -/
theorem path_nonneg (quot : K → K → K) (hq : IsQuot quot) (maxBounces : ℕ) (ans : ℕ → Answer K)
    (h : ∀ k, NonNegAnswer (ans k)) (r : Running) (hr : Idle r) :
    ∃ v, pathLi quot maxBounces ans r = .ok (v, r) ∧ NonNeg v := by
  refine ⟨_, path_radiance quot maxBounces ans r hr, NonNeg.sum fun k _ => ?_⟩
  unfold contribution
  split_ifs with hre
  · exact (throughput_nonneg hq h k hre.1 fun j hj => (not_negligible_iff _).1 (hre.2 j hj.le)).mul (lightAt_nonneg h k)
  · exact NonNeg.zero

/-! ## Emission counted once -/

/-- C38. Under the simple shader the emission of vertex `k` is counted exactly when the camera sees the vertex
directly or the vertex before it is specular. -/
theorem emission_counted_iff_partial (ans : ℕ → Answer K) (k : ℕ) (hp : ∀ j < k, Plain (ans j))
    (hsurf : ∀ j < k, ∃ q s, ans j = .surface q s) :
    looksAt ans k = true ↔ k = 0 ∨ ∃ j, k = j + 1 ∧ IsSpecular (ans j) := by
  cases k with
  | zero => simp [looksAt]
  | succ j =>
    obtain ⟨q, s, ha⟩ := hsurf j (by omega)
    obtain ⟨hsh, _⟩ := hp j (by omega) q s ha
    simp only [looksAt, ha, hsh, IsSpecular]
    cases hd : s.delta with
    | true => exact ⟨fun _ => Or.inr ⟨j, rfl, q, s, ha, hd⟩, fun _ => by simp⟩
    | false =>
      simp only [Bool.false_eq_true, if_false, false_iff, not_or]
      refine ⟨by omega, ?_⟩
      rintro ⟨j', hj, q', s', ha', hd'⟩
      obtain rfl : j = j' := by omega
      cases ha.symm.trans ha'
      rw [hd] at hd'
      exact absurd hd' (by simp)

/-- C38. Under the simple shader, with no null materials on the path, the light a vertex receives from the next
vertex is counted once: either lights are sampled at the vertex, or the emission of the next vertex is counted,
and never both. -/
theorem emission_counted_once_partial (ans : ℕ → Answer K) (k q : ℕ) (s : Surface K) (ha : ans k = .surface q s)
    (hp : ∀ j ≤ k, Plain (ans j)) :
    (s.delta = false ∧ samplesLights ans k = true) ↔ ¬ looksAt ans (k + 1) = true := by
  have hall : ∀ j ≤ k, samplesLights ans j = true := by
    intro j
    induction j with
    | zero => intro _; rfl
    | succ j ih =>
      intro hj
      rw [samplesLights]
      cases haj : ans j with
      | escape q' env => exact ih (by omega)
      | surface q' s' =>
        obtain ⟨h1, h2⟩ := hp j (by omega) q' s' haj
        cases hsc : s'.scatter with
        | null => exact absurd hsc h2
        | bsdf a p =>
          simp only [hsc, h1, ih (by omega)]
          split_ifs <;> rfl
  rw [hall k le_rfl]
  obtain ⟨h1, _⟩ := hp k le_rfl q s ha
  simp only [looksAt, ha, h1]
  cases s.delta <;> simp

open Classical in
/-- What C38 asks of vertex `k`: its emission if it is the first vertex or comes after a specular one, and its light
samples if it is not specular; the environment if there is no surface. -/
noncomputable def onceLight (ans : ℕ → Answer K) (k : ℕ) : V3 K :=
  match ans k with
  | .escape _ env => env
  | .surface _ s =>
    (if k = 0 ∨ ∃ j, k = j + 1 ∧ IsSpecular (ans j) then s.emitted else 0) +
      (if s.delta = false then directLight s else 0)

open Classical in
/-- C37 and C38 together, for scenes whose materials use the simple shader and are not the null material. -/
theorem path_radiance_once_partial (quot : K → K → K) (maxBounces : ℕ) (ans : ℕ → Answer K)
    (hp : ∀ k, Plain (ans k)) (r : Running) (hr : Idle r) :
    pathLi quot maxBounces ans r =
      .ok (∑ k ∈ Finset.range maxBounces,
        (if Reached quot ans k then throughput quot ans k * onceLight ans k else 0), r) := by
  rw [path_radiance quot maxBounces ans r hr]
  congr 2
  refine Finset.sum_congr rfl fun k _ => ?_
  unfold contribution
  by_cases hre : Reached quot ans k
  · rw [if_pos hre, if_pos hre]
    congr 1
    unfold lightAt onceLight
    cases ha : ans k with
    | escape q env => rfl
    | surface q s =>
      have h1 := emission_counted_iff_partial ans k (fun j _ => hp j) fun j hj => by
        obtain ⟨q', s', h, _⟩ := hre.1 j hj
        exact ⟨q', s', h⟩
      have h2 := emission_counted_once_partial ans k q s ha fun j _ => hp j
      simp only [emissionAt, directAt, h1]
      congr 1
      cases hd : s.delta with
      | true => simp
      | false =>
        obtain ⟨hsh, _⟩ := hp k q s ha
        have : ¬ looksAt ans (k + 1) = true := by simp [looksAt, ha, hsh, hd]
        rw [if_pos ⟨rfl, (h2.2 this).2⟩, if_pos rfl]
  · rw [if_neg hre, if_neg hre]

/-! ## Examples and refutations over the rationals -/

/-- A vertex whose only light sample is worth `direct`. -/
def vertex (sh : Shader) (delta : Bool) (emitted direct : V3 ℚ) (sc : Scatter ℚ) : Answer ℚ :=
  .surface 1 ⟨sh, delta, emitted, [⟨true, direct, white⟩], 1, sc, 1, 0⟩

/-- The radiance returned when no timer is running. -/
def radiance (maxBounces : ℕ) (ans : ℕ → Answer ℚ) : Option (V3 ℚ) :=
  match pathLi (· / ·) maxBounces ans fun _ => false with
  | .ok (v, _) => some v
  | _ => none

/-- A grey diffuse wall that sees a lamp of radiance 8 through its light sample, then the lamp itself. -/
def wallLamp (sh : Shader) (k : ℕ) : Answer ℚ :=
  if k = 0 then vertex sh false 0 ⟨2, 2, 2⟩ (.bsdf ⟨1, 1, 1⟩ 1)
  else vertex .simple false ⟨8, 8, 8⟩ 0 (.bsdf ⟨1, 1, 1⟩ 1)

/-- A camera that looks through a null material at the wall, and then the lamp. -/
def nullWallLamp (k : ℕ) : Answer ℚ :=
  if k = 0 then vertex .simple true 0 0 .null else wallLamp .simple (k - 1)

/-- The simple shader counts the lamp once, through the light sample. -/
example : radiance 2 (wallLamp .simple) = some ⟨2, 2, 2⟩ := by decide +kernel

/-- C38 fails for the wireframe shader: after a non-specular vertex it does not clear the flag, so the lamp is
counted through the light sample and again when the path runs into it. -/
theorem wireframe_emission_twice_refuted :
    radiance 2 (wallLamp .wireframe) = some ⟨10, 10, 10⟩ ∧ looksAt (wallLamp .wireframe) 1 = true ∧
      samplesLights (wallLamp .wireframe) 0 = true := by decide +kernel

/-- Behind a null material the lamp is not counted at all: the wall samples no lights, and the flag is cleared for
the vertex after it. -/
theorem null_material_loses_light_refuted :
    radiance 3 nullWallLamp = some ⟨0, 0, 0⟩ ∧ samplesLights nullWallLamp 1 = false ∧
      looksAt nullWallLamp 2 = false := by decide +kernel

/-- The hypotheses of the theorems above are met by the wall and the lamp. -/
example : (∀ j, Plain (wallLamp .simple j)) ∧ (∀ j, ∃ q s, wallLamp .simple j = .surface q s) ∧
    (∀ j, NonNegAnswer (wallLamp .simple j)) ∧ IsQuot (fun a b : ℚ => a / b) := by
  refine ⟨?_, ?_, ?_, fun a b _ => rfl⟩
  · intro j q s h
    unfold wallLamp vertex at h
    split_ifs at h <;> (cases h; exact ⟨rfl, by simp⟩)
  · intro j
    unfold wallLamp vertex
    split_ifs <;> exact ⟨_, _, rfl⟩
  · intro j
    unfold wallLamp vertex
    split_ifs <;>
      · refine ⟨by simp [NonNeg], ?_, ?_⟩
        · simp [NonNeg, white]
        · intro a p h
          cases h
          simp [NonNeg]

example : Idle fun _ => false := fun _ _ => rfl

/-! ## Random termination -/

/-- Weight of a vertex: albedo times cosine over density. -/
def weight (ans : ℕ → Answer K) (k : ℕ) : V3 K :=
  match ans k with
  | .escape .. => white
  | .surface _ s =>
    ⟨(albedo s).x * cosine s / densityBefore ans (k + 1), (albedo s).y * cosine s / densityBefore ans (k + 1),
      (albedo s).z * cosine s / densityBefore ans (k + 1)⟩

/-- C71. Random termination keeps the expectation: the throughput of a vertex that is reached times the
probability of surviving up to it (the product of the probabilities of going on) is the product of the weights of
the vertices before it, as if paths were never ended at random. -/
theorem roulette_keeps_expectation (quot : K → K → K) (hq : IsQuot quot) (ans : ℕ → Answer K)
    (h : ∀ k, NonNegAnswer (ans k)) (k : ℕ) (hk : Reached quot ans k) :
    (throughput quot ans k).x * ∏ j ∈ Finset.range k, goOn quot ans j = ∏ j ∈ Finset.range k, (weight ans j).x ∧
    (throughput quot ans k).y * ∏ j ∈ Finset.range k, goOn quot ans j = ∏ j ∈ Finset.range k, (weight ans j).y ∧
    (throughput quot ans k).z * ∏ j ∈ Finset.range k, goOn quot ans j = ∏ j ∈ Finset.range k, (weight ans j).z := by
  induction k with
  | zero => simp [throughput, white]
  | succ k ih =>
    have hk' : Reached quot ans k := ⟨fun j hj => hk.1 j (by omega), fun j hj => hk.2 j (by omega)⟩
    obtain ⟨i1, i2, i3⟩ := ih hk'
    obtain ⟨q, s, ha, _, hd⟩ := hk.1 k (by omega)
    have hg : goOn quot ans k ≠ 0 :=
      (goOn_pos (throughput_nonneg hq h k hk'.1 fun j hj => (not_negligible_iff _).1 (hk'.2 j hj.le)) ((not_negligible_iff _).1 (hk'.2 k le_rfl))).ne'
    have hm : densityBefore ans (k + 1) * goOn quot ans k ≠ 0 := mul_ne_zero hd hg
    have hm' : densityBefore ans (k + 1) * min (throughput quot ans k).maxValue 1 ≠ 0 := hm
    rw [Finset.prod_range_succ, Finset.prod_range_succ, Finset.prod_range_succ, Finset.prod_range_succ, ← i1, ← i2,
      ← i3]
    simp only [throughput, ha, weight, divBy, V3.mul_x, V3.mul_y, V3.mul_z, V3.smul_x, V3.smul_y, V3.smul_z,
      hq _ _ hm']
    have hg2 : min (throughput quot ans k).maxValue 1 = goOn quot ans k := rfl
    rw [hg2]
    refine ⟨?_, ?_, ?_⟩ <;> field_simp

/-- The lamp behind the wall is reached. -/
example : Reached (fun a b : ℚ => a / b) (wallLamp .simple) 1 := by
  refine ⟨fun j hj => ?_, fun j hj => ?_⟩
  · obtain rfl : j = 0 := by omega
    exact ⟨1, _, rfl, by decide +kernel, by decide +kernel⟩
  · rcases Nat.lt_or_eq_of_le hj with hj | rfl
    · obtain rfl : j = 0 := by omega
      decide +kernel
    · decide +kernel

end Feign.Integrators
