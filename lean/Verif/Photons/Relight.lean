import Verif.Integrators.LinearSpec
import Verif.Photons.ScatterProps
import Verif.Photons.View

/-!
# C123 for photon mapping

The photons of a scene under three lightings. The survival probability of a photon is computed from the quotient of its
power after and before the bounce, so it does not depend on the light as long as no channel is zero.
-/

set_option linter.unusedSectionVars false
set_option linter.unusedVariables false
set_option linter.unusedSimpArgs false

namespace Feign.Photons

open Integrators

variable {K : Type} [Field K] [LinearOrder K] [IsStrictOrderedRing K]

/-- Three powers without zero channel, the third being `s` times the first plus the second. -/
inductive MixPower (s : V3 K) : V3 (Flt K) → V3 (Flt K) → V3 (Flt K) → Prop
  | mk (a b c : V3 K) (ha : 0 < a.x ∧ 0 < a.y ∧ 0 < a.z) (hb : 0 < b.x ∧ 0 < b.y ∧ 0 < b.z)
      (hc : 0 < c.x ∧ 0 < c.y ∧ 0 < c.z) (h : Mix s a b c) :
      MixPower s ⟨some a.x, some a.y, some a.z⟩ ⟨some b.x, some b.y, some b.z⟩ ⟨some c.x, some c.y, some c.z⟩

/-- Photons in the same place with mixed powers. -/
structure MixStored (s : V3 K) (a b c : Stored K) : Prop where
  pos : a.pos = c.pos ∧ b.pos = c.pos
  dir : a.dir = c.dir ∧ b.dir = c.dir
  power : MixPower s a.power b.power c.power

/-- Paths that differ in the power they start with. -/
structure MixPath (s : V3 K) (a b c : Path K) : Prop where
  power : MixPower s a.power b.power c.power
  bounce : a.bounce = c.bounce ∧ b.bounce = c.bounce

/-- Either nothing yet in all three cases, or outcomes of the same kind. -/
inductive Each3Run {α : Type} (P : α → α → α → Prop) : Option (Res α) → Option (Res α) → Option (Res α) → Prop
  | running : Each3Run P none none none
  | done {a b c : Res α} (h : Each3Res P a b c) : Each3Run P (some a) (some b) (some c)

private theorem nextPower_factors (sp : Bool) (al : V3 K) (cos pdf : K) (h1 : 0 < al.x) (h2 : 0 < al.y) (h3 : 0 < al.z)
    (hc : 0 < cos) (hpdf : 0 < pdf) :
    ∃ (f : V3 K) (r : K), 0 < f.x ∧ 0 < f.y ∧ 0 < f.z ∧ 0 < r ∧ ∀ p : V3 K, 0 < p.x → 0 < p.y → 0 < p.z →
      nextPower ⟨some p.x, some p.y, some p.z⟩ sp al cos pdf = (⟨some (p.x * f.x), some (p.y * f.y), some (p.z * f.z)⟩, some r) := by
  have hct : 0 < cosTerm sp cos := by unfold cosTerm; split_ifs <;> simp_all
  have f1 : 0 < al.x * cosTerm sp cos / pdf := by positivity
  have f2 : 0 < al.y * cosTerm sp cos / pdf := by positivity
  have f3 : 0 < al.z * cosTerm sp cos / pdf := by positivity
  unfold nextPower
  dsimp only
  generalize al.x * cosTerm sp cos / pdf = a at *
  generalize al.y * cosTerm sp cos / pdf = b at *
  generalize al.z * cosTerm sp cos / pdf = c at *
  have hm : ∃ m, maxValueF (⟨some a, some b, some c⟩ : V3 (Flt K)) = some m ∧ 0 < m := by
    unfold maxValueF
    simp only [Flt.gt]
    by_cases h1 : b > a <;> simp only [h1, decide_true, decide_false, if_true, if_false, Bool.false_eq_true]
    · by_cases h2 : c > b <;> simp only [h2, decide_true, decide_false, if_true, if_false, Bool.false_eq_true]
      exacts [⟨c, rfl, f3⟩, ⟨b, rfl, f2⟩]
    · by_cases h2 : c > a <;> simp only [h2, decide_true, decide_false, if_true, if_false, Bool.false_eq_true]
      exacts [⟨c, rfl, f3⟩, ⟨a, rfl, f1⟩]
  obtain ⟨m, hm, hm0⟩ := hm
  obtain ⟨r, hr, hr0⟩ : ∃ r, minOne (some m : Flt K) = some r ∧ 0 < r := by
    unfold minOne
    split_ifs
    · exact ⟨1, rfl, one_pos⟩
    · exact ⟨m, rfl, hm0⟩
  refine ⟨⟨a, b, c⟩, r, f1, f2, f3, hr0, fun p hx hy hz => ?_⟩
  simp only [scalePower, Flt.mulNum, Option.map_some, divPower, Flt.div, hx.ne', hy.ne', hz.ne', if_false]
  rw [mul_div_cancel_left₀ _ hx.ne', mul_div_cancel_left₀ _ hy.ne', mul_div_cancel_left₀ _ hz.ne', hm, hr]

private theorem nextPower_mix {s : V3 K} {pa pb pc : V3 (Flt K)} (hp : MixPower s pa pb pc) (sp : Bool) (al : V3 K)
    (cos pdf : K) (h1 : 0 < al.x) (h2 : 0 < al.y) (h3 : 0 < al.z) (hc : 0 < cos) (hpdf : 0 < pdf) :
    ∃ r : Flt K, (nextPower pa sp al cos pdf).2 = r ∧ (nextPower pb sp al cos pdf).2 = r ∧
      (nextPower pc sp al cos pdf).2 = r ∧ MixPower s (divPowerS (nextPower pa sp al cos pdf).1 r)
        (divPowerS (nextPower pb sp al cos pdf).1 r) (divPowerS (nextPower pc sp al cos pdf).1 r) := by
  obtain ⟨f, r, f1, f2, f3, hr, h⟩ := nextPower_factors sp al cos pdf h1 h2 h3 hc hpdf
  cases hp with
  | mk a b c ha hb hc hm =>
    rw [h a ha.1 ha.2.1 ha.2.2, h b hb.1 hb.2.1 hb.2.2, h c hc.1 hc.2.1 hc.2.2]
    refine ⟨some r, rfl, rfl, rfl, ?_⟩
    simp only [divPowerS, Flt.div, hr.ne', if_false]
    have P : ∀ v : V3 K, 0 < v.x ∧ 0 < v.y ∧ 0 < v.z →
        0 < v.x * f.x / r ∧ 0 < v.y * f.y / r ∧ 0 < v.z * f.z / r :=
      fun v ⟨hx, hy, hz⟩ => ⟨by positivity, by positivity, by positivity⟩
    refine MixPower.mk ⟨a.x * f.x / r, a.y * f.y / r, a.z * f.z / r⟩ ⟨b.x * f.x / r, b.y * f.y / r, b.z * f.z / r⟩
      ⟨c.x * f.x / r, c.y * f.y / r, c.z * f.z / r⟩ (P a ha) (P b hb) (P c hc) ?_
    have hx := congrArg V3.x hm
    have hy := congrArg V3.y hm
    have hz := congrArg V3.z hm
    unfold Mix
    simp only [V3.add_x, V3.add_y, V3.add_z, V3.mul_x, V3.mul_y, V3.mul_z] at hx hy hz
    ext
    · simp only [V3.add_x, V3.mul_x, hx]; ring
    · simp only [V3.add_y, V3.mul_y, hy]; ring
    · simp only [V3.add_z, V3.mul_z, hz]; ring

private theorem each3_append {α : Type} {P : α → α → α → Prop} {a b c : List α} {x y z : α} (h : Each3 P a b c) (hx : P x y z) :
    Each3 P (a ++ [x]) (b ++ [y]) (c ++ [z]) := by
  induction h with
  | nil => exact .cons hx .nil
  | cons h0 _ ih => exact .cons h0 ih

private theorem each3_length {α : Type} {P : α → α → α → Prop} {a b c : List α} (h : Each3 P a b c) :
    a.length = c.length ∧ b.length = c.length := by
  induction h with
  | nil => exact ⟨rfl, rfl⟩
  | cons h0 _ ih => simp [ih.1, ih.2]

private theorem trace_mix {s : V3 K} (cap : ℕ) (bs : ℕ → Bounce K)
    (hb : ∀ i pos dir sp al cos pdf u, bs i = .hit pos dir sp al cos pdf u →
      0 < al.x ∧ 0 < al.y ∧ 0 < al.z ∧ 0 < cos ∧ 0 < pdf) (n i : ℕ) (pa pb pc : V3 (Flt K)) (hp : MixPower s pa pb pc)
    (a b c : List (Stored K)) (h : Each3 (MixStored s) a b c) :
    Each3Res (Each3 (MixStored s)) (trace cap bs n i pa a) (trace cap bs n i pb b) (trace cap bs n i pc c) := by
  induction n generalizing i pa pb pc a b c with
  | zero => exact .ok h
  | succ n ih =>
    unfold trace
    cases hbi : bs i with
    | miss => exact .ok h
    | hit pos dir sp al cos pdf u =>
      obtain ⟨h1, h2, h3, h4, h5⟩ := hb i _ _ _ _ _ _ _ hbi
      obtain ⟨r, ra, rb, rc, hn⟩ := nextPower_mix hp sp al cos pdf h1 h2 h3 h4 h5
      simp only [ra, rb, rc, if_neg h5.ne']
      have rest : ∀ x y z : List (Stored K), Each3 (MixStored s) x y z → Each3Res (Each3 (MixStored s))
          (if Flt.gt (some u) r = true then pure x
            else trace cap bs n (i + 1) (divPowerS (nextPower pa sp al cos pdf).1 r) x)
          (if Flt.gt (some u) r = true then pure y
            else trace cap bs n (i + 1) (divPowerS (nextPower pb sp al cos pdf).1 r) y)
          (if Flt.gt (some u) r = true then pure z
            else trace cap bs n (i + 1) (divPowerS (nextPower pc sp al cos pdf).1 r) z) := by
        intro x y z hxyz
        by_cases hg : Flt.gt (some u) r = true
        · rw [if_pos hg, if_pos hg, if_pos hg]; exact .ok hxyz
        · rw [if_neg hg, if_neg hg, if_neg hg]; exact ih _ _ _ _ hn _ _ _ hxyz
      cases sp with
      | true => exact rest _ _ _ h
      | false =>
        have hl := each3_length h
        simp only [Bool.false_eq_true, if_false, store, hl.1, hl.2]
        by_cases hc : c.length < cap
        · rw [if_pos hc, if_pos hc, if_pos hc]
          exact rest _ _ _ (each3_append h ⟨⟨rfl, rfl⟩, ⟨rfl, rfl⟩, hp⟩)
        · rw [if_neg hc, if_neg hc, if_neg hc]; exact .ub _

private theorem scatter_mix {s : V3 K} (cap num maxBounces : ℕ) (A B C : ℕ → Path K) (hm : ∀ j, MixPath s (A j) (B j) (C j))
    (hb : ∀ j i pos dir sp al cos pdf u, (C j).bounce i = .hit pos dir sp al cos pdf u →
      0 < al.x ∧ 0 < al.y ∧ 0 < al.z ∧ 0 < cos ∧ 0 < pdf) (fuel j : ℕ) (a b c : List (Stored K))
    (h : Each3 (MixStored s) a b c) (h0 : num = 0 → c = []) :
    Each3Run (fun x y z => Each3 (MixStored s) x y z ∧ (num = 0 → z = [])) (scatter cap num maxBounces A fuel j a)
      (scatter cap num maxBounces B fuel j b) (scatter cap num maxBounces C fuel j c) := by
  induction fuel generalizing j a b c with
  | zero =>
    unfold scatter
    rw [(each3_length h).1, (each3_length h).2]
    by_cases hl : c.length < num
    · rw [if_pos hl, if_pos hl, if_pos hl]; exact .running
    · rw [if_neg hl, if_neg hl, if_neg hl]; exact .done (.ok ⟨h, h0⟩)
  | succ n ih =>
    unfold scatter
    rw [(each3_length h).1, (each3_length h).2]
    by_cases hl : c.length < num
    · rw [if_pos hl, if_pos hl, if_pos hl, (hm j).bounce.1, (hm j).bounce.2]
      have ht := trace_mix cap (C j).bounce (hb j) maxBounces 0 _ _ _ (hm j).power a b c h
      revert ht
      generalize trace cap (C j).bounce maxBounces 0 (A j).power a = x
      generalize trace cap (C j).bounce maxBounces 0 (B j).power b = y
      generalize trace cap (C j).bounce maxBounces 0 (C j).power c = z
      intro ht
      cases ht with
      | ok hv => exact ih _ _ _ _ hv (fun e => by omega)
      | throw e => exact .done (.throw e)
      | ub e => exact .done (.ub e)
    · rw [if_neg hl, if_neg hl, if_neg hl]; exact .done (.ok ⟨h, h0⟩)

/-- **C123, photon mapping.** Partial (no channel of a light or surface is black; refuted below without that): with the
same random numbers the photons lie in the same places, and the power of each is `s` times its power under the first
lighting plus its power under the second. If the array is overrun under one lighting it is under all. -/
theorem photon_superposition_partial (s : V3 K) (num maxBounces : ℕ) (A B C : ℕ → Path K)
    (hm : ∀ j, MixPath s (A j) (B j) (C j))
    (hb : ∀ j i pos dir sp al cos pdf u, (C j).bounce i = .hit pos dir sp al cos pdf u →
      0 < al.x ∧ 0 < al.y ∧ 0 < al.z ∧ 0 < cos ∧ 0 < pdf) (fuel : ℕ) :
    Each3Run (Each3 (MixStored s)) (scatterPhotons num maxBounces A fuel) (scatterPhotons num maxBounces B fuel)
      (scatterPhotons num maxBounces C fuel) := by
  unfold scatterPhotons
  have ht := scatter_mix num num maxBounces A B C hm hb fuel 0 [] [] [] .nil (fun _ => rfl)
  revert ht
  generalize scatter num num maxBounces A fuel 0 [] = x
  generalize scatter num num maxBounces B fuel 0 [] = y
  generalize scatter num num maxBounces C fuel 0 [] = z
  intro ht
  cases ht with
  | running => exact .running
  | done hv =>
    refine .done ?_
    cases hv with
    | throw e => exact .throw e
    | ub e => exact .ub e
    | ok hv =>
      obtain ⟨hv, h0⟩ := hv
      refine .ok ?_
      unfold finish
      by_cases hn : num = 0
      · rw [h0 hn] at hv ⊢
        cases hv
        exact .nil
      · have hn' : (0 : K) < (num : K) := by exact_mod_cast Nat.pos_of_ne_zero hn
        clear h0
        induction hv with
        | nil => exact .nil
        | cons h1 _ ih =>
          refine .cons ⟨h1.pos, h1.dir, ?_⟩ ih
          have h2 := h1.power
          simp only
          revert h2
          generalize Stored.power _ = pa
          generalize Stored.power _ = pb
          generalize Stored.power _ = pc
          intro h2
          cases h2 with
          | mk a b c ha hb hc hm =>
            simp only [divPowerS, Flt.div, hn'.ne', if_false]
            have P : ∀ v : V3 K, 0 < v.x ∧ 0 < v.y ∧ 0 < v.z → 0 < v.x / num ∧ 0 < v.y / num ∧ 0 < v.z / num :=
              fun v ⟨hx, hy, hz⟩ => ⟨by positivity, by positivity, by positivity⟩
            refine MixPower.mk ⟨a.x / num, a.y / num, a.z / num⟩ ⟨b.x / num, b.y / num, b.z / num⟩
              ⟨c.x / num, c.y / num, c.z / num⟩ (P a ha) (P b hb) (P c hc) ?_
            have hx := congrArg V3.x hm
            have hy := congrArg V3.y hm
            have hz := congrArg V3.z hm
            unfold Mix
            simp only [V3.add_x, V3.add_y, V3.add_z, V3.mul_x, V3.mul_y, V3.mul_z] at hx hy hz
            ext
            · simp only [V3.add_x, V3.mul_x, hx]; ring
            · simp only [V3.add_y, V3.mul_y, hy]; ring
            · simp only [V3.add_z, V3.mul_z, hz]; ring

/-- Two photons of paths that end at the first surface, under a light, another and three times the first plus the other. -/
private def once (p : V3 ℚ) : ℕ → Path ℚ := fun _ => ⟨⟨some p.x, some p.y, some p.z⟩, fun i =>
  if i = 0 then .hit ⟨1, 2, 3⟩ ⟨0, 0, 1⟩ false ⟨1/2, 1/4, 1⟩ (1/2) (1/3) (1/5) else .miss⟩

example : (∀ j, MixPath (⟨3, 3, 3⟩ : V3 ℚ) (once ⟨1, 2, 4⟩ j) (once ⟨1, 1, 1⟩ j) (once ⟨4, 7, 13⟩ j)) ∧
    (∀ j i pos dir sp al cos pdf u, (once ⟨4, 7, 13⟩ j).bounce i = .hit pos dir sp al cos pdf u →
      0 < al.x ∧ 0 < al.y ∧ 0 < al.z ∧ 0 < cos ∧ 0 < pdf) ∧
    scatterPhotons 2 4 (once ⟨4, 7, 13⟩) 2 = some (.ok (List.replicate 2 ⟨⟨1, 2, 3⟩, ⟨0, 0, 1⟩, ⟨some 2, some (7/2), some (13/2)⟩⟩)) ∧
    scatterPhotons 2 4 (once ⟨1, 2, 4⟩) 2 = some (.ok (List.replicate 2 ⟨⟨1, 2, 3⟩, ⟨0, 0, 1⟩, ⟨some (1/2), some 1, some 2⟩⟩)) := by
  refine ⟨fun j => ⟨?_, ⟨rfl, rfl⟩⟩, ?_, by decide +kernel, by decide +kernel⟩
  · refine MixPower.mk ⟨1, 2, 4⟩ ⟨1, 1, 1⟩ ⟨4, 7, 13⟩ (by norm_num) (by norm_num) (by norm_num) ?_
    unfold Mix; ext <;> norm_num
  · intro j i pos dir sp al cos pdf u h
    simp only [once] at h
    split_ifs at h
    cases h
    norm_num

/-! ## Gathering -/

/-- Photons as the gathering sees them. -/
structure MixPhoton (s : V3 K) (a b c : Photon K) : Prop where
  pos : a.pos = c.pos ∧ b.pos = c.pos
  dir : a.dir = c.dir ∧ b.dir = c.dir
  power : Mix s a.power b.power c.power

private theorem add_mix {s a b c x y z f : V3 K} {t : K} (h : Mix s a b c) (hp : Mix s x y z) :
    Mix s (a + f * x.smul t) (b + f * y.smul t) (c + f * z.smul t) := by
  have hx := congrArg V3.x h
  have hy := congrArg V3.y h
  have hz := congrArg V3.z h
  have px := congrArg V3.x hp
  have py := congrArg V3.y hp
  have pz := congrArg V3.z hp
  simp only [V3.add_x, V3.add_y, V3.add_z, V3.mul_x, V3.mul_y, V3.mul_z] at hx hy hz px py pz
  unfold Mix
  ext
  · simp only [V3.add_x, V3.mul_x, V3.smul_x, hx, px]; ring
  · simp only [V3.add_y, V3.mul_y, V3.smul_y, hy, py]; ring
  · simp only [V3.add_z, V3.mul_z, V3.smul_z, hz, pz]; ring

private theorem zero_mix (s : V3 K) : Mix s 0 0 0 := by unfold Mix; ext <;> simp

private theorem gather_mix {s : V3 K} (resp : V3 K → V3 K) (a thr : K) (pt : V3 K) {as bs cs : List (Photon K)}
    (h : Each3 (MixPhoton s) as bs cs) : ∀ {x y z : V3 K}, Mix s x y z →
      Mix s (gather resp a thr pt as x) (gather resp a thr pt bs y) (gather resp a thr pt cs z) := by
  induction h with
  | nil => intro x y z hm; exact hm
  | cons h0 _ ih =>
    intro x y z hm
    simp only [gather]
    apply ih
    rename_i p q r _ _ _ _
    have e1 : sqDist pt p = sqDist pt r := by unfold sqDist; rw [h0.pos.1]
    have e2 : sqDist pt q = sqDist pt r := by unfold sqDist; rw [h0.pos.2]
    rw [e1, e2, h0.dir.1, h0.dir.2]
    by_cases hn : sqDist pt r < thr
    · rw [if_pos hn, if_pos hn, if_pos hn]; exact add_mix hm h0.power
    · rw [if_neg hn, if_neg hn, if_neg hn]; exact hm

/-- **C123, photon mapping, the picture.** For photons in the same places with mixed powers, what a camera ray sees is
mixed: the photons near the point it meets are the same ones. -/
theorem view_superposition (s : V3 K) (recip : K → K) (pi : K) (as bs cs : List (Photon K))
    (h : Each3 (MixPhoton s) as bs cs) (o : Option (Surface K)) :
    view recip pi cs o = s * view recip pi as o + view recip pi bs o := by
  cases o with
  | none => exact zero_mix s
  | some sf =>
    have := gather_mix (s := s) sf.resp (recip (pi * (1 / 100))) (1 / 100) sf.pos h (zero_mix s)
    have hx := congrArg V3.x this
    have hy := congrArg V3.y this
    have hz := congrArg V3.z this
    simp only [V3.add_x, V3.add_y, V3.add_z, V3.mul_x, V3.mul_y, V3.mul_z] at hx hy hz
    unfold view evalRadius Gathered.new
    ext
    · simp only [V3.add_x, V3.mul_x, hx, V3.zero_x]; ring
    · simp only [V3.add_y, V3.mul_y, hy, V3.zero_y]; ring
    · simp only [V3.add_z, V3.mul_z, hz, V3.zero_z]; ring

private theorem gatherK_mix {s : V3 K} (resp : V3 K → V3 K) {as bs cs : List (Photon K)}
    (h : Each3 (MixPhoton s) as bs cs) (far a : K) (l : List (K × ℕ)) : ∀ {x y z : V3 K}, Mix s x y z →
      Each3Res (Mix s) (gatherK resp as far a l x) (gatherK resp bs far a l y) (gatherK resp cs far a l z) := by
  have hget : ∀ n : ℕ, (as[n]? = none ∧ bs[n]? = none ∧ cs[n]? = none) ∨
      ∃ p q r, as[n]? = some p ∧ bs[n]? = some q ∧ cs[n]? = some r ∧ MixPhoton s p q r := by
    clear l
    induction h with
    | nil => intro n; left; simp
    | cons h0 _ ih =>
      intro n
      cases n with
      | zero => right; exact ⟨_, _, _, rfl, rfl, rfl, h0⟩
      | succ n => simpa using ih n
  induction l with
  | nil => intro x y z hm; exact .ok hm
  | cons v l ih =>
    intro x y z hm
    simp only [gatherK]
    split_ifs
    · exact .throw _
    · rcases hget v.2 with ⟨e1, e2, e3⟩ | ⟨p, q, r, e1, e2, e3, hp⟩
      · rw [e1, e2, e3]; exact .ub _
      · rw [e1, e2, e3]
        simp only [hp.dir.1, hp.dir.2]
        exact ih (add_mix hm hp.power)

/-- **C123, the nearest photons.** The same for gathering a number of photons instead of those in a radius. -/
theorem nearest_superposition (s : V3 K) (recip : K → K) (pi : K) (resp : V3 K → V3 K) (as bs cs : List (Photon K))
    (h : Each3 (MixPhoton s) as bs cs) (pt : V3 K) (k : ℤ) :
    Each3Res (Mix s) (evalK recip pi resp as pt k 0) (evalK recip pi resp bs pt k 0) (evalK recip pi resp cs pt k 0) := by
  have hk : closestK as pt k = closestK cs pt k ∧ closestK bs pt k = closestK cs pt k := by
    unfold closestK
    have : ∀ n, (as.zipIdx n).map (fun p => (sqDist pt p.1, p.2)) = (cs.zipIdx n).map (fun p => (sqDist pt p.1, p.2)) ∧
        (bs.zipIdx n).map (fun p => (sqDist pt p.1, p.2)) = (cs.zipIdx n).map (fun p => (sqDist pt p.1, p.2)) := by
      induction h with
      | nil => intro n; exact ⟨rfl, rfl⟩
      | cons h0 _ ih =>
        intro n
        simp only [List.zipIdx_cons, List.map_cons, sqDist, h0.pos.1, h0.pos.2]
        exact ⟨congrArg _ (ih (n + 1)).1, congrArg _ (ih (n + 1)).2⟩
    rw [(this 0).1, (this 0).2]
    exact ⟨rfl, rfl⟩
  unfold evalK
  rw [hk.1, hk.2]
  simp only
  cases pairAt (closestK cs pt k) (k - 1) with
  | ok far => exact gatherK_mix resp h _ _ _ (zero_mix s)
  | throw e => exact .throw e
  | ub e => exact .ub e

example : Each3 (MixPhoton (⟨2, 2, 2⟩ : V3 ℚ)) [⟨0, 0, ⟨1, 0, 0⟩⟩] [⟨0, 0, ⟨0, 3, 0⟩⟩] [⟨0, 0, ⟨2, 3, 0⟩⟩] := by
  refine .cons ⟨⟨rfl, rfl⟩, ⟨rfl, rfl⟩, ?_⟩ .nil
  unfold Mix; ext <;> norm_num

/-- A light that loses its red: the photons do not just lose theirs. From the second surface on all three channels are
not-a-number, where with the red they were numbers. -/
theorem photon_tint_refuted :
    ∃ (A C : ℕ → Path ℚ) (a c : List (Stored ℚ)),
      (∀ j, (A j).power = ⟨some 1, some 1, some 1⟩) ∧ (∀ j, (C j).power = ⟨some (0 * 1), some 1, some 1⟩) ∧
      (∀ j, (A j).bounce = (C j).bounce) ∧
      scatterPhotons 2 2 A 1 = some (.ok a) ∧ scatterPhotons 2 2 C 1 = some (.ok c) ∧
      (∀ p ∈ a, Finite p.power) ∧ ∃ p ∈ c, p.power = ⟨none, none, none⟩ := by
  refine ⟨fun _ => ⟨⟨some 1, some 1, some 1⟩, fun _ => .hit 0 0 false ⟨1, 1, 1⟩ 1 1 0⟩,
    fun _ => ⟨⟨some (0 * 1), some 1, some 1⟩, fun _ => .hit 0 0 false ⟨1, 1, 1⟩ 1 1 0⟩,
    [⟨0, 0, ⟨some (1/2), some (1/2), some (1/2)⟩⟩, ⟨0, 0, ⟨some (1/2), some (1/2), some (1/2)⟩⟩],
    [⟨0, 0, ⟨some 0, some (1/2), some (1/2)⟩⟩, ⟨0, 0, ⟨none, none, none⟩⟩], fun _ => rfl, fun _ => rfl, fun _ => rfl,
    by decide +kernel, by decide +kernel, ?_, ⟨0, 0, ⟨none, none, none⟩⟩, by simp, rfl⟩
  simp [Finite]

end Feign.Photons
