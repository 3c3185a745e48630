import Verif.Lights.NeeLemmas
import Mathlib.Algebra.BigOperators.Group.List.Basic

/-!
# C84: direct light at a point

The direct light added at a point should be the sum over all lights of what each contributes when it is visible, on
average if one light is picked at random, never negative, and defined for every kind of light.
-/

set_option linter.unusedSectionVars false
set_option linter.unusedSimpArgs false
set_option linter.unusedVariables false

namespace Feign.Lights

open Feign.Sampling MeasureTheory Set

/-- What an outcome adds to the picture for a material. -/
def LightEval.light (bsdf : V3 ℝ → V3 ℝ) : LightEval → V3 ℝ
  | .seen d t => t * bsdf d
  | _ => 0

private theorem v3_zero_add (a : V3 ℝ) : 0 + a = a := by
  ext <;> show (0 : ℝ) + _ = _ <;> exact zero_add _

private theorem v3_add_zero (a : V3 ℝ) : a + 0 = a := by
  ext <;> show _ + (0 : ℝ) = _ <;> exact add_zero _

private theorem v3_add_assoc (a b c : V3 ℝ) : a + b + c = a + (b + c) := by
  ext <;> show _ + _ + _ = _ + (_ + _) <;> exact add_assoc _ _ _

private theorem accumulate_from (bsdf : V3 ℝ → V3 ℝ) : ∀ (es : List LightEval) (acc : V3 ℝ),
    (es.map toEntry).foldl (fun acc e => if e.valid then acc + e.throughput * bsdf e.dir else acc) acc =
      (es.map (LightEval.light bsdf)).foldl (· + ·) acc
  | [], acc => rfl
  | e :: es, acc => by
    simp only [List.map_cons, List.foldl_cons]
    rw [accumulate_from bsdf es]
    congr 1
    cases e <;> simp [toEntry, LightEval.light, v3_add_zero]

/-- The sum over the lights, component by component. -/
private theorem foldl_x (l : List (V3 ℝ)) : ∀ acc : V3 ℝ, (l.foldl (· + ·) acc).x = acc.x + (l.map V3.x).sum := by
  induction l with
  | nil => intro acc; simp
  | cons a l ih =>
    intro acc
    simp only [List.foldl_cons, List.map_cons, List.sum_cons]
    rw [ih, V3.add_x]; ring

private theorem foldl_y (l : List (V3 ℝ)) : ∀ acc : V3 ℝ, (l.foldl (· + ·) acc).y = acc.y + (l.map V3.y).sum := by
  induction l with
  | nil => intro acc; simp
  | cons a l ih =>
    intro acc
    simp only [List.foldl_cons, List.map_cons, List.sum_cons]
    rw [ih, V3.add_y]; ring

private theorem foldl_z (l : List (V3 ℝ)) : ∀ acc : V3 ℝ, (l.foldl (· + ·) acc).z = acc.z + (l.map V3.z).sum := by
  induction l with
  | nil => intro acc; simp
  | cons a l ih =>
    intro acc
    simp only [List.foldl_cons, List.map_cons, List.sum_cons]
    rw [ih, V3.add_z]; ring

private theorem evalAll_zip (w : World) (sp : Spot) (inMedia : Bool) : ∀ (ls : List Light) (us : List (V2 ℝ))
    (es : List LightEval), ls.length = us.length → evalAll w sp inMedia ls us = .ok es →
    List.Forall₂ (fun lu e => lightEval w sp sp.gn inMedia 1 lu.1 lu.2 = .ok e) (ls.zip us) es
  | [], us, es, hl, h => by
    simp only [evalAll, Res.ok.injEq] at h
    subst h; simp
  | l :: ls, [], es, hl, h => by simp at hl
  | l :: ls, u :: us, es, hl, h => by
    simp only [evalAll] at h
    obtain ⟨e, he, h⟩ := Res.bind_eq_ok.mp h
    obtain ⟨es', hes, h⟩ := Res.bind_eq_ok.mp h
    simp only [Res.pure_eq, Res.ok.injEq] at h
    subst h
    rw [List.zip_cons_cons]
    exact List.Forall₂.cons he (evalAll_zip w sp inMedia ls us es' (by simpa using hl) hes)

/-- **All lights.** With one pair of random numbers per light, there is one outcome per light, in order, and the light
added is the sum of what the outcomes give, in every component. -/
theorem all_lights (w : World) (sp : Spot) (inMedia : Bool) (bsdf : V3 ℝ → V3 ℝ) (ls : List Light) (us : List (V2 ℝ))
    (es : List LightEval) (hl : ls.length = us.length) (h : evalAll w sp inMedia ls us = .ok es) :
    List.Forall₂ (fun lu e => lightEval w sp sp.gn inMedia 1 lu.1 lu.2 = .ok e) (ls.zip us) es ∧
      (accumulate bsdf (es.map toEntry)).x = (es.map fun e => (e.light bsdf).x).sum ∧
      (accumulate bsdf (es.map toEntry)).y = (es.map fun e => (e.light bsdf).y).sum ∧
      (accumulate bsdf (es.map toEntry)).z = (es.map fun e => (e.light bsdf).z).sum := by
  refine ⟨evalAll_zip w sp inMedia ls us es hl h, ?_, ?_, ?_⟩ <;>
    unfold accumulate <;> rw [accumulate_from]
  · rw [foldl_x, List.map_map]; exact zero_add _
  · rw [foldl_y, List.map_map]; exact zero_add _
  · rw [foldl_z, List.map_map]; exact zero_add _

/-! ## One light chosen at random -/

/-- The component `k` of what `eval_one_emitter` adds for the choice number `c` (0 if it has no defined outcome). -/
noncomputable def oneLight (w : World) (sp : Spot) (inMedia : Bool) (bsdf : V3 ℝ → V3 ℝ) (ls : List Light) (u : V2 ℝ)
    (k : V3 ℝ → ℝ) (c : ℝ) : ℝ :=
  match evalOne w sp inMedia ls c u with
  | .ok es => k (accumulate bsdf (es.map toEntry))
  | _ => 0

/-- Whether the light belongs to the surface that is being shaded. -/
def Own (sp : Spot) (l : Light) : Prop := l.meshNode = some sp.inst

instance (sp : Spot) (l : Light) : Decidable (Own sp l) := by unfold Own; infer_instance

/-- **One light.** Let every light have a defined outcome (`outs`) for the random numbers `u`. Then picking a light
with a uniform number and dividing by the choice probability is defined for every such number and gives on average the
sum over all lights, except those of the shaded surface itself, for each component `k` of the colour. -/
theorem one_light_average (w : World) (sp : Spot) (inMedia : Bool) (bsdf : V3 ℝ → V3 ℝ) (ls : List Light) (u : V2 ℝ)
    (outs : Light → LightEval) (k : V3 ℝ → ℝ) (hk : k = V3.x ∨ k = V3.y ∨ k = V3.z) (hne : ls ≠ [])
    (h : ∀ l ∈ ls, lightEval w sp sp.frame.n inMedia 1 l u = .ok (outs l)) :
    (∀ c, 0 ≤ c → c < 1 → ∃ es, evalOne w sp inMedia ls c u = .ok es) ∧
    ∫ c in (0 : ℝ)..1, oneLight w sp inMedia bsdf ls u k c =
      ((ls.filter fun l => ¬ Own sp l).map fun l => k ((outs l).light bsdf)).sum := by
  have hn : 0 < ls.length := List.length_pos_iff.mpr hne
  have hn' : (0 : ℝ) < ls.length := by exact_mod_cast hn
  have hk0 : k 0 = 0 := by rcases hk with rfl | rfl | rfl <;> rfl
  have hks : ∀ (a b : V3 ℝ) (s : ℝ), k (a.smul s * b) = s * k (a * b) := by
    intro a b s
    rcases hk with rfl | rfl | rfl
    · show a.x * s * b.x = s * (a.x * b.x); ring
    · show a.y * s * b.y = s * (a.y * b.y); ring
    · show a.z * s * b.z = s * (a.z * b.z); ring
  -- the outcome for each cell
  have hcell : ∀ i (hi : i < ls.length), ∀ c : ℝ, (i : ℝ) / ls.length ≤ c → c < ((i : ℝ) + 1) / ls.length →
      evalOne w sp inMedia ls c u = .ok (if Own sp ls[i] then [.hidden] else [(outs ls[i]).scale ls.length]) := by
    intro i hi c h0 h1
    have hc0 : 0 ≤ c := le_trans (by positivity) h0
    have hsel : (naiveSelect ls.length c).1 = i := (naiveSelect_index _ hn c hc0 i).mpr ⟨h0, h1⟩
    have hpdf : (naiveSelect ls.length c).2 = 1 / (ls.length : ℝ) := rfl
    have hlen : (ls.map fun l => (⟨l.meshNode⟩ : LightInfo)).length = ls.length := by simp
    have hget : getAt (ls.map fun l => (⟨l.meshNode⟩ : LightInfo)) (i : ℤ) = .ok ⟨ls[i].meshNode⟩ := by
      rw [getAt_nat _ _ (by simpa using hi)]; simp
    have hget' : getAt ls ((i : ℕ) : ℤ) = .ok ls[i] := getAt_nat _ _ hi
    have hev := lightEval_choice w sp sp.frame.n inMedia (1 / (ls.length : ℝ)) ls[i] u _ (h ls[i] (List.getElem_mem hi))
    rw [one_div_one_div] at hev
    unfold evalOne chooseEmitter
    rw [hlen, if_neg hn.ne']
    simp only [hsel, hget, Res.bind_ok]
    by_cases ho : Own sp ls[i]
    · rw [if_pos ho]
      have hmn : ls[i].meshNode = some sp.inst := ho
      simp only [hmn, if_true, Res.bind_ok, Res.pure_eq]
    · rw [if_neg ho]
      cases hmn : ls[i].meshNode with
      | none => simp only [Res.bind_ok, hpdf, Int.toNat_natCast, hget', hev, Res.pure_eq]
      | some inst =>
        have he : inst ≠ sp.inst := fun e => ho (by unfold Own; rw [hmn, e])
        simp only [he, if_false, Res.bind_ok, hpdf, Int.toNat_natCast, hget', hev, Res.pure_eq]
  refine ⟨?_, ?_⟩
  · intro c h0 h1
    obtain ⟨i, hi, hsel⟩ := naiveSelect_range ls.length hn c h0 h1
    obtain ⟨a, b⟩ := (naiveSelect_index _ hn c h0 i).mp hsel
    exact ⟨_, hcell i hi c a b⟩
  · rw [integral_cells ls.length hn _
      (fun i => if hi : i < ls.length then
        (if Own sp ls[i] then 0 else ls.length * k ((outs ls[i]).light bsdf)) else 0)]
    · rw [Finset.mul_sum]
      have hf : ∀ (l : List Light), ((l.filter fun l => ¬ Own sp l).map fun l => k ((outs l).light bsdf)).sum =
          (l.map fun l => if Own sp l then 0 else k ((outs l).light bsdf)).sum := by
        intro l
        induction l with
        | nil => rfl
        | cons a l ih =>
          rw [List.filter_cons]
          by_cases ho : Own sp a
          · simp only [ho, not_true_eq_false, decide_false, Bool.false_eq_true, if_false, List.map_cons, if_true,
              List.sum_cons, zero_add]
            exact ih
          · simp only [ho, not_false_eq_true, decide_true, if_true, List.map_cons, if_false, List.sum_cons]
            rw [ih]
      rw [hf, ← Fin.sum_univ_getElem, ← Fin.sum_univ_eq_sum_range
        (fun i => 1 / (ls.length : ℝ) * (if hi : i < ls.length then
        (if Own sp ls[i] then 0 else ls.length * k ((outs ls[i]).light bsdf)) else 0))]
      have hlen : (ls.map fun l => if Own sp l then 0 else k ((outs l).light bsdf)).length = ls.length := by simp
      refine Fintype.sum_equiv (finCongr hlen.symm) _ _ fun i => ?_
      have hi := i.2
      simp only [finCongr_apply, Fin.val_cast, List.getElem_map, hi, dif_pos]
      split_ifs
      · simp
      · field_simp
    · intro i hi c h0 h1
      unfold oneLight
      rw [hcell i hi c h0 h1, dif_pos hi]
      simp only
      by_cases ho : Own sp ls[i]
      · simp only [ho, if_true]
        simp only [List.map_cons, List.map_nil, toEntry, accumulate, List.foldl_cons, List.foldl_nil,
          Bool.false_eq_true, if_false]
        exact hk0
      · simp only [ho, if_false]
        unfold accumulate
        rw [accumulate_from]
        simp only [List.map_cons, List.map_nil, List.foldl_cons, List.foldl_nil, v3_zero_add]
        cases outs ls[i] with
        | nan => simp only [LightEval.scale, LightEval.light, hk0, mul_zero]
        | hidden => simp only [LightEval.scale, LightEval.light, hk0, mul_zero]
        | seen d t => simp only [LightEval.scale, LightEval.light]; exact hks _ _ _

/-! ## The two ways agree -/

/-- **Partial.** Where the two normals agree and no light belongs to the shaded surface, the average over the choice of
one light is what `eval_all_emitters` adds with the same random numbers for every light.
Missing: surfaces with interpolated normals (`modes_normal_refuted`), lights of the surface itself
(`modes_own_refuted`). -/
theorem modes_agree_partial (w : World) (sp : Spot) (inMedia : Bool) (bsdf : V3 ℝ → V3 ℝ) (ls : List Light) (u : V2 ℝ)
    (es : List LightEval) (k : V3 ℝ → ℝ) (hk : k = V3.x ∨ k = V3.y ∨ k = V3.z) (hne : ls ≠ [])
    (hn : sp.gn = sp.frame.n) (hown : ∀ l ∈ ls, ¬ Own sp l)
    (h : evalAll w sp inMedia ls (ls.map fun _ => u) = .ok es) :
    ∫ c in (0 : ℝ)..1, oneLight w sp inMedia bsdf ls u k c = k (accumulate bsdf (es.map toEntry)) := by
  classical
  obtain ⟨hf, hx, hy, hz⟩ := all_lights w sp inMedia bsdf ls _ es (by simp) h
  let outs : Light → LightEval := fun l =>
    match lightEval w sp sp.frame.n inMedia 1 l u with
    | .ok e => e
    | _ => .nan
  have hall : ∀ l ∈ ls, lightEval w sp sp.frame.n inMedia 1 l u = .ok (outs l) ∧ True := by
    intro l hl
    obtain ⟨i, hi, rfl⟩ := List.getElem_of_mem hl
    have hlen := hf.length_eq
    have hi' : i < es.length := by rw [← hlen]; simpa using hi
    have := hf.get (i := i) (by simpa using hi) hi'
    simp only [List.get_eq_getElem, List.getElem_zip, List.getElem_map, hn] at this
    refine ⟨?_, trivial⟩
    simp only [outs, this]
  have hes : es = ls.map outs := by
    apply List.ext_getElem
    · rw [← hf.length_eq]; simp
    · intro i h1 h2
      have hi : i < ls.length := by simpa using h2
      have := hf.get (i := i) (by simpa using hi) h1
      simp only [List.get_eq_getElem, List.getElem_zip, List.getElem_map, hn] at this
      rw [List.getElem_map]
      simp only [outs, this]
  rw [(one_light_average w sp inMedia bsdf ls u outs k hk hne fun l hl => (hall l hl).1).2]
  rw [List.filter_eq_self.mpr (fun l hl => by simpa using hown l hl)]
  rcases hk with rfl | rfl | rfl
  · rw [hx, hes, List.map_map]; rfl
  · rw [hy, hes, List.map_map]; rfl
  · rw [hz, hes, List.map_map]; rfl

/-! ## Single lights -/

private theorem initialCheck_self (w : World) (p : V3 ℝ) (l : Light) (s : LightSample) (h : l.needsCheck = false) :
    initialCheck w p l s = some s := by
  unfold initialCheck; rw [h]; rfl

/-- A point light on a surface: with `d` the distance and `wi` the direction, nothing if the shadow ray of length
`d - 0.001` is blocked (unless shadows are ignored), else the power over `4 pi d^2` times the cosine (as flipped by
the code) times the transmittance of that ray. -/
theorem point_direct (w : World) (sp : Spot) (normal : V3 ℝ) (I pos : V3 ℝ) (u : V2 ℝ) (hp : pos ≠ sp.p) :
    ∃ wi d, 0 < d ∧ wi.sqrNorm = 1 ∧ sp.p + wi.smul d = pos ∧
      ((w.shadow wi (d - 1 / 1000)).1 = true → w.ignoreShadows = false →
        lightEval w sp normal false 1 (.point I pos) u = .ok .hidden) ∧
      ((w.shadow wi (d - 1 / 1000)).1 = false ∨ w.ignoreShadows = true →
        lightEval w sp normal false 1 (.point I pos) u = .ok (.seen (sp.frame.toLocal wi)
          (I.smul (cosTerm (normal.dot wi) / (4 * Real.pi * d ^ 2)) * (w.shadow wi (d - 1 / 1000)).2))) := by
  obtain ⟨s, d, hs, hd, h1, h2, h3, h4, h5⟩ := point_light I pos sp.p u hp
  have hpi := Real.pi_pos
  have hval : s.value = I.smul (1 / (4 * Real.pi * d ^ 2)) := by
    rw [← h5]
    ext <;> simp only [V3.smul_x, V3.smul_y, V3.smul_z] <;> field_simp
  have hsq : Real.sqrt (d ^ 2) = d := Real.sqrt_sq hd.le
  have heps : eps = 1 / 1000 := rfl
  refine ⟨s.wi, d, hd, h1, h2, ?_, ?_⟩
  · intro hb hi
    unfold lightEval
    rw [hs]
    simp only [Res.bind_ok]
    rw [initialCheck_self _ _ _ _ rfl]
    simp only [h3, hsq, heps]
    rw [if_pos (by rw [hb, hi]; rfl)]
    rfl
  · intro hb
    unfold lightEval
    rw [hs]
    simp only [Res.bind_ok]
    rw [initialCheck_self _ _ _ _ rfl]
    simp only [h3, hsq, heps]
    rw [if_neg (by rcases hb with hb | hb <;> rw [hb] <;> simp)]
    simp only [h4, Res.pure_eq, one_ne_zero, if_false, Bool.false_eq_true]
    rw [hval]
    congr 2
    ext <;> simp only [V3.mul_x, V3.mul_y, V3.mul_z, V3.smul_x, V3.smul_y, V3.smul_z] <;> field_simp

/-- No component is negative. -/
def NonNeg (v : V3 ℝ) : Prop := 0 ≤ v.x ∧ 0 ≤ v.y ∧ 0 ≤ v.z

/-- What the samples of a light must be like: density and value not negative. -/
def GoodSample (s : LightSample) : Prop := 0 ≤ s.pdf ∧ NonNeg s.value

private theorem nonneg_smul {v : V3 ℝ} (h : NonNeg v) {c : ℝ} (hc : 0 ≤ c) : NonNeg (v.smul c) :=
  ⟨mul_nonneg h.1 hc, mul_nonneg h.2.1 hc, mul_nonneg h.2.2 hc⟩

private theorem nonneg_mul {v a : V3 ℝ} (h : NonNeg v) (ha : NonNeg a) : NonNeg (v * a) :=
  ⟨mul_nonneg h.1 ha.1, mul_nonneg h.2.1 ha.2.1, mul_nonneg h.2.2 ha.2.2⟩

private theorem nonneg_zero : NonNeg 0 := ⟨le_refl _, le_refl _, le_refl _⟩

/-- **Partial.** The throughput of a light is not negative if the light's samples and the transmittances are not, and
no sampled direction lies less than `Epsilon` below the horizon of the surface.
Missing: those directions (`negative_light_refuted`). -/
theorem light_nonneg_partial (w : World) (sp : Spot) (normal : V3 ℝ) (inMedia : Bool) (c : ℝ) (l : Light) (u : V2 ℝ)
    (d t : V3 ℝ) (hc : 0 < c) (hl : ∀ s, l.sampleNee sp.p u = .ok (some s) → GoodSample s)
    (hw : ∀ v far, NonNeg (w.shadow v far).2)
    (hh : inMedia = true ∨
      ∀ s, l.sampleNee sp.p u = .ok (some s) → 0 ≤ normal.dot s.wi ∨ normal.dot s.wi < -eps)
    (h : lightEval w sp normal inMedia c l u = .ok (.seen d t)) : NonNeg t := by
  unfold lightEval at h
  obtain ⟨s, hs, h⟩ := Res.bind_eq_ok.mp h
  match s, hs, h with
  | none, _, h => simp only [Res.pure_eq, Res.ok.injEq] at h; cases h
  | some s, hs, h =>
    simp only at h
    match hi : initialCheck w sp.p l s, h with
    | none, h => simp only [hi, Res.pure_eq, Res.ok.injEq] at h; cases h
    | some s', h =>
      simp only [hi] at h
      have hgood : GoodSample s' ∧ s'.wi = s.wi := by
        have hg := hl s hs
        unfold initialCheck at hi
        split_ifs at hi with hn
        · split at hi
          · split_ifs at hi
            · obtain rfl := Option.some.inj hi
              refine ⟨⟨hg.1, nonneg_smul hg.2 ?_⟩, rfl⟩
              rename_i q _ _ _
              have : 0 ≤ (q - sp.p).sqrNorm := by
                unfold V3.sqrNorm
                nlinarith [sq_nonneg (q - sp.p).x, sq_nonneg (q - sp.p).y, sq_nonneg (q - sp.p).z]
              exact one_div_nonneg.mpr this
            · obtain rfl := Option.some.inj hi
              exact ⟨⟨hg.1, nonneg_zero⟩, rfl⟩
          · obtain rfl := Option.some.inj hi
            exact ⟨⟨hg.1, nonneg_zero⟩, rfl⟩
        · obtain rfl := Option.some.inj hi
          exact ⟨hg, rfl⟩
      match hd : s'.sqrDist, h with
      | none, h => simp only [hd] at h; cases h
      | some d2, h =>
        simp only [hd] at h
        by_cases hb : ((w.shadow s'.wi (Real.sqrt d2 - eps)).1 && !w.ignoreShadows) = true
        · rw [if_pos hb] at h
          simp only [Res.pure_eq, Res.ok.injEq] at h; cases h
        · rw [if_neg hb] at h
          simp only [Res.pure_eq, Res.ok.injEq, LightEval.seen.injEq] at h
          obtain ⟨-, rfl⟩ := h
          split_ifs with hp hm
          · exact nonneg_zero
          · refine nonneg_mul (nonneg_smul hgood.1.2 ?_) (hw _ _)
            have := hgood.1.1
            positivity
          · refine nonneg_mul (nonneg_smul (nonneg_smul hgood.1.2 ?_) ?_) (hw _ _)
            · rcases hh with hh | hh
              · exact absurd hh hm
              · rw [hgood.2]
                unfold cosTerm
                rcases hh s hs with hh | hh
                · rw [if_neg (by linarith [eps_pos])]; exact hh
                · rw [if_pos hh]; linarith [eps_pos]
            · have := hgood.1.1
              positivity

/-- The samples of point lights and area lights are good if the given colours are not negative (area lights: of
positive area). -/
theorem point_good (I pos p : V3 ℝ) (u : V2 ℝ) (hI : NonNeg I) (s : LightSample)
    (h : (Light.point I pos).sampleNee p u = .ok (some s)) : GoodSample s := by
  simp only [Light.sampleNee, Res.ok.injEq, Option.map_eq_some_iff] at h
  obtain ⟨wi, -, rfl⟩ := h
  have : 0 ≤ (pos - p).sqrNorm := by
    unfold V3.sqrNorm
    nlinarith [sq_nonneg (pos - p).x, sq_nonneg (pos - p).y, sq_nonneg (pos - p).z]
  have hpi := Real.pi_pos
  exact ⟨zero_le_one, nonneg_smul (nonneg_smul hI (one_div_nonneg.mpr this)) (by positivity)⟩

/-- A point light of power one, slightly below the horizon of a surface with normal `(0, 0, 1)`, in view: the surface
receives a negative amount of light. -/
theorem negative_light_refuted :
    ∃ (w : World) (sp : Spot) (I pos : V3 ℝ) (u : V2 ℝ) (d t : V3 ℝ), NonNeg I ∧ sp.gn = ⟨0, 0, 1⟩ ∧
      sp.frame = ⟨⟨1, 0, 0⟩, ⟨0, 1, 0⟩, ⟨0, 0, 1⟩⟩ ∧ (∀ v far, w.shadow v far = (false, ⟨1, 1, 1⟩)) ∧
      lightEval w sp sp.gn false 1 (.point I pos) u = .ok (.seen d t) ∧
      lightEval w sp sp.frame.n false 1 (.point I pos) u = .ok (.seen d t) ∧ t.x < 0 := by
  let w : World := ⟨fun _ => none, fun _ _ => (false, ⟨1, 1, 1⟩), false⟩
  let sp : Spot := ⟨⟨0, 0, 0⟩, ⟨0, 0, 1⟩, ⟨⟨1, 0, 0⟩, ⟨0, 1, 0⟩, ⟨0, 0, 1⟩⟩, 0⟩
  have hp : (⟨15999999, 0, -8000⟩ : V3 ℝ) ≠ sp.p := by simp [sp]
  obtain ⟨wi, d, hd, h1, h2, -, h3⟩ := point_direct w sp ⟨0, 0, 1⟩ ⟨1, 1, 1⟩ ⟨15999999, 0, -8000⟩ ⟨0, 0⟩ hp
  have e := h3 (Or.inl rfl)
  refine ⟨w, sp, ⟨1, 1, 1⟩, ⟨15999999, 0, -8000⟩, ⟨0, 0⟩, _, _, by norm_num [NonNeg], rfl, rfl, fun _ _ => rfl, e, e, ?_⟩
  have hx := congrArg V3.x h2
  have hy := congrArg V3.y h2
  have hz := congrArg V3.z h2
  simp only [V3.add_x, V3.add_y, V3.add_z, V3.smul_x, V3.smul_y, V3.smul_z, V3.sqrNorm, sp, zero_add] at hx hy hz h1
  have hd2 : d = 16000001 := by
    have : d ^ 2 * (wi.x * wi.x + wi.y * wi.y + wi.z * wi.z) = (wi.x * d) ^ 2 + (wi.y * d) ^ 2 + (wi.z * d) ^ 2 := by
      ring
    rw [h1, hx, hy, hz] at this
    nlinarith
  have hwz : wi.z = -8000 / 16000001 := by rw [hd2] at hz; linarith
  have hdot : (⟨0, 0, 1⟩ : V3 ℝ).dot wi = -8000 / 16000001 := by
    simp only [V3.dot, hwz]; norm_num
  have hct : cosTerm ((⟨0, 0, 1⟩ : V3 ℝ).dot wi) = -8000 / 16000001 := by
    rw [hdot]; unfold cosTerm eps; rw [if_neg (by norm_num)]
  have hpi := Real.pi_pos
  rw [hct]
  simp only [V3.mul_x, V3.smul_x, w]
  rw [one_mul, mul_one]
  apply div_neg_of_neg_of_pos
  · norm_num
  · positivity

/-! ## Lights whose distance is never set -/

/-- Direct light from any spot light reads a distance that was never written (away from the light's own position). -/
theorem spot_undefined (w : World) (sp : Spot) (normal : V3 ℝ) (inMedia : Bool) (c : ℝ) (pos dir rad : V3 ℝ) (deg : ℝ)
    (u : V2 ℝ) (hp : pos ≠ sp.p) : (lightEval w sp normal inMedia c (Light.newSpot pos dir rad deg) u).isUb = true := by
  obtain ⟨s, d, hs, -, -, -, -, hd, -⟩ := spot_sample pos dir rad sp.p deg u hp
  unfold lightEval
  rw [hs]
  simp only [Res.bind_ok]
  rw [initialCheck_self _ _ _ _ rfl]
  simp only [hd]
  rfl

/-- The same for any directional light. -/
theorem directional_undefined (w : World) (sp : Spot) (normal : V3 ℝ) (inMedia : Bool) (c : ℝ) (dir rad : V3 ℝ)
    (u : V2 ℝ) : (lightEval w sp normal inMedia c (Light.newDirectional dir rad) u).isUb = true := rfl

/-- For a directional mesh light: if the first surface in its direction is another one, or there is none. If it is the
light, the outcome is defined (or, at distance zero, not a number). -/
theorem dirMesh_undefined (w : World) (sp : Spot) (normal : V3 ℝ) (inMedia : Bool) (c : ℝ) (dir rad : V3 ℝ) (inst : ℕ)
    (u : V2 ℝ) :
    (lightEval w sp normal inMedia c (Light.newDirMesh dir rad inst) u).isUb = true ↔
      ¬ ∃ q, w.first (-dir) = some (inst, q) := by
  unfold lightEval
  simp only [Light.newDirMesh, Light.sampleNee, Res.bind_ok, initialCheck, Light.needsCheck, if_true, Light.meshNode]
  match hf : w.first (-dir) with
  | none => simp only [hf]; simp [Res.isUb]
  | some (m, q) =>
    simp only [Option.some.injEq]
    by_cases hm : inst = m
    · subst hm
      simp only [if_true, Prod.mk.injEq, true_and, exists_eq', not_true_eq_false, iff_false]
      by_cases h0 : (q - sp.p).sqrNorm = 0
      · rw [if_pos h0]; simp [Res.isUb]
      · rw [if_neg h0]
        simp only
        split_ifs <;> simp [Res.isUb]
    · rw [if_neg hm]
      simp only [Prod.mk.injEq, Ne.symm hm, false_and, exists_false, not_false_eq_true, iff_true]
      rfl

/-- Non-vacuity: nothing in the direction of the light. -/
example : (lightEval ⟨fun _ => none, fun _ _ => (false, ⟨1, 1, 1⟩), false⟩
    ⟨⟨0, 0, 0⟩, ⟨0, 0, 1⟩, ⟨⟨1, 0, 0⟩, ⟨0, 1, 0⟩, ⟨0, 0, 1⟩⟩, 0⟩ ⟨0, 0, 1⟩ false 1
    (Light.newDirMesh ⟨0, 0, -1⟩ ⟨1, 1, 1⟩ 3) ⟨0, 0⟩).isUb = true :=
  (dirMesh_undefined _ _ _ _ _ _ _ _ _).mpr (by simp)

/-- A directional mesh light whose own surface is the first one in its direction, met at `q`: with `d` the distance to
`q`, nothing if the shadow ray of length `d - 0.001` is blocked (unless shadows are ignored), else the intensity over
`d^2` times the cosine (as flipped by the code) times the transmittance of that ray. -/
theorem dirMesh_direct (w : World) (sp : Spot) (normal : V3 ℝ) (dir rad q : V3 ℝ) (inst : ℕ) (u : V2 ℝ) (d : ℝ)
    (hf : w.first (-dir) = some (inst, q)) (hd : 0 < d)
    (hq : (q.x - sp.p.x) ^ 2 + (q.y - sp.p.y) ^ 2 + (q.z - sp.p.z) ^ 2 = d ^ 2) :
    ((w.shadow (-dir) (d - 1 / 1000)).1 = true → w.ignoreShadows = false →
        lightEval w sp normal false 1 (Light.newDirMesh dir rad inst) u = .ok .hidden) ∧
      ((w.shadow (-dir) (d - 1 / 1000)).1 = false ∨ w.ignoreShadows = true →
        lightEval w sp normal false 1 (Light.newDirMesh dir rad inst) u = .ok (.seen (sp.frame.toLocal (-dir))
          (rad.smul (cosTerm (normal.dot (-dir)) / d ^ 2) * (w.shadow (-dir) (d - 1 / 1000)).2))) := by
  have hs : (q - sp.p).sqrNorm = d ^ 2 := by
    rw [← hq]; simp only [V3.sqrNorm, V3.dot, V3.sub_x, V3.sub_y, V3.sub_z]; ring
  have hd2 : d ^ 2 ≠ 0 := by positivity
  have hsq : Real.sqrt (d ^ 2) = d := Real.sqrt_sq hd.le
  have hc : initialCheck w sp.p (Light.newDirMesh dir rad inst) ⟨-dir, none, rad, 1⟩ =
      some ⟨-dir, some (d ^ 2), rad.smul (1 / d ^ 2), 1⟩ := by
    simp only [initialCheck, Light.newDirMesh, Light.needsCheck, if_true, Light.meshNode, hf, hs, hd2, if_false]
  have hl : (Light.newDirMesh dir rad inst).sampleNee sp.p u = .ok (some ⟨-dir, none, rad, 1⟩) := rfl
  have heps : eps = 1 / 1000 := rfl
  unfold lightEval
  rw [hl]
  simp only [Res.bind_ok, hc, hsq, heps]
  constructor
  · intro hb hi
    rw [if_pos (by rw [hb, hi]; rfl)]
    rfl
  · intro hb
    rw [if_neg (by rcases hb with hb | hb <;> rw [hb] <;> simp)]
    simp only [Res.pure_eq, one_ne_zero, if_false, Bool.false_eq_true]
    congr 2
    ext <;> simp only [V3.mul_x, V3.mul_y, V3.mul_z, V3.smul_x, V3.smul_y, V3.smul_z] <;> field_simp

/-- Non-vacuity: the light two units above the point. -/
example : lightEval ⟨fun _ => some (3, ⟨0, 0, 2⟩), fun _ _ => (false, ⟨1, 1, 1⟩), false⟩
    ⟨⟨0, 0, 0⟩, ⟨0, 0, 1⟩, ⟨⟨1, 0, 0⟩, ⟨0, 1, 0⟩, ⟨0, 0, 1⟩⟩, 0⟩ ⟨0, 0, 1⟩ false 1
    (Light.newDirMesh ⟨0, 0, -1⟩ ⟨8, 8, 8⟩ 3) ⟨0, 0⟩ =
      .ok (.seen (Frame.toLocal ⟨⟨1, 0, 0⟩, ⟨0, 1, 0⟩, ⟨0, 0, 1⟩⟩ (-⟨0, 0, -1⟩))
        ((⟨8, 8, 8⟩ : V3 ℝ).smul (cosTerm ((⟨0, 0, 1⟩ : V3 ℝ).dot (-⟨0, 0, -1⟩)) / 2 ^ 2) * ⟨1, 1, 1⟩)) :=
  (dirMesh_direct _ _ _ _ _ ⟨0, 0, 2⟩ 3 _ 2 rfl (by norm_num) (by norm_num)).2 (Or.inl rfl)

/-! ## Where the two ways differ -/

/-- With a shading normal that differs from the geometric one, "all lights" and "one light" give different results for
a single point light in full view. -/
theorem modes_normal_refuted :
    ∃ (w : World) (sp : Spot) (l : Light) (u : V2 ℝ) (d t d' t' : V3 ℝ), sp.gn.sqrNorm = 1 ∧
      sp.frame.n.sqrNorm = 1 ∧ ¬ Own sp l ∧
      evalAll w sp false [l] [u] = .ok [.seen d t] ∧ evalOne w sp false [l] 0 u = .ok [.seen d' t'] ∧ t ≠ t' := by
  let w : World := ⟨fun _ => none, fun _ _ => (false, ⟨1, 1, 1⟩), false⟩
  let sp : Spot := ⟨⟨0, 0, 0⟩, ⟨0, 0, 1⟩, ⟨⟨0, 0, -1⟩, ⟨0, 1, 0⟩, ⟨1, 0, 0⟩⟩, 0⟩
  have hp : (⟨0, 0, 1⟩ : V3 ℝ) ≠ sp.p := by simp [sp]
  obtain ⟨wi, d, hd, h1, h2, -, h3⟩ := point_direct w sp sp.gn ⟨1, 1, 1⟩ ⟨0, 0, 1⟩ ⟨0, 0⟩ hp
  obtain ⟨wi', d', hd', h1', h2', -, h3'⟩ := point_direct w sp sp.frame.n ⟨1, 1, 1⟩ ⟨0, 0, 1⟩ ⟨0, 0⟩ hp
  obtain ⟨dd, t, e, hte⟩ : ∃ dd t, lightEval w sp sp.gn false 1 (.point ⟨1, 1, 1⟩ ⟨0, 0, 1⟩) ⟨0, 0⟩ = .ok (.seen dd t) ∧
      t = (⟨1, 1, 1⟩ : V3 ℝ).smul (cosTerm (sp.gn.dot wi) / (4 * Real.pi * d ^ 2)) * ⟨1, 1, 1⟩ :=
    ⟨_, _, h3 (Or.inl rfl), rfl⟩
  obtain ⟨dd', t', e', hte'⟩ : ∃ dd t, lightEval w sp sp.frame.n false 1 (.point ⟨1, 1, 1⟩ ⟨0, 0, 1⟩) ⟨0, 0⟩ =
      .ok (.seen dd t) ∧
      t = (⟨1, 1, 1⟩ : V3 ℝ).smul (cosTerm (sp.frame.n.dot wi') / (4 * Real.pi * d' ^ 2)) * ⟨1, 1, 1⟩ :=
    ⟨_, _, h3' (Or.inl rfl), rfl⟩
  have hsc := lightEval_choice w sp sp.frame.n false (1 / ((1 : ℕ) : ℝ)) _ ⟨0, 0⟩ _ e'
  refine ⟨w, sp, .point ⟨1, 1, 1⟩ ⟨0, 0, 1⟩, ⟨0, 0⟩, dd, t, dd', t'.smul (1 / (1 / ((1 : ℕ) : ℝ))), by norm_num [V3.sqrNorm, sp],
    by norm_num [V3.sqrNorm, sp], by simp [Own, Light.meshNode], ?_, ?_, ?_⟩
  · simp only [evalAll, e, Res.bind_ok, Res.pure_eq]
  · unfold evalOne chooseEmitter naiveSelect
    simp only [List.map_cons, List.map_nil, List.length_cons, List.length_nil, zero_add, one_ne_zero, if_false]
    have ht : truncInt ((0 : ℝ) * ((1 : ℕ) : ℝ)) = 0 := by rw [zero_mul]; exact truncInt_zero 0 (le_refl _) one_pos
    rw [ht]
    simp only [getAt, lt_irrefl, if_false, Int.toNat_zero, List.getElem?_cons_zero, Res.bind_ok, Light.meshNode,
      Nat.cast_zero]
    rw [hsc]
    simp only [Res.bind_ok, LightEval.scale, Res.pure_eq]
  · have hx := congrArg V3.x h2
    have hz := congrArg V3.z h2
    have hx' := congrArg V3.x h2'
    simp only [V3.add_x, V3.add_z, V3.smul_x, V3.smul_z, sp, zero_add] at hx hz hx'
    have hwx' : wi'.x = 0 := by
      rcases mul_eq_zero.mp hx' with h | h
      · exact h
      · exact absurd h hd'.ne'
    have hdot' : (⟨1, 0, 0⟩ : V3 ℝ).dot wi' = 0 := by simp only [V3.dot, hwx']; ring
    have hwz : 0 < wi.z := by
      by_contra hc
      have : wi.z * d ≤ 0 := mul_nonpos_of_nonpos_of_nonneg (not_lt.mp hc) hd.le
      linarith
    have hdot : (⟨0, 0, 1⟩ : V3 ℝ).dot wi = wi.z := by simp only [V3.dot]; ring
    intro ee
    have := congrArg V3.x ee
    have hpi := Real.pi_pos
    rw [hte, hte'] at this
    simp only [V3.mul_x, V3.smul_x, sp, hdot, hdot'] at this
    rw [show cosTerm (0 : ℝ) = 0 by unfold cosTerm; split_ifs <;> simp,
      show cosTerm wi.z = wi.z by unfold cosTerm; rw [if_neg (by linarith [eps_pos])]] at this
    simp only [zero_div, mul_zero, zero_mul, one_mul, mul_one] at this
    have h4 : 0 < wi.z / (4 * Real.pi * d ^ 2) := by positivity
    linarith

/-- A light of the shaded surface itself counts with "all lights" and never with "one light". -/
theorem modes_own_refuted :
    ∃ (w : World) (sp : Spot) (l : Light) (u : V2 ℝ) (d t : V3 ℝ), Own sp l ∧ sp.gn = sp.frame.n ∧ 0 < t.x ∧
      evalAll w sp false [l] [u] = .ok [.seen d t] ∧
      ∀ c, 0 ≤ c → c < 1 → evalOne w sp false [l] c u = .ok [.hidden] := by
  let w : World := ⟨fun _ => some (0, ⟨0, 0, 1⟩), fun _ _ => (false, ⟨1, 1, 1⟩), false⟩
  let sp : Spot := ⟨⟨0, 0, 0⟩, ⟨0, 0, 1⟩, ⟨⟨1, 0, 0⟩, ⟨0, 1, 0⟩, ⟨0, 0, 1⟩⟩, 0⟩
  have hsq : ((⟨0, 0, 1⟩ : V3 ℝ) - ⟨0, 0, 0⟩).sqrNorm = 1 := by
    simp only [V3.sqrNorm, V3.sub_x, V3.sub_y, V3.sub_z]; norm_num
  have e : lightEval w sp sp.gn false 1 (.dirMesh ⟨0, 0, -1⟩ ⟨1, 1, 1⟩ 0) ⟨0, 0⟩ = .ok (.seen
      (sp.frame.toLocal (-⟨0, 0, -1⟩)) ((((⟨1, 1, 1⟩ : V3 ℝ).smul (1 / 1)).smul
        (cosTerm (sp.gn.dot (-⟨0, 0, -1⟩)))).smul (1 / (1 * 1)) * ⟨1, 1, 1⟩)) := by
    unfold lightEval
    simp only [Light.sampleNee, Res.bind_ok, initialCheck, Light.needsCheck, if_true, Light.meshNode, w, sp, hsq,
      one_ne_zero, if_false, Bool.false_and, Bool.false_eq_true, Res.pure_eq]
  generalize hT : (((⟨1, 1, 1⟩ : V3 ℝ).smul (1 / 1)).smul (cosTerm (sp.gn.dot (-⟨0, 0, -1⟩)))).smul (1 / (1 * 1)) *
    ⟨1, 1, 1⟩ = T at e
  refine ⟨w, sp, .dirMesh ⟨0, 0, -1⟩ ⟨1, 1, 1⟩ 0, ⟨0, 0⟩, sp.frame.toLocal (-⟨0, 0, -1⟩), T, rfl, rfl, ?_, ?_, ?_⟩
  rotate_left
  · simp only [evalAll, e, Res.bind_ok, Res.pure_eq]
  · intro c h0 h1
    unfold evalOne chooseEmitter naiveSelect
    simp only [List.map_cons, List.map_nil, List.length_cons, List.length_nil, zero_add, one_ne_zero, if_false]
    have ht : truncInt ((c : ℝ) * ((1 : ℕ) : ℝ)) = 0 := by
      rw [Nat.cast_one, mul_one]; exact truncInt_zero c h0 h1
    rw [ht]
    simp only [getAt, lt_irrefl, if_false, Int.toNat_zero, List.getElem?_cons_zero, Res.bind_ok, Light.meshNode, sp,
      if_true, Res.pure_eq]
  · have hdot : sp.gn.dot (-⟨0, 0, -1⟩ : V3 ℝ) = 1 := by
      simp only [sp, V3.dot, V3.neg_x, V3.neg_y, V3.neg_z]; norm_num
    rw [← hT, hdot]
    simp only [V3.mul_x, V3.smul_x]
    unfold cosTerm eps
    norm_num

/-! ## Several lights chosen at random -/

private theorem multiLoop_valid : ∀ (evals : List LightEval) (i : ℕ) (es : List Entry) (j : ℕ) (e : Entry), 0 < j →
    (multiLoop i evals es)[j]? = some e → ∃ e', es[j]? = some e' ∧ e'.valid = e.valid
  | [], i, es, j, e, hj, h => ⟨e, h, rfl⟩
  | ev :: rest, i, es, j, e, hj, h => by
    obtain ⟨e', h', hv⟩ := multiLoop_valid rest (i + 1) (multiWrite i ev es) j e hj h
    cases ev with
    | nan => exact ⟨e', h', hv⟩
    | hidden => exact ⟨e', h', hv⟩
    | seen d t =>
      simp only [multiWrite, List.getElem?_modify] at h'
      have h0 : ¬ 0 = j := by omega
      simp only [h0, if_false] at h'
      cases hx : es[j]? with
      | none => rw [hx] at h'; simp at h'
      | some x =>
        refine ⟨x, rfl, ?_⟩
        rw [hx] at h'
        simp only [Option.map_eq_map, Option.map_some, Option.some.injEq] at h'
        rw [← hv, ← h']
        split_ifs <;> rfl

/-- `eval_multi_emitters` marks at most the first of its elements as valid: the light of every later round is lost. -/
theorem multi_first_only (evals : List LightEval) (j : ℕ) (e : Entry) (hj : 0 < j)
    (h : (evalMulti evals)[j]? = some e) : e.valid = false := by
  obtain ⟨e', h', hv⟩ := multiLoop_valid evals 0 _ j e hj h
  rw [List.getElem?_replicate] at h'
  split_ifs at h' with hl
  rw [← hv, ← Option.some.inj h']

/-- Specification: the direction of the last round whose light was in view. -/
def lastSeen : List LightEval → Option (V3 ℝ)
  | [] => none
  | .seen d _ :: rest => some ((lastSeen rest).getD d)
  | _ :: rest => lastSeen rest

/-- Specification: what the first round alone gives, before the material. -/
def firstThroughput : List LightEval → V3 ℝ
  | .seen _ t :: _ => t
  | _ => 0

private theorem multiLoop_zero : ∀ (evals : List LightEval) (i : ℕ) (es : List Entry), 0 < i →
    (multiLoop i evals es)[0]? = es[0]?.map fun x =>
      match lastSeen evals with
      | none => x
      | some d => { x with valid := true, dir := d }
  | [], i, es, hi => by simp [multiLoop, lastSeen]
  | ev :: rest, i, es, hi => by
    rw [multiLoop, multiLoop_zero rest (i + 1) _ (by omega)]
    have h0 : ¬ i = 0 := by omega
    cases ev with
    | nan => simp [multiWrite, lastSeen]
    | hidden => simp [multiWrite, lastSeen]
    | seen d t =>
      cases hx : es[0]? with
      | none => simp [multiWrite, List.getElem?_modify, hx]
      | some x =>
        cases hl : lastSeen rest <;> simp [multiWrite, List.getElem?_modify, hx, h0, lastSeen, hl]

private theorem accumulate_invalid (bsdf : V3 ℝ → V3 ℝ) : ∀ (es : List Entry) (acc : V3 ℝ), (∀ e ∈ es, e.valid = false) →
    es.foldl (fun acc e => if e.valid then acc + e.throughput * bsdf e.dir else acc) acc = acc
  | [], acc, h => rfl
  | e :: es, acc, h => by
    rw [List.foldl_cons, h e (by simp), if_neg (by simp)]
    exact accumulate_invalid bsdf es acc fun e' he => h e' (List.mem_cons_of_mem _ he)

/-- Exactly what `eval_multi_emitters` gives: nothing if no round sees its light, else the throughput of the first
round (0 if that one saw nothing) with the direction of the last one that did. -/
theorem multi_light (evals : List LightEval) (bsdf : V3 ℝ → V3 ℝ) :
    accumulate bsdf (evalMulti evals) =
      ((lastSeen evals).map fun d => firstThroughput evals * bsdf d).getD 0 := by
  have hinv : ∀ e ∈ (evalMulti evals).tail, e.valid = false := by
    intro e he
    obtain ⟨j, hj, rfl⟩ := List.mem_iff_getElem.mp he
    refine multi_first_only evals (j + 1) _ (Nat.succ_pos _) ?_
    rw [List.getElem_tail]
    exact List.getElem?_eq_getElem _
  cases evals with
  | nil => rfl
  | cons ev rest =>
    have h0 : (evalMulti (ev :: rest))[0]? = some
        (match lastSeen (ev :: rest) with
          | none => ⟨false, 0, 0⟩
          | some d => ⟨true, d, firstThroughput (ev :: rest)⟩) := by
      unfold evalMulti
      rw [multiLoop, multiLoop_zero rest 1 _ Nat.one_pos]
      cases ev with
      | nan => cases hl : lastSeen rest <;> simp [multiWrite, lastSeen, hl, firstThroughput, List.getElem?_replicate]
      | hidden => cases hl : lastSeen rest <;> simp [multiWrite, lastSeen, hl, firstThroughput, List.getElem?_replicate]
      | seen d t => cases hl : lastSeen rest <;>
          simp [multiWrite, lastSeen, hl, firstThroughput, List.getElem?_replicate, List.getElem?_modify]
    cases he : evalMulti (ev :: rest) with
    | nil => rw [he] at h0; simp at h0
    | cons x l =>
      rw [he] at h0 hinv
      simp only [List.getElem?_cons_zero, Option.some.injEq] at h0
      unfold accumulate
      rw [List.foldl_cons, accumulate_invalid bsdf l _ hinv, h0]
      cases hl : lastSeen (ev :: rest) with
      | none => simp
      | some d => simp [v3_zero_add]

/-- Non-vacuity: three rounds, the middle one hidden. The first throughput is paired with the last direction. -/
example (d d' t t' : V3 ℝ) (bsdf : V3 ℝ → V3 ℝ) :
    accumulate bsdf (evalMulti [.seen d t, .hidden, .seen d' t']) = t * bsdf d' := by
  rw [multi_light]; rfl

/-- The average over the rounds fails: two rounds, the first light hidden, the second in view. -/
theorem multi_average_refuted :
    ∃ (evals : List LightEval) (bsdf : V3 ℝ → V3 ℝ), evals.length = 2 ∧
      (accumulate bsdf (evalMulti evals)).x = 0 ∧ (evals.map fun e => (e.light bsdf).x).sum / 2 = 1 / 2 := by
  refine ⟨[.hidden, .seen ⟨0, 0, 1⟩ ⟨1, 1, 1⟩], fun _ => ⟨1, 1, 1⟩, rfl, ?_, ?_⟩
  · simp only [evalMulti, multiLoop, multiWrite, accumulate, List.length_cons, List.length_nil, List.replicate]
    simp [List.modify, V3.add_x, V3.mul_x]
  · simp only [List.map_cons, List.map_nil, LightEval.light, List.sum_cons, List.sum_nil, V3.mul_x]
    show ((0 : ℝ) + (1 * 1 + 0)) / 2 = 1 / 2
    norm_num

/-- Non-vacuity for `one_light_average` and `modes_agree_partial`: two point lights in view. -/
example : ∃ (w : World) (sp : Spot) (ls : List Light) (u : V2 ℝ) (es : List LightEval), ls.length = 2 ∧
    evalAll w sp false ls (ls.map fun _ => u) = .ok es ∧ sp.gn = sp.frame.n ∧ (∀ l ∈ ls, ¬ Own sp l) ∧
    ∀ bsdf, ∫ c in (0 : ℝ)..1, oneLight w sp false bsdf ls u V3.x c = (accumulate bsdf (es.map toEntry)).x := by
  let w : World := ⟨fun _ => none, fun _ _ => (false, ⟨1, 1, 1⟩), false⟩
  let sp : Spot := ⟨⟨0, 0, 0⟩, ⟨0, 0, 1⟩, ⟨⟨1, 0, 0⟩, ⟨0, 1, 0⟩, ⟨0, 0, 1⟩⟩, 0⟩
  obtain ⟨_, _, -, -, -, -, h⟩ := point_direct w sp sp.gn ⟨1, 1, 1⟩ ⟨0, 0, 1⟩ ⟨0, 0⟩ (by simp [sp])
  obtain ⟨_, _, -, -, -, -, h'⟩ := point_direct w sp sp.gn ⟨1, 1, 1⟩ ⟨0, 1, 1⟩ ⟨0, 0⟩ (by simp [sp])
  have e := h (Or.inl rfl)
  have e' := h' (Or.inl rfl)
  have hall : ∃ es, evalAll w sp false [.point ⟨1, 1, 1⟩ ⟨0, 0, 1⟩, .point ⟨1, 1, 1⟩ ⟨0, 1, 1⟩]
      ([Light.point ⟨1, 1, 1⟩ ⟨0, 0, 1⟩, .point ⟨1, 1, 1⟩ ⟨0, 1, 1⟩].map fun _ => (⟨0, 0⟩ : V2 ℝ)) = .ok es := by
    simp only [List.map_cons, List.map_nil, evalAll, e, e', Res.bind_ok, Res.pure_eq]
    exact ⟨_, rfl⟩
  obtain ⟨es, hes⟩ := hall
  have hown : ∀ l ∈ [Light.point ⟨1, 1, 1⟩ ⟨0, 0, 1⟩, .point ⟨1, 1, 1⟩ ⟨0, 1, 1⟩], ¬ Own sp l := by
    intro l hl
    simp only [List.mem_cons, List.not_mem_nil, or_false] at hl
    rcases hl with rfl | rfl <;> simp [Own, Light.meshNode]
  exact ⟨w, sp, _, ⟨0, 0⟩, es, rfl, hes, rfl, hown, fun bsdf =>
    modes_agree_partial w sp false bsdf _ ⟨0, 0⟩ es V3.x (Or.inl rfl) (by simp) rfl hown hes⟩

end Feign.Lights
