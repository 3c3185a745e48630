import Verif.Integrators.FacetLight

/-! # Scenes of triangles: mean direct light (lemmas) -/

set_option linter.unusedSectionVars false
set_option linter.unusedSimpArgs false
set_option linter.unusedVariables false

namespace Feign.Integrators

open Sampling MeasureTheory Warp Bsdf Lights Shapes Set
open scoped ENNReal

/-- The mean over the number that chooses one of `n` lights. -/
theorem lintegral_choice (n : ℕ) (hn : 0 < n) (F : ℤ → ℝ≥0∞) :
    ∫⁻ c, F (naiveSelect n c).1 ∂unit = ∑ k ∈ Finset.range n, F k * ENNReal.ofReal (1 / n) := by
  have hn' : (0 : ℝ) < n := by exact_mod_cast hn
  have e : ∀ c ∈ Ioo (0 : ℝ) 1, F (naiveSelect n c).1 =
      ∑ k ∈ Finset.range n, (Ico ((k : ℝ) / n) (((k : ℝ) + 1) / n)).indicator (fun _ => F k) c := by
    intro c hc
    obtain ⟨k, hk, hs⟩ := naiveSelect_range n hn c hc.1.le hc.2
    have hin := (naiveSelect_index n hn c hc.1.le k).1 hs
    rw [Finset.sum_eq_single k]
    · have hmem : c ∈ Ico ((k : ℝ) / n) (((k : ℝ) + 1) / n) := ⟨hin.1, hin.2⟩
      rw [indicator_of_mem hmem, hs]
    · intro j _ hjk
      rw [indicator_of_notMem]
      intro hj
      have := (naiveSelect_index n hn c hc.1.le j).2 ⟨hj.1, hj.2⟩
      rw [hs] at this
      exact hjk (by exact_mod_cast this.symm)
    · intro hk'
      exact absurd (Finset.mem_range.2 hk) hk'
  rw [unit, setLIntegral_congr_fun measurableSet_Ioo e, lintegral_finsetSum _ fun k _ =>
    measurable_const.indicator measurableSet_Ico]
  refine Finset.sum_congr rfl fun k hk => ?_
  rw [lintegral_indicator_const measurableSet_Ico, Measure.restrict_apply measurableSet_Ico]
  congr 1
  have hk1 : ((k : ℝ) + 1) ≤ n := by exact_mod_cast Finset.mem_range.1 hk
  have hlen : ((k : ℝ) + 1) / n - (k : ℝ) / n = 1 / n := by ring
  refine le_antisymm ?_ ?_
  · refine (measure_mono inter_subset_left).trans ?_
    rw [Real.volume_Ico, hlen]
  · have hsub : Ioo ((k : ℝ) / n) (((k : ℝ) + 1) / n) ⊆ Ico ((k : ℝ) / n) (((k : ℝ) + 1) / n) ∩ Ioo 0 1 := by
      intro c hc
      refine ⟨⟨hc.1.le, hc.2⟩, ⟨lt_of_le_of_lt (by positivity) hc.1, lt_of_lt_of_le hc.2 ?_⟩⟩
      rw [div_le_one hn']
      exact hk1
    have hm := measure_mono (μ := volume) hsub
    rw [Real.volume_Ioo, hlen] at hm
    exact hm

theorem lintegral_list_sum {α β : Type} [MeasurableSpace α] (μ : Measure α) (l : List β) (F : β → α → ℝ≥0∞)
    (hF : ∀ b, Measurable (F b)) : (l.map fun b => ∫⁻ a, F b a ∂μ).sum = ∫⁻ a, (l.map fun b => F b a).sum ∂μ := by
  induction l with
  | nil => simp
  | cons b l ih =>
    simp only [List.map_cons, List.sum_cons]
    rw [lintegral_add_left (hF b), ih]

/-- Mean direct light as a sum over the lamps. -/
theorem direct_shares (fs : List Facet) (h : ∀ T ∈ fs, T.Proper) (env : V3 ℝ → V3 ℝ) (i : Fin 3) (r : Ray) (k : ℕ)
    (hw : winner fs r = some k) (hm : (facetRoom fs env).material r = .diffuse) :
    (facetRoom fs env).world.direct i r = ((glowing fs).map fun g => if g.2.2 = k then 0 else
      ∫⁻ q, ENNReal.ofReal ((lampShare g.1 g.2.1 (shadowed fs) (hitPos fs r) (hitFrame fs r).n
        (atHit fs (fun T _ => T.albedo) 0 r) ((hitFrame fs r).toLocal (-r.2)).z
        (pair (uniTri ⟨q.1, q.2⟩))).get i) ∂square).sum := by
  have hd : (facetRoom fs env).world.delta r = false := by
    show ((facetRoom fs env).material r).isDelta = false
    rw [hm]; rfl
  rw [World.direct, hd]
  simp only [Bool.false_eq_true, if_false]
  have hl : ∀ ω, (facetRoom fs env).world.lights r ω = lampSamples fs r ω := fun _ => rfl
  simp only [hl]
  by_cases hn : (glowing fs).length = 0
  · have e : ∀ ω, total (lampSamples fs r ω).1 = 0 := fun ω =>
      congrArg Prod.fst (lampSamples_none fs h r ω (Or.inr hn))
    simp only [e, get_zero]
    rw [List.length_eq_zero_iff.1 hn]
    simp
  · have hn0 : 0 < (glowing fs).length := Nat.pos_of_ne_zero hn
    have hn' : (0 : ℝ) < (glowing fs).length := by exact_mod_cast hn0
    have e : ∀ ω, total (lampSamples fs r ω).1 = (answer fs k (naiveSelect (glowing fs).length (ω 0)).1 r ω).1 := fun ω =>
      congrArg Prod.fst (total_samples fs h r k hw ω hn)
    have hmeas : Measurable fun ω => ENNReal.ofReal ((total (lampSamples fs r ω).1).get i) :=
      ((measurable_get i).comp (measurable_fst.comp (fresh_samples fs h r).1)).ennreal_ofReal
    rw [lintegral_cons _ hmeas]
    have hcons : ∀ (u : ℝ) (ω : Stream), total (lampSamples fs r (cons (u, ω))).1 =
        (answer fs k (naiveSelect (glowing fs).length u).1 r (cons (0, ω))).1 := by
      intro u ω
      rw [e]
      have h0 : cons (u, ω) 0 = u := rfl
      have h1 : cons (u, ω) 1 = cons (0, ω) 1 := rfl
      have h2 : cons (u, ω) 2 = cons (0, ω) 2 := rfl
      have h3 : drop 1 (cons (u, ω)) = drop 1 (cons (0, ω)) := rfl
      have h4 : drop 3 (cons (u, ω)) = drop 3 (cons (0, ω)) := rfl
      rw [h0]
      unfold answer
      rw [h1, h2, h3, h4]
    simp only [hcons]
    refine (lintegral_choice (glowing fs).length hn0 fun j =>
      ∫⁻ ω, ENNReal.ofReal ((answer fs k j r (cons (0, ω))).1.get i) ∂uniform).trans ?_
    rw [← Fin.sum_univ_getElem, ← Fin.sum_univ_eq_sum_range (fun j =>
      (∫⁻ ω, ENNReal.ofReal ((answer fs k j r (cons (0, ω))).1.get i) ∂uniform) *
        ENNReal.ofReal (1 / ((glowing fs).length : ℝ)))]
    refine Fintype.sum_equiv (finCongr (by simp)) _ _ fun j => ?_
    simp only [finCongr_apply, Fin.val_cast, List.getElem_map]
    have hg : getAt (glowing fs) ((j : ℕ) : ℤ) = .ok (glowing fs)[(j : ℕ)] := getAt_nat _ _ j.2
    have h1 : ∀ ω : Stream, cons (0, ω) 1 = (next2 ω).1.1 := fun _ => rfl
    have h2 : ∀ ω : Stream, cons (0, ω) 2 = (next2 ω).1.2 := fun _ => rfl
    unfold answer
    simp only [hg, h1, h2]
    generalize (glowing fs)[(j : ℕ)] = g
    by_cases hk : g.2.2 = k
    · simp only [if_pos hk, get_zero, ENNReal.ofReal_zero, lintegral_zero, zero_mul]
    · simp only [if_neg hk, get_smul]
      have hms : Measurable fun x : ℝ × ℝ => ENNReal.ofReal ((lampShare g.1 g.2.1 (shadowed fs) (hitPos fs r)
          (hitFrame fs r).n (atHit fs (fun T _ => T.albedo) 0 r) ((hitFrame fs r).toLocal (-r.2)).z x).get i) :=
        ((measurable_get i).comp (measurable_share g.1 g.2.1 _ (measurable_shadowed fs) measurable_const
          measurable_const measurable_const measurable_const (measurable_hitPoint g.1))).ennreal_ofReal
      have hmq : Measurable fun q : (ℝ × ℝ) × Stream => ENNReal.ofReal ((lampShare g.1 g.2.1 (shadowed fs) (hitPos fs r)
          (hitFrame fs r).n (atHit fs (fun T _ => T.albedo) 0 r) ((hitFrame fs r).toLocal (-r.2)).z
          (pair (uniTri ⟨q.1.1, q.1.2⟩))).get i) * ENNReal.ofReal ((glowing fs).length : ℝ) :=
        (hms.comp (measurable_uniTri.comp measurable_fst)).mul_const _
      have hsplit : ∀ x : ℝ, ENNReal.ofReal (x * ((glowing fs).length : ℝ)) =
          ENNReal.ofReal x * ENNReal.ofReal ((glowing fs).length : ℝ) := fun x => ENNReal.ofReal_mul' hn'.le
      simp only [hsplit]
      rw [lintegral_next2 (fun q => ENNReal.ofReal ((lampShare g.1 g.2.1 (shadowed fs) (hitPos fs r)
          (hitFrame fs r).n (atHit fs (fun T _ => T.albedo) 0 r) ((hitFrame fs r).toLocal (-r.2)).z
          (pair (uniTri ⟨q.1.1, q.1.2⟩))).get i) * ENNReal.ofReal ((glowing fs).length : ℝ)) hmq]
      simp only [lintegral_const, measure_univ, mul_one]
      have hmu : Measurable fun q : ℝ × ℝ => ENNReal.ofReal ((lampShare g.1 g.2.1 (shadowed fs) (hitPos fs r)
          (hitFrame fs r).n (atHit fs (fun T _ => T.albedo) 0 r) ((hitFrame fs r).toLocal (-r.2)).z
          (pair (uniTri ⟨q.1, q.2⟩))).get i) := hms.comp measurable_uniTri
      rw [lintegral_mul_const _ hmu, mul_assoc, ← ENNReal.ofReal_mul hn'.le,
        mul_one_div_cancel hn'.ne', ENNReal.ofReal_one, mul_one]

theorem filterMap_sum {α β : Type} (l : List α) (f : α → Option β) (g : β → ℝ≥0∞) :
    ((l.filterMap f).map g).sum = (l.map fun a => (f a).elim 0 g).sum := by
  induction l with
  | nil => rfl
  | cons a l ih =>
    rw [List.filterMap_cons, List.map_cons, List.sum_cons]
    cases f a with
    | none => simp [ih]
    | some b => simp [ih]

theorem emitted_dark (T : Facet) (h : T.glow = none) (d : V3 ℝ) : T.emitted d = 0 := by
  unfold Facet.emitted
  rw [h]

/-- The lamps together send what the surface that a ray hits emits. -/
theorem lamps_sum (fs : List Facet) (env : V3 ℝ → V3 ℝ) (i : Fin 3) (p v : V3 ℝ) :
    ((glowing fs).map fun g => lampSent fs i p g.1 g.2.2 v).sum =
      ENNReal.ofReal (((facetRoom fs env).emitted (p, v)).get i) := by
  have hem : (facetRoom fs env).emitted (p, v) = atHit fs (fun T r => T.emitted r.2) 0 (p, v) := rfl
  unfold glowing
  rw [filterMap_sum, hem]
  have e : ∀ q : Facet × ℕ, (q.1.glow.map fun I => (q.1, I, q.2)).elim 0
      (fun b : Facet × V3 ℝ × ℕ => lampSent fs i p b.1 b.2.2 v) = lampSent fs i p q.1 q.2 v := by
    intro q
    cases hg : q.1.glow with
    | some I => rfl
    | none =>
      simp only [Option.map_none, Option.elim_none]
      unfold lampSent
      rw [emitted_dark _ hg, get_zero, ENNReal.ofReal_zero, ite_self]
  rw [List.map_congr_left fun q _ => e q]
  cases hw : winner fs (p, v) with
  | none =>
    rw [atHit_none hw, get_zero, ENNReal.ofReal_zero]
    have hz : ∀ q : Facet × ℕ, lampSent fs i p q.1 q.2 v = 0 := by
      intro q
      unfold lampSent
      rw [hw, if_neg (by simp)]
    simp [hz]
  | some m =>
    obtain ⟨hlt, ⟨T, hT, -, -⟩, -⟩ := winner_some.1 hw
    rw [atHit_some hw hT]
    have hlen : m < (fs.zipIdx.map fun q => lampSent fs i p q.1 q.2 v).length := by simpa using hlt
    rw [← Fin.sum_univ_getElem, Finset.sum_eq_single ⟨m, hlen⟩]
    · simp only [List.getElem_map, List.getElem_zipIdx, zero_add]
      unfold lampSent
      rw [if_pos hw]
      rw [List.getElem?_eq_some_iff] at hT
      obtain ⟨_, hT⟩ := hT
      rw [hT]
    · intro j _ hj
      simp only [List.getElem_map, List.getElem_zipIdx, zero_add]
      have hne : ∀ (S : Facet) (x : ℕ), x ≠ m → lampSent fs i p S x v = 0 := by
        intro S x hx
        unfold lampSent
        rw [hw, if_neg fun he => hx (Option.some.inj he).symm]
      exact hne _ _ fun he => hj (Fin.ext he)
    · intro hh
      exact absurd (Finset.mem_univ _) hh

/-- The hit point of a ray is a point of the object. -/
theorem hit_holds (fs : List Facet) (h : ∀ T ∈ fs, T.Proper) (r : Ray) (k : ℕ) (T : Facet) (hw : winner fs r = some k)
    (hk : fs[k]? = some T) : T.Holds (hitPos fs r) ∧ (T.p0 - hitPos fs r).dot T.cross = 0 := by
  have hT := (h T (List.mem_of_getElem? hk)).area
  obtain ⟨-, ⟨T2, h2, hm, -⟩, -⟩ := winner_some.1 hw
  rw [hk] at h2
  cases h2
  have e : hitPos fs r = r.1 + r.2.smul (T.dist r) := atHit_some hw hk _ _
  rw [e]
  refine ⟨meets_holds T hT r hm, ?_⟩
  rw [meets_point T hT r hm, hitPoint_eq]
  simp only [Facet.cross, V3.cross, V3.dot, V3.add_x, V3.add_y, V3.add_z, V3.smul_x, V3.smul_y, V3.smul_z, V3.sub_x,
    V3.sub_y, V3.sub_z]
  ring

/-- Lambert's integral as a mean over sampled directions. -/
theorem lambert_mean (S : Room) (h : S.Lawful) (i : Fin 3) (r : Ray) (L : Ray → ℝ≥0∞) (hL : Measurable L) :
    S.lambert i r L = ENNReal.ofReal ((S.albedo r).get i) *
      ∫⁻ q, L (S.point r, (S.frame r).toWorld (cosHemi ⟨q.1, q.2⟩)) ∂square := by
  have ho := h.frame r
  have mw := measurable_toWorld (S.frame r)
  have ha := (h.albedo_nonneg r).get i
  have hpi := Real.pi_pos
  have mg : Measurable fun w : V3 ℝ => L (S.point r, (S.frame r).toWorld w) := hL.comp (measurable_const.prodMk mw)
  have e2 : ∫⁻ q, L (S.point r, (S.frame r).toWorld (cosHemi ⟨q.1, q.2⟩)) ∂square =
      ∫⁻ w, L (S.point r, (S.frame r).toWorld w) ∂(Measure.map (fun q : ℝ × ℝ => cosHemi ⟨q.1, q.2⟩) square) := by
    rw [lintegral_map mg measurable_cosHemi]
  rw [e2, cosHemi_law, lintegral_withDensity_eq_lintegral_mul _ measurable_cosHemiPdf.ennreal_ofReal mg,
    ← lintegral_const_mul _ (measurable_cosHemiPdf.ennreal_ofReal.mul mg)]
  unfold Room.lambert
  have mv : Measurable fun v : V3 ℝ => ENNReal.ofReal ((S.albedo r).get i / Real.pi) *
      ENNReal.ofReal ((S.frame r).n.dot v) * L (S.point r, v) :=
    ((measurable_dot measurable_const measurable_id).ennreal_ofReal.const_mul _).mul
      (hL.comp (measurable_const.prodMk measurable_id))
  conv_lhs => rw [← solidAngle_toWorld (S.frame r) ho]
  rw [lintegral_map mv mw]
  refine lintegral_congr fun w => ?_
  simp only [Pi.mul_apply, normal_toWorld ho]
  rw [← mul_assoc]
  congr 1
  by_cases hw : 0 < w.z
  · rw [cosHemiPdf, if_pos hw, ← ENNReal.ofReal_mul (by positivity), ← ENNReal.ofReal_mul ha]
    congr 1
    ring
  · rw [cosHemiPdf, if_neg hw, ENNReal.ofReal_zero, mul_zero, ENNReal.ofReal_of_nonpos (not_lt.1 hw), mul_zero]

end Feign.Integrators
