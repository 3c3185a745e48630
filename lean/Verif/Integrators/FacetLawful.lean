import Verif.Integrators.FacetLemmas

/-! # Scenes of triangles: measurability (lemmas) -/

set_option linter.unusedSectionVars false
set_option linter.unusedSimpArgs false
set_option linter.unusedVariables false

namespace Feign.Integrators

open Sampling MeasureTheory Warp Bsdf Lights Shapes
open scoped ENNReal

/-! ### What a ray hits -/

theorem measurable_V3sub {α : Type} [MeasurableSpace α] {f g : α → V3 ℝ} (hf : Measurable f) (hg : Measurable g) :
    Measurable fun a => f a - g a := by
  apply measurable_of <;> simp only [V3.sub_x, V3.sub_y, V3.sub_z] <;> fun_prop

theorem measurable_V3cross {α : Type} [MeasurableSpace α] {f g : α → V3 ℝ} (hf : Measurable f) (hg : Measurable g) :
    Measurable fun a => (f a).cross (g a) := by
  apply measurable_of <;> simp only [V3.cross] <;> fun_prop

theorem measurable_dist (T : Facet) : Measurable T.dist :=
  (measurable_dot (measurable_V3sub measurable_const measurable_fst) measurable_const).div
    (measurable_dot measurable_snd measurable_const)

theorem measurable_at (T : Facet) : Measurable fun r : Ray => r.1 + r.2.smul (T.dist r) :=
  measurable_V3add measurable_fst (measurable_V3smul measurable_snd (measurable_dist T))

theorem measurable_coords (T : Facet) : Measurable T.coords := by
  have hq : Measurable fun r : Ray => r.1 + r.2.smul (T.dist r) - T.p0 := measurable_V3sub (measurable_at T) measurable_const
  exact ((measurable_dot (measurable_V3cross hq measurable_const) measurable_const).div measurable_const).prodMk
    ((measurable_dot (measurable_V3cross measurable_const hq) measurable_const).div measurable_const)

theorem measurable_meets (T : Facet) : MeasurableSet {r | T.Meets r} := by
  have hc1 : Measurable fun r => (T.coords r).1 := measurable_fst.comp (measurable_coords T)
  have hc2 : Measurable fun r => (T.coords r).2 := measurable_snd.comp (measurable_coords T)
  have hd : Measurable fun r : Ray => r.2.dot T.cross := measurable_dot measurable_snd measurable_const
  exact (hd (measurableSet_singleton 0).compl).inter ((measurableSet_le measurable_const hc1).inter
    ((measurableSet_le measurable_const hc2).inter ((measurableSet_le (hc1.add hc2) measurable_const).inter
      (measurableSet_le measurable_const (measurable_dist T)))))

theorem measurable_forall_mem {α β : Type} [MeasurableSpace α] (l : List β) (P : β → α → Prop)
    (h : ∀ b, MeasurableSet {a | P b a}) : MeasurableSet {a | ∀ b ∈ l, P b a} := by
  induction l with
  | nil => simp
  | cons b l ih =>
    have e : {a | ∀ c ∈ b :: l, P c a} = {a | P b a} ∩ {a | ∀ c ∈ l, P c a} := by
      ext a; simp
    rw [e]
    exact (h b).inter ih

theorem measurable_exists_mem {α β : Type} [MeasurableSpace α] (l : List β) (P : β → α → Prop)
    (h : ∀ b, MeasurableSet {a | P b a}) : MeasurableSet {a | ∃ b ∈ l, P b a} := by
  have e : {a | ∃ b ∈ l, P b a} = {a | ∀ b ∈ l, ¬ P b a}ᶜ := by
    ext a; simp
  rw [e]
  exact (measurable_forall_mem l _ fun b => (h b).compl).compl

theorem measurable_wins (fs : List Facet) (k : ℕ) : MeasurableSet {r | Wins fs r k} := by
  cases hk : fs[k]? with
  | none =>
    have e : {r | Wins fs r k} = ∅ := by
      ext r; simp [Wins, hk]
    rw [e]; exact MeasurableSet.empty
  | some T =>
    have e : {r | Wins fs r k} = {r | T.Meets r} ∩ {r | ∀ T' ∈ fs, T'.Meets r → T.dist r ≤ T'.dist r} := by
      ext r; simp [Wins, hk]
    rw [e]
    refine (measurable_meets T).inter (measurable_forall_mem fs _ fun T' => ?_)
    have e2 : {r | T'.Meets r → T.dist r ≤ T'.dist r} = {r | T'.Meets r}ᶜ ∪ {r | T.dist r ≤ T'.dist r} := by
      ext r; simp [imp_iff_not_or]
    rw [e2]
    exact (measurable_meets T').compl.union (measurableSet_le (measurable_dist T) (measurable_dist T'))

instance : MeasurableSpace (Option ℕ) := ⊤

theorem winner_some {fs : List Facet} {r : Ray} {k : ℕ} :
    winner fs r = some k ↔ k < fs.length ∧ Wins fs r k ∧ ∀ j < k, ¬ Wins fs r j := by
  classical
  unfold winner
  rw [List.find?_range_eq_some]
  simp only [decide_eq_true_eq, List.mem_range, Bool.not_eq_true', decide_eq_false_iff_not]
  tauto

theorem winner_none {fs : List Facet} {r : Ray} : winner fs r = none ↔ ∀ k < fs.length, ¬ Wins fs r k := by
  classical
  unfold winner
  rw [List.find?_eq_none]
  simp

theorem measurable_winner (fs : List Facet) : Measurable (winner fs) := by
  refine measurable_to_countable' fun o => ?_
  cases o with
  | none =>
    have e : winner fs ⁻¹' {none} = {r | ∀ k ∈ List.range fs.length, ¬ Wins fs r k} := by
      ext r; simp [winner_none]
    rw [e]
    exact measurable_forall_mem _ _ fun k => (measurable_wins fs k).compl
  | some k =>
    have e : winner fs ⁻¹' {some k} =
        {r | k < fs.length} ∩ ({r | Wins fs r k} ∩ {r | ∀ j ∈ List.range k, ¬ Wins fs r j}) := by
      ext r; simp [winner_some]
    rw [e]
    exact (MeasurableSet.const _).inter ((measurable_wins fs k).inter
      (measurable_forall_mem _ _ fun j => (measurable_wins fs j).compl))

theorem measurable_atHit {α : Type} [MeasurableSpace α] (fs : List Facet) (F : Facet → Ray → α) (other : α)
    (hF : ∀ T, Measurable (F T)) : Measurable (atHit fs F other) := by
  have h : Measurable fun q : Ray × Option ℕ => (match q.2 with
      | some k => match fs[k]? with
        | some T => F T q.1
        | none => other
      | none => other : α) := by
    refine measurable_from_prod_countable_left fun o => ?_
    cases o with
    | none => exact measurable_const
    | some k =>
      dsimp only
      cases fs[k]? with
      | none => exact measurable_const
      | some T => exact hF T
  exact h.comp (measurable_id.prodMk (measurable_winner fs))

theorem measurable_atHit' {α : Type} [MeasurableSpace α] (fs : List Facet) (F : Facet → Ray → α) (other : Ray → α)
    (hF : ∀ T, Measurable (F T)) (ho : Measurable other) : Measurable fun r => atHit fs F (other r) r := by
  have h : Measurable fun q : Ray × Option ℕ => (match q.2 with
      | some k => match fs[k]? with
        | some T => F T q.1
        | none => other q.1
      | none => other q.1 : α) := by
    refine measurable_from_prod_countable_left fun o => ?_
    cases o with
    | none => exact ho
    | some k =>
      dsimp only
      cases fs[k]? with
      | none => exact ho
      | some T => exact hF T
  exact h.comp (measurable_id.prodMk (measurable_winner fs))

theorem atHit_all {α : Type} (fs : List Facet) (F : Facet → Ray → α) (other : α) (r : Ray) (P : α → Prop)
    (hF : ∀ T ∈ fs, P (F T r)) (ho : P other) : P (atHit fs F other r) := by
  unfold atHit
  cases winner fs r with
  | none => exact ho
  | some k =>
    dsimp only
    cases hk : fs[k]? with
    | none => exact ho
    | some T => exact hF T (List.mem_of_getElem? hk)

theorem atHit_some {α : Type} {fs : List Facet} {r : Ray} {k : ℕ} {T : Facet} (hw : winner fs r = some k)
    (hk : fs[k]? = some T) (F : Facet → Ray → α) (other : α) : atHit fs F other r = F T r := by
  unfold atHit
  rw [hw]
  dsimp only
  rw [hk]

theorem atHit_none {α : Type} {fs : List Facet} {r : Ray} (hw : winner fs r = none) (F : Facet → Ray → α) (other : α) :
    atHit fs F other r = other := by
  unfold atHit
  rw [hw]

theorem atHit_comp {α β : Type} (fs : List Facet) (F : Facet → Ray → α) (other : α) (r : Ray) (g : α → β) :
    g (atHit fs F other r) = atHit fs (fun T r => g (F T r)) (g other) r := by
  unfold atHit
  cases winner fs r with
  | none => rfl
  | some k =>
    dsimp only
    cases fs[k]? <;> rfl

theorem measurable_shadowed (fs : List Facet) :
    Measurable fun q : V3 ℝ × V3 ℝ × ℝ => shadowed fs q.1 q.2.1 q.2.2 := by
  have hs : MeasurableSet {q : V3 ℝ × V3 ℝ × ℝ | ∃ T ∈ fs, T.Meets (q.1, q.2.1) ∧ T.dist (q.1, q.2.1) ≤ q.2.2} := by
    refine measurable_exists_mem fs _ fun T => ?_
    have hr : Measurable fun q : V3 ℝ × V3 ℝ × ℝ => ((q.1, q.2.1) : Ray) :=
      measurable_fst.prodMk (measurable_fst.comp measurable_snd)
    exact (hr (measurable_meets T)).inter
      (measurableSet_le ((measurable_dist T).comp hr) (measurable_snd.comp measurable_snd))
  refine measurable_to_bool ?_
  convert hs using 1
  ext q
  simp [shadowed]

/-! ### The light samples -/

/-- The objects that are lamps: object, intensity, instance number. -/
def glowing (fs : List Facet) : List (Facet × V3 ℝ × ℕ) :=
  fs.zipIdx.filterMap fun q => q.1.glow.map fun I => (q.1, I, q.2)

theorem glowing_mem {fs : List Facet} {g : Facet × V3 ℝ × ℕ} (h : g ∈ glowing fs) :
    fs[g.2.2]? = some g.1 ∧ g.1.glow = some g.2.1 := by
  unfold glowing at h
  rw [List.mem_filterMap] at h
  obtain ⟨⟨T, k⟩, hm, he⟩ := h
  rw [List.mk_mem_zipIdx_iff_getElem?] at hm
  cases hg : T.glow with
  | none => rw [hg] at he; cases he
  | some I =>
    rw [hg] at he
    simp only [Option.map_some, Option.some.injEq] at he
    subst he
    exact ⟨hm, hg⟩

theorem lamps_eq (fs : List Facet) (h : ∀ T ∈ fs, T.Proper) :
    lamps fs = (glowing fs).map fun g => Light.mesh g.2.1 g.2.2 g.1.mesh [0, 1] := by
  unfold lamps glowing
  rw [List.map_filterMap]
  refine List.filterMap_congr fun q hq => ?_
  have hT : q.1 ∈ fs := by
    obtain ⟨T, k⟩ := q
    rw [List.mk_mem_zipIdx_iff_getElem?] at hq
    exact List.mem_of_getElem? hq
  unfold Facet.light
  cases q.1.glow with
  | none => rfl
  | some I =>
    simp only [Option.map_some, newMesh_eq q.1 (h _ hT).area]

/-- The sample for light number `j` at a hit on object `k`. -/
noncomputable def answer (fs : List Facet) (k : ℕ) (j : ℤ) (r : Ray) (ω : Stream) : V3 ℝ × Stream :=
  match getAt (glowing fs) j with
  | .ok g =>
    if g.2.2 = k then (0, drop 1 ω)
    else ((lampShare g.1 g.2.1 (shadowed fs) (hitPos fs r) (hitFrame fs r).n (atHit fs (fun T _ => T.albedo) 0 r)
      ((hitFrame fs r).toLocal (-r.2)).z (pair (uniTri ⟨ω 1, ω 2⟩))).smul (glowing fs).length, drop 3 ω)
  | _ => (0, drop 3 ω)

theorem total_samples (fs : List Facet) (h : ∀ T ∈ fs, T.Proper) (r : Ray) (k : ℕ) (hw : winner fs r = some k) (ω : Stream)
    (hn : (glowing fs).length ≠ 0) :
    (total (lampSamples fs r ω).1, (lampSamples fs r ω).2) =
      answer fs k (naiveSelect (glowing fs).length (ω 0)).1 r ω := by
  have hd : (next2 (next ω).2).2 = drop 3 ω := by
    funext n; rfl
  have hd1 : (next ω).2 = drop 1 ω := rfl
  have hc : (next ω).1 = ω 0 := rfl
  have hl := lamps_eq fs h
  have hlen : (lamps fs).length = (glowing fs).length := by rw [hl, List.length_map]
  have hu : (⟨(next2 (next ω).2).1.1, (next2 (next ω).2).1.2⟩ : V2 ℝ) = ⟨ω 1, ω 2⟩ := rfl
  unfold lampSamples
  rw [hw]
  dsimp only
  rw [hlen, if_neg hn, hc, hd, hu, hd1, hl]
  have hch : chooseEmitter (((glowing fs).map fun g => Light.mesh g.2.1 g.2.2 g.1.mesh [0, 1]).map
      fun l => (⟨l.meshNode⟩ : LightInfo)) k (ω 0) =
      match getAt (glowing fs) (naiveSelect (glowing fs).length (ω 0)).1 with
      | .ok g => if g.2.2 = k then .ok (none, some (1 / ((glowing fs).length : ℝ)))
          else .ok (some (naiveSelect (glowing fs).length (ω 0)).1.toNat, some (1 / ((glowing fs).length : ℝ)))
      | .throw m => .throw m
      | .ub m => .ub m := by
    unfold chooseEmitter
    rw [List.length_map, List.length_map, if_neg hn, List.map_map]
    simp only [getAt_map]
    cases hg : getAt (glowing fs) (naiveSelect (glowing fs).length (ω 0)).1 with
    | ub m => rfl
    | «throw» m => rfl
    | ok g => rfl
  unfold evalOne
  rw [hch]
  unfold answer
  cases hg : getAt (glowing fs) (naiveSelect (glowing fs).length (ω 0)).1 with
  | ub m => rfl
  | «throw» m => rfl
  | ok g =>
    dsimp only
    have h0 : 0 ≤ (naiveSelect (glowing fs).length (ω 0)).1 := by
      by_contra hneg
      rw [getAt, if_pos (not_le.1 hneg)] at hg
      cases hg
    by_cases hk : g.2.2 = k
    · simp only [if_pos hk, total_none]
    · have hgm := glowing_mem (getAt_mem _ _ _ hg)
      obtain ⟨e, h1, h2⟩ := share_total g.1 (h _ (List.mem_of_getElem? hgm.1)).area g.2.1 (shadowed fs) (hitPos fs r)
        (hitFrame fs r) (atHit fs (fun T _ => T.albedo) 0 r) ((hitFrame fs r).toLocal (-r.2)) g.2.2 k ⟨ω 1, ω 2⟩
        (1 / ((glowing fs).length : ℝ)) (by positivity)
      simp only [if_neg hk, Res.bind_ok, Int.toNat_of_nonneg h0, getAt_map, hg, h1, Res.pure_eq, List.map_cons,
        List.map_nil, h2, one_div_one_div]

theorem lampSamples_none (fs : List Facet) (h : ∀ T ∈ fs, T.Proper) (r : Ray) (ω : Stream)
    (hn : winner fs r = none ∨ (glowing fs).length = 0) :
    (total (lampSamples fs r ω).1, (lampSamples fs r ω).2) = (0, ω) := by
  have hlen : (lamps fs).length = (glowing fs).length := by rw [lamps_eq fs h, List.length_map]
  unfold lampSamples
  cases hw : winner fs r with
  | none => rfl
  | some k =>
    rcases hn with hn | hn
    · rw [hw] at hn; cases hn
    · dsimp only
      rw [hlen, if_pos hn, total_none]

theorem measurable_hitPos (fs : List Facet) : Measurable (hitPos fs) :=
  measurable_atHit' fs _ _ measurable_at measurable_fst

theorem measurable_hit_n (fs : List Facet) : Measurable fun r => (hitFrame fs r).n := by
  unfold hitFrame
  simp only [atHit_comp fs _ _ _ Frame.n]
  exact measurable_atHit fs _ _ fun T => measurable_const

theorem measurable_hit_s (fs : List Facet) : Measurable fun r => (hitFrame fs r).s := by
  unfold hitFrame
  simp only [atHit_comp fs _ _ _ Frame.s]
  exact measurable_atHit fs _ _ fun T => measurable_const

theorem measurable_hit_t (fs : List Facet) : Measurable fun r => (hitFrame fs r).t := by
  unfold hitFrame
  simp only [atHit_comp fs _ _ _ Frame.t]
  exact measurable_atHit fs _ _ fun T => measurable_const

theorem measurable_share {α : Type} [MeasurableSpace α] (T : Facet) (I : V3 ℝ) (blocked : Blocked)
    (hb : Measurable fun q : V3 ℝ × V3 ℝ × ℝ => blocked q.1 q.2.1 q.2.2) {p n c q : α → V3 ℝ} {z : α → ℝ}
    (hp : Measurable p) (hn : Measurable n) (hc : Measurable c) (hz : Measurable z) (hq : Measurable q) :
    Measurable fun a => shareAt T I blocked (p a) (n a) (c a) (z a) (q a) := by
  have hv : Measurable fun a => q a - p a := measurable_V3sub hq hp
  have hm := measurable_norm hv
  have hw : Measurable fun a => (q a - p a).smul (1 / (q a - p a).norm) := measurable_V3smul hv (measurable_const.div hm)
  have hd := measurable_dot hn hw
  have hd2 : Measurable fun a => (-((q a - p a).smul (1 / (q a - p a).norm))).dot T.normal :=
    measurable_dot (measurable_V3neg hw) measurable_const
  unfold shareAt
  refine Measurable.ite ((measurable_blocked hb hp hw (hm.sub measurable_const)).union
    ((measurableSet_le hz measurable_const).union ((measurableSet_le hd measurable_const).union
      (measurableSet_le hd2 measurable_const)))) measurable_const ?_
  exact measurable_V3smul (measurable_V3mul measurable_const hc)
    ((((measurable_const.mul hd).mul hd2).mul measurable_const).div (hm.pow_const 2))

theorem measurable_hitPoint (T : Facet) : Measurable fun u : ℝ × ℝ => hitPoint T.p0 T.p1 T.p2 u.1 u.2 := by
  unfold hitPoint
  apply measurable_of <;> simp only [V3.add_x, V3.add_y, V3.add_z, V3.smul_x, V3.smul_y, V3.smul_z] <;> fun_prop

theorem measurable_back (fs : List Facet) : Measurable fun r : Ray => ((hitFrame fs r).toLocal (-r.2)).z := by
  unfold Frame.toLocal
  exact measurable_dot (measurable_V3neg measurable_snd) (measurable_hit_n fs)

theorem measurable_albedo (fs : List Facet) : Measurable (atHit fs (fun T _ => T.albedo) 0) :=
  measurable_atHit fs _ _ fun T => measurable_const

theorem measurable_answer (fs : List Facet) (k : ℕ) (j : ℤ) :
    Measurable fun q : Ray × Stream => answer fs k j q.1 q.2 := by
  unfold answer
  cases getAt (glowing fs) j with
  | ub m => exact measurable_const.prodMk ((measurable_drop 3).comp measurable_snd)
  | «throw» m => exact measurable_const.prodMk ((measurable_drop 3).comp measurable_snd)
  | ok g =>
    dsimp only
    by_cases hk : g.2.2 = k
    · simp only [if_pos hk]
      exact measurable_const.prodMk ((measurable_drop 1).comp measurable_snd)
    · simp only [if_neg hk]
      have hu : Measurable fun q : Ray × Stream => pair (uniTri ⟨q.2 1, q.2 2⟩) :=
        measurable_uniTri.comp (g := fun q : ℝ × ℝ => pair (uniTri ⟨q.1, q.2⟩))
          (((measurable_pi_apply 1).comp measurable_snd).prodMk ((measurable_pi_apply 2).comp measurable_snd) :
            Measurable fun q : Ray × Stream => (q.2 1, q.2 2))
      refine Measurable.prodMk (measurable_V3smul ?_ measurable_const) ((measurable_drop 3).comp measurable_snd)
      exact measurable_share g.1 g.2.1 _ (measurable_shadowed fs) ((measurable_hitPos fs).comp measurable_fst)
        ((measurable_hit_n fs).comp measurable_fst) ((measurable_albedo fs).comp measurable_fst)
        ((measurable_back fs).comp measurable_fst) ((measurable_hitPoint g.1).comp hu)

theorem shareAt_nonneg (T : Facet) (I : V3 ℝ) (hT : T.cross ≠ 0) (hI : NonNeg I) (blocked : Blocked) (p n c q : V3 ℝ)
    (hc : NonNeg c) (z : ℝ) : NonNeg (shareAt T I blocked p n c z q) := by
  unfold shareAt
  dsimp only
  split_ifs with hb
  · exact NonNeg.zero
  · push Not at hb
    have hp := Real.pi_pos
    have hA := (triArea_pos T hT).le
    have hd : 0 ≤ (-((q - p).smul (1 / (q - p).norm))).dot T.normal := by linarith [hb.2.2.2]
    have hk : 0 ≤ 1 / Real.pi * n.dot ((q - p).smul (1 / (q - p).norm)) *
        (-((q - p).smul (1 / (q - p).norm))).dot T.normal * triArea T.p0 T.p1 T.p2 / (q - p).norm ^ 2 :=
      div_nonneg (mul_nonneg (mul_nonneg (mul_nonneg (by positivity) hb.2.2.1.le) hd) hA) (sq_nonneg _)
    exact ⟨mul_nonneg (mul_nonneg hI.1 hc.1) hk, mul_nonneg (mul_nonneg hI.2.1 hc.2.1) hk,
      mul_nonneg (mul_nonneg hI.2.2 hc.2.2) hk⟩

theorem albedo_hit_nonneg (fs : List Facet) (h : ∀ T ∈ fs, T.Proper) (r : Ray) :
    NonNeg (atHit fs (fun T _ => T.albedo) 0 r) :=
  atHit_all fs _ _ r NonNeg (fun T hT => (h T hT).albedo) NonNeg.zero

theorem answer_nonneg (fs : List Facet) (h : ∀ T ∈ fs, T.Proper) (k : ℕ) (j : ℤ) (r : Ray) (ω : Stream) :
    NonNeg (answer fs k j r ω).1 := by
  unfold answer
  cases hg : getAt (glowing fs) j with
  | ub m => exact NonNeg.zero
  | «throw» m => exact NonNeg.zero
  | ok g =>
    dsimp only
    have hgm := glowing_mem (getAt_mem _ _ _ hg)
    have hP := h _ (List.mem_of_getElem? hgm.1)
    split_ifs
    · exact NonNeg.zero
    · obtain ⟨hx, hy, hz⟩ := shareAt_nonneg g.1 g.2.1 hP.area (hP.glow _ hgm.2) (shadowed fs) (hitPos fs r)
        (hitFrame fs r).n (atHit fs (fun T _ => T.albedo) 0 r)
        (hitPoint g.1.p0 g.1.p1 g.1.p2 (pair (uniTri ⟨ω 1, ω 2⟩)).1 (pair (uniTri ⟨ω 1, ω 2⟩)).2)
        (albedo_hit_nonneg fs h r) ((hitFrame fs r).toLocal (-r.2)).z
      have hn : (0 : ℝ) ≤ (glowing fs).length := Nat.cast_nonneg _
      exact ⟨mul_nonneg hx hn, mul_nonneg hy hn, mul_nonneg hz hn⟩

theorem measurable_samples (fs : List Facet) (h : ∀ T ∈ fs, T.Proper) :
    Measurable fun q : Ray × Stream => (total (lampSamples fs q.1 q.2).1, (lampSamples fs q.1 q.2).2) := by
  by_cases hn : (glowing fs).length = 0
  · simp only [fun q : Ray × Stream => lampSamples_none fs h q.1 q.2 (Or.inr hn)]
    exact measurable_const.prodMk measurable_snd
  · have hm : Measurable fun q : (Ray × Stream) × (Option ℕ × ℤ) => (match q.2.1 with
        | some k => answer fs k q.2.2 q.1.1 q.1.2
        | none => (0, q.1.2) : V3 ℝ × Stream) := by
      refine measurable_from_prod_countable_left fun o => ?_
      obtain ⟨o, j⟩ := o
      cases o with
      | none => exact measurable_const.prodMk measurable_snd
      | some k => exact measurable_answer fs k j
    have hc : Measurable fun q : Ray × Stream =>
        (q, (winner fs q.1, (naiveSelect (glowing fs).length (q.2 0)).1)) :=
      measurable_id.prodMk (((measurable_winner fs).comp measurable_fst).prodMk
        ((measurable_index _).comp ((measurable_pi_apply 0).comp measurable_snd)))
    have e : (fun q : Ray × Stream => (total (lampSamples fs q.1 q.2).1, (lampSamples fs q.1 q.2).2)) =
        fun q : Ray × Stream => (match winner fs q.1 with
        | some k => answer fs k (naiveSelect (glowing fs).length (q.2 0)).1 q.1 q.2
        | none => (0, q.2) : V3 ℝ × Stream) := by
      funext q
      cases hw : winner fs q.1 with
      | none => exact lampSamples_none fs h q.1 q.2 (Or.inl hw)
      | some k => exact total_samples fs h q.1 k hw q.2 hn
    rw [e]
    exact hm.comp hc

theorem fresh_answer (fs : List Facet) (k : ℕ) (j : ℤ) (r : Ray) : Fresh fun ω => answer fs k j r (cons (0, ω)) := by
  have h1 : ∀ ω : Stream, cons (0, ω) 1 = (next2 ω).1.1 := fun _ => rfl
  have h2 : ∀ ω : Stream, cons (0, ω) 2 = (next2 ω).1.2 := fun _ => rfl
  have h3 : ∀ ω : Stream, drop 3 (cons (0, ω)) = (next2 ω).2 := fun _ => rfl
  have h4 : ∀ ω : Stream, drop 1 (cons (0, ω)) = ω := fun _ => rfl
  have hz := fresh_map (m := fun _ => (0 : V3 ℝ)) fresh_next2 measurable_const
  unfold answer
  simp only [h1, h2, h3, h4]
  generalize getAt (glowing fs) j = x
  cases x with
  | ub m => exact hz
  | «throw» m => exact hz
  | ok g =>
    dsimp only
    by_cases hk : g.2.2 = k
    · simp only [if_pos hk]
      exact fresh_pure 0
    · simp only [if_neg hk]
      refine fresh_map (m := fun u : ℝ × ℝ => (lampShare g.1 g.2.1 (shadowed fs) (hitPos fs r) (hitFrame fs r).n
        (atHit fs (fun T _ => T.albedo) 0 r) ((hitFrame fs r).toLocal (-r.2)).z
        (pair (uniTri ⟨u.1, u.2⟩))).smul (glowing fs).length) fresh_next2 ?_
      exact measurable_V3smul (measurable_share g.1 g.2.1 _ (measurable_shadowed fs) measurable_const
        measurable_const measurable_const measurable_const ((measurable_hitPoint g.1).comp measurable_uniTri))
        measurable_const

theorem fresh_samples (fs : List Facet) (h : ∀ T ∈ fs, T.Proper) (r : Ray) :
    Fresh fun ω => (total (lampSamples fs r ω).1, (lampSamples fs r ω).2) := by
  by_cases hn : winner fs r = none ∨ (glowing fs).length = 0
  · simp only [fun ω => lampSamples_none fs h r ω hn]
    exact fresh_pure 0
  · obtain ⟨hw, hn⟩ := not_or.1 hn
    obtain ⟨k, hw⟩ := Option.ne_none_iff_exists'.1 hw
    simp only [fun ω => total_samples fs h r k hw ω hn]
    have hj : ∀ j : ℤ, Measurable fun p : Stream => answer fs k j r (cons (0, p)) := fun j => (fresh_answer fs k j r).1
    -- the answer does not look at the first number except through `j`
    have hcons : ∀ (j : ℤ) (c : ℝ) (ω : Stream), answer fs k j r (cons (c, ω)) = answer fs k j r (cons (0, ω)) := by
      intro j c ω
      have h1 : cons (c, ω) 1 = cons (0, ω) 1 := rfl
      have h2 : cons (c, ω) 2 = cons (0, ω) 2 := rfl
      have h3 : drop 1 (cons (c, ω)) = drop 1 (cons (0, ω)) := rfl
      have h4 : drop 3 (cons (c, ω)) = drop 3 (cons (0, ω)) := rfl
      unfold answer
      rw [h1, h2, h3, h4]
    have hfr := fun j => fresh_answer fs k j r
    have hk2 : Measurable fun p : ℝ × Stream =>
        answer fs k (naiveSelect (glowing fs).length p.1).1 r (cons (0, p.2)) := by
      have : Measurable fun q : Stream × ℤ => answer fs k q.2 r (cons (0, q.1)) :=
        measurable_from_prod_countable_left hj
      exact this.comp (measurable_snd.prodMk ((measurable_index _).comp measurable_fst))
    have hb := fresh_bind (k := fun p : ℝ × Stream =>
      answer fs k (naiveSelect (glowing fs).length p.1).1 r (cons (0, p.2))) fresh_next hk2 fun a =>
        hfr (naiveSelect (glowing fs).length a).1
    have e : (fun ω => answer fs k (naiveSelect (glowing fs).length (next ω).1).1 r (cons (0, (next ω).2))) =
        fun ω => answer fs k (naiveSelect (glowing fs).length (ω 0)).1 r ω := by
      funext ω
      have hω : cons (ω 0, (next ω).2) = ω := by
        funext n
        cases n <;> rfl
      rw [← hcons _ (ω 0) _, hω]
      rfl
    rw [← e]
    exact hb

theorem emitted_nonneg (T : Facet) (h : T.Proper) (d : V3 ℝ) : NonNeg (T.emitted d) := by
  unfold Facet.emitted
  cases hg : T.glow with
  | none => exact NonNeg.zero
  | some I =>
    dsimp only
    split_ifs
    · exact NonNeg.zero
    · exact h.glow I hg

theorem measurable_emitted (T : Facet) : Measurable fun d => T.emitted d := by
  unfold Facet.emitted
  cases T.glow with
  | none => exact measurable_const
  | some I =>
    dsimp only
    have hz : Measurable fun d : V3 ℝ => -(T.frame.toLocal d).z := by
      unfold Frame.toLocal
      exact (measurable_dot measurable_id measurable_const).neg
    exact Measurable.ite (measurableSet_lt hz measurable_const) measurable_const measurable_const

theorem standard_orthonormal : (⟨⟨1, 0, 0⟩, ⟨0, 1, 0⟩, ⟨0, 0, 1⟩⟩ : Frame).Orthonormal := by
  constructor <;> simp [V3.dot]

theorem facets_lawful (fs : List Facet) (h : ∀ T ∈ fs, T.Proper) (env : V3 ℝ → V3 ℝ) (he : Measurable env)
    (he0 : ∀ d, NonNeg (env d)) : (facetRoom fs env).Lawful where
  seen := (measurable_from_top (f := Option.isSome)).comp (measurable_winner fs)
  env := he.comp measurable_snd
  env_nonneg r := he0 r.2
  point := measurable_hitPos fs
  frame_s := measurable_hit_s fs
  frame_t := measurable_hit_t fs
  frame_n := measurable_hit_n fs
  frame r := atHit_all fs (fun T _ => T.frame) _ r Frame.Orthonormal (fun T hT => (frame_spec T (h T hT).area).1) standard_orthonormal
  material := measurable_atHit fs _ _ fun T => measurable_const
  albedo := measurable_albedo fs
  albedo_nonneg := albedo_hit_nonneg fs h
  intIor := measurable_atHit fs _ _ fun T => measurable_const
  extIor := measurable_atHit fs _ _ fun T => measurable_const
  emitted := measurable_atHit fs _ _ fun T => (measurable_emitted T).comp measurable_snd
  emitted_nonneg r := atHit_all fs _ _ r NonNeg (fun T hT => emitted_nonneg T (h T hT) r.2) NonNeg.zero
  lights := measurable_samples fs h
  lights_fresh := fresh_samples fs h
  lights_nonneg r ω := by
    by_cases hn : winner fs r = none ∨ (glowing fs).length = 0
    · have := congrArg Prod.fst (lampSamples_none fs h r ω hn)
      show NonNeg (total (lampSamples fs r ω).1)
      dsimp only at this
      rw [this]
      exact NonNeg.zero
    · obtain ⟨hw, hn⟩ := not_or.1 hn
      obtain ⟨k, hw⟩ := Option.ne_none_iff_exists'.1 hw
      have := congrArg Prod.fst (total_samples fs h r k hw ω hn)
      show NonNeg (total (lampSamples fs r ω).1)
      dsimp only at this
      rw [this]
      exact answer_nonneg fs h _ _ _ _

end Feign.Integrators
