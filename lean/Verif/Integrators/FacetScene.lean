import Verif.Integrators.FacetProps

/-!
# C132: two scenes

A floor under a lamp meets the hypotheses of the theorems. With a sheet half a millimetre in front of the lamp the floor
is dark, and the renderer lights it all the same: shadow rays end `Epsilon` before the lamp (`src/scene.cpp:402-405`,
`:506-509`).
-/

set_option linter.unusedSectionVars false
set_option linter.unusedSimpArgs false
set_option linter.unusedVariables false

namespace Feign.Integrators

open Sampling MeasureTheory Warp Bsdf Lights Shapes Set
open scoped ENNReal

/-- A white floor. -/
noncomputable def ground : Facet := ⟨⟨-3, -3, 0⟩, ⟨3, -3, 0⟩, ⟨0, 3, 0⟩, .diffuse, ⟨1 / 2, 1 / 2, 1 / 2⟩, 1, 1, none⟩

/-- A lamp over it that shines downwards. -/
noncomputable def lampAbove : Facet :=
  ⟨⟨0, 0, 1⟩, ⟨0, 1, 1⟩, ⟨1, 0, 1⟩, .diffuse, ⟨1 / 2, 1 / 2, 1 / 2⟩, 1, 1, some ⟨1, 1, 1⟩⟩

/-- A sheet as large as the floor, `1/2000` under the lamp. -/
noncomputable def sheet : Facet :=
  ⟨⟨-3, -3, 1999 / 2000⟩, ⟨3, -3, 1999 / 2000⟩, ⟨0, 3, 1999 / 2000⟩, .diffuse, ⟨1 / 2, 1 / 2, 1 / 2⟩, 1, 1, none⟩

/-- A look at the floor. -/
noncomputable def straightDown : Ray := (⟨0, 0, 1 / 2⟩, ⟨0, 0, -1⟩)

theorem ground_cross : ground.cross = ⟨0, 0, 36⟩ := by
  simp only [ground, Facet.cross]
  ext <;> simp only [V3.cross, V3.sub_x, V3.sub_y, V3.sub_z] <;> norm_num

theorem lampAbove_cross : lampAbove.cross = ⟨0, 0, -1⟩ := by
  simp only [lampAbove, Facet.cross]
  ext <;> simp only [V3.cross, V3.sub_x, V3.sub_y, V3.sub_z] <;> norm_num

theorem sheet_cross : sheet.cross = ⟨0, 0, 36⟩ := by
  simp only [sheet, Facet.cross]
  ext <;> simp only [V3.cross, V3.sub_x, V3.sub_y, V3.sub_z] <;> norm_num

theorem half_nonneg : NonNeg (⟨1 / 2, 1 / 2, 1 / 2⟩ : V3 ℝ) := ⟨by norm_num, by norm_num, by norm_num⟩

theorem ground_proper : ground.Proper :=
  ⟨by rw [ground_cross]; intro h; have := congrArg V3.z h; norm_num at this, half_nonneg, by simp [ground]⟩

theorem sheet_proper : sheet.Proper :=
  ⟨by rw [sheet_cross]; intro h; have := congrArg V3.z h; norm_num at this, half_nonneg, by simp [sheet]⟩

theorem lampAbove_proper : lampAbove.Proper :=
  ⟨by rw [lampAbove_cross]; intro h; have := congrArg V3.z h; norm_num at this, half_nonneg, by
    intro I h
    simp only [lampAbove, Option.some.injEq] at h
    subst h
    exact ⟨by norm_num, by norm_num, by norm_num⟩⟩

theorem ground_dist (r : Ray) : ground.dist r = -r.1.z * 36 / (r.2.z * 36) := by
  have hp : ground.p0 = ⟨-3, -3, 0⟩ := rfl
  simp only [Facet.dist, ground_cross, V3.dot, V3.sub_x, V3.sub_y, V3.sub_z, hp]
  congr 1 <;> ring

theorem lampAbove_dist (r : Ray) : lampAbove.dist r = (r.1.z - 1) / (-r.2.z) := by
  have hp : lampAbove.p0 = ⟨0, 0, 1⟩ := rfl
  simp only [Facet.dist, lampAbove_cross, V3.dot, V3.sub_x, V3.sub_y, V3.sub_z, hp]
  congr 1 <;> ring

theorem sheet_dist (r : Ray) : sheet.dist r = (1999 / 2000 - r.1.z) * 36 / (r.2.z * 36) := by
  have hp : sheet.p0 = ⟨-3, -3, 1999 / 2000⟩ := rfl
  simp only [Facet.dist, sheet_cross, V3.dot, V3.sub_x, V3.sub_y, V3.sub_z, hp]
  congr 1 <;> ring

theorem ground_meets_down : ground.Meets straightDown := by
  have hd : ground.dist straightDown = 1 / 2 := by rw [ground_dist]; norm_num [straightDown]
  refine ⟨?_, ?_, ?_, ?_, ?_⟩
  · rw [ground_cross]; norm_num [V3.dot, straightDown]
  all_goals simp only [Facet.coords, hd, ground_cross]
  all_goals norm_num [V3.dot, V3.cross, straightDown, ground]

/-- The ray hits the floor, with or without the sheet. -/
theorem down_winner (fs : List Facet) (hfs : fs = [ground, lampAbove] ∨ fs = [ground, lampAbove, sheet]) :
    winner fs straightDown = some 0 := by
  have h0 : fs[0]? = some ground := by rcases hfs with rfl | rfl <;> rfl
  rw [winner_some]
  refine ⟨by rcases hfs with rfl | rfl <;> simp, ⟨ground, h0, ground_meets_down, fun T' hT' hm => ?_⟩, by simp⟩
  have hcase : T' = ground ∨ T' = lampAbove ∨ T' = sheet := by
    rcases hfs with rfl | rfl <;> simp at hT' <;> tauto
  rcases hcase with rfl | rfl | rfl
  · exact le_rfl
  · have := hm.2.2.2.2
    rw [lampAbove_dist] at this
    norm_num [straightDown] at this
  · have := hm.2.2.2.2
    rw [sheet_dist] at this
    norm_num [straightDown] at this

theorem down_point (fs : List Facet) (hfs : fs = [ground, lampAbove] ∨ fs = [ground, lampAbove, sheet]) :
    hitPos fs straightDown = 0 := by
  have h0 : fs[0]? = some ground := by rcases hfs with rfl | rfl <;> rfl
  rw [hitPos, atHit_some (down_winner fs hfs) h0]
  have hd : ground.dist straightDown = 1 / 2 := by rw [ground_dist]; norm_num [straightDown]
  rw [hd]
  ext <;> norm_num [straightDown]

theorem unit_z (c : ℝ) (hc : 0 < c) : (⟨0, 0, c⟩ : V3 ℝ).smul (1 / (⟨0, 0, c⟩ : V3 ℝ).norm) = ⟨0, 0, 1⟩ := by
  have : (⟨0, 0, c⟩ : V3 ℝ).norm = c := by
    simp only [V3.norm]
    rw [show (0 : ℝ) * 0 + 0 * 0 + c * c = c ^ 2 by ring, Real.sqrt_sq hc.le]
  rw [this]
  ext <;> simp
  field_simp

theorem down_normal (fs : List Facet) (hfs : fs = [ground, lampAbove] ∨ fs = [ground, lampAbove, sheet]) :
    (hitFrame fs straightDown).n = ⟨0, 0, 1⟩ := by
  have h0 : fs[0]? = some ground := by rcases hfs with rfl | rfl <;> rfl
  rw [hitFrame, atHit_some (down_winner fs hfs) h0, (frame_spec ground ground_proper.area).2, Facet.normal, ground_cross,
    unit_z _ (by norm_num)]

theorem lampAbove_normal : lampAbove.normal = ⟨0, 0, -1⟩ := by
  rw [Facet.normal, lampAbove_cross]
  have : (⟨0, 0, -1⟩ : V3 ℝ).norm = 1 := by
    simp only [V3.norm]; norm_num
  rw [this]
  ext <;> norm_num

/-! ## The floor and the lamp -/

theorem pair_proper : ∀ T ∈ [ground, lampAbove], T.Proper := by
  intro T hT
  simp at hT
  rcases hT with rfl | rfl
  · exact ground_proper
  · exact lampAbove_proper

theorem triple_proper : ∀ T ∈ [ground, lampAbove, sheet], T.Proper := by
  intro T hT
  simp at hT
  rcases hT with rfl | rfl | rfl
  · exact ground_proper
  · exact lampAbove_proper
  · exact sheet_proper

theorem pair_clear : LampsClear [ground, lampAbove] := by
  intro j k T T' hj hk hne hg q q' hq hq'
  have hj1 : j = 1 ∧ T = lampAbove := by
    match j, hj with
    | 0, hj =>
      simp at hj
      subst hj
      simp [ground] at hg
    | 1, hj =>
      simp at hj
      exact ⟨rfl, hj.symm⟩
    | j + 2, hj => simp at hj
  have hk0 : T' = ground := by
    match k, hk with
    | 0, hk =>
      simp at hk
      exact hk.symm
    | 1, hk => exact absurd hj1.1 hne
    | k + 2, hk => simp at hk
  obtain ⟨a, b, -, -, -, hq⟩ := hq
  obtain ⟨a', b', -, -, -, hq'⟩ := hq'
  rw [hj1.2] at hq
  rw [hk0] at hq'
  have hz : q.z = 1 := by rw [hq]; simp only [lampAbove, V3.add_z, V3.smul_z]; ring
  have hz' : q'.z = 0 := by rw [hq']; simp only [ground, V3.add_z, V3.smul_z]; ring
  have hs : (1 : ℝ) ≤ (q - q').norm := by
    rw [V3.norm]
    refine Real.one_le_sqrt.2 ?_
    have : (q - q').z = 1 := by rw [V3.sub_z, hz, hz']; ring
    rw [this]
    nlinarith [mul_self_nonneg (q - q').x, mul_self_nonneg (q - q').y]
  linarith

/-- The lamp is seen from the floor. -/
theorem pair_lit (env : V3 ℝ → V3 ℝ) : (facetRoom [ground, lampAbove] env).emitted (0, ⟨0, 0, 1⟩) = ⟨1, 1, 1⟩ := by
  have hd : lampAbove.dist ((0 : V3 ℝ), ⟨0, 0, 1⟩) = 1 := by rw [lampAbove_dist]; norm_num
  have hm : lampAbove.Meets ((0 : V3 ℝ), ⟨0, 0, 1⟩) := by
    refine ⟨?_, ?_, ?_, ?_, ?_⟩
    · rw [lampAbove_cross]; norm_num [V3.dot]
    all_goals simp only [Facet.coords, hd, lampAbove_cross]
    all_goals norm_num [V3.dot, V3.cross, lampAbove]
  have hng : ¬ ground.Meets ((0 : V3 ℝ), ⟨0, 0, 1⟩) := by
    intro hg
    have := hg.2.2.2.2
    rw [ground_dist] at this
    norm_num at this
  have hw : winner [ground, lampAbove] ((0 : V3 ℝ), ⟨0, 0, 1⟩) = some 1 := by
    rw [winner_some]
    refine ⟨by simp, ⟨lampAbove, rfl, hm, fun T' hT' hT'm => ?_⟩, fun j hj => ?_⟩
    · simp at hT'
      rcases hT' with rfl | rfl
      · exact absurd hT'm hng
      · exact le_rfl
    · obtain rfl : j = 0 := by omega
      rintro ⟨T, hT, hTm, -⟩
      simp at hT
      subst hT
      exact hng hTm
  show atHit _ (fun T r => T.emitted r.2) 0 _ = _
  rw [atHit_some hw (T := lampAbove) rfl]
  have hz : (lampAbove.frame.toLocal ⟨0, 0, 1⟩).z = -1 := by
    have : lampAbove.frame.n = ⟨0, 0, -1⟩ := by rw [(frame_spec _ lampAbove_proper.area).2, lampAbove_normal]
    simp only [Frame.toLocal, this, V3.dot]
    norm_num
  have heps : Lights.eps = 1 / 1000 := rfl
  simp only [Facet.emitted, hz, heps]
  simp only [lampAbove]
  rw [if_neg (by norm_num)]

/-- The scene meets the hypotheses, a diffuse floor is seen from the front, and light falls on it. -/
example : (∀ T ∈ [ground, lampAbove], T.Proper) ∧ LampsClear [ground, lampAbove] ∧
    (facetRoom [ground, lampAbove] fun _ => 0).seen straightDown = true ∧
    (facetRoom [ground, lampAbove] fun _ => 0).material straightDown = .diffuse ∧
    (facetRoom [ground, lampAbove] fun _ => 0).Front straightDown ∧
    (facetRoom [ground, lampAbove] fun _ => 0).emitted (hitPos [ground, lampAbove] straightDown, ⟨0, 0, 1⟩) = ⟨1, 1, 1⟩ := by
  have hw := down_winner _ (Or.inl rfl)
  refine ⟨pair_proper, pair_clear, ?_, ?_, ?_, ?_⟩
  · show (winner _ _).isSome = true
    rw [hw]; rfl
  · show atHit _ (fun T _ => T.material) _ _ = _
    rw [atHit_some hw (T := ground) rfl]; rfl
  · show 0 < (-straightDown.2).dot (hitFrame _ _).n
    rw [down_normal _ (Or.inl rfl)]
    norm_num [V3.dot, straightDown]
  · rw [down_point _ (Or.inl rfl)]
    exact pair_lit _

/-- Its picture from above. -/
example (n w h : ℕ) {quot : ℝ → ℝ → ℝ} (hq : IsQuot quot) := physical_picture [ground, lampAbove] pair_proper pair_clear
  (fun _ => 0) measurable_const (fun _ => NonNeg.zero) (by simp [ground, lampAbove]) (ρ := 1 / 2) (E := 1) (by norm_num)
  (by norm_num) zero_le_one (by intro i; fin_cases i <;> simp [ground, lampAbove, V3.get])
  (by intro i; fin_cases i <;> simp [ground, lampAbove, V3.get]) (by intro i d; rw [get_zero]; exact zero_le_one) hq n
  (traces_trace _ (room_lawful _ (facets_lawful _ pair_proper (fun _ => 0) measurable_const fun _ => NonNeg.zero)) hq n)
  measurable_above w h

/-! ## The sheet in front of the lamp -/

/-- **C132 fails for lamps closer than `Epsilon` to another object.** Every ray from the floor to the lamp is stopped by
the sheet, so no light falls on the floor; the light samples find some all the same. -/
theorem thin_gap_refuted : ∃ (fs : List Facet) (r : Ray), (∀ T ∈ fs, T.Proper) ∧ (facetRoom fs fun _ => 0).seen r = true ∧
    (facetRoom fs fun _ => 0).material r = .diffuse ∧ (facetRoom fs fun _ => 0).Front r ∧
    (∀ v : V3 ℝ, v.norm = 1 → (facetRoom fs fun _ => 0).emitted ((facetRoom fs fun _ => 0).point r, v) = 0) ∧
    ∀ i, (facetRoom fs fun _ => 0).world.direct i r ≠ 0 := by
  have hw := down_winner _ (Or.inr rfl)
  have hmat : (facetRoom [ground, lampAbove, sheet] fun _ => 0).material straightDown = .diffuse := by
    show atHit _ (fun T _ => T.material) _ _ = _
    rw [atHit_some hw (T := ground) rfl]; rfl
  refine ⟨[ground, lampAbove, sheet], straightDown, triple_proper, ?_, hmat, ?_, fun v hv => ?_, fun i => ?_⟩
  · show (winner _ _).isSome = true
    rw [hw]; rfl
  · show 0 < (-straightDown.2).dot (hitFrame _ _).n
    rw [down_normal _ (Or.inr rfl)]
    norm_num [V3.dot, straightDown]
  · show atHit _ (fun T r => T.emitted r.2) 0 (hitPos _ _, v) = _
    rw [down_point _ (Or.inr rfl)]
    cases hv' : winner [ground, lampAbove, sheet] ((0 : V3 ℝ), v) with
    | none => exact atHit_none hv' (fun T r => T.emitted r.2) 0
    | some k =>
      obtain ⟨-, ⟨T, hk, hm, hmin⟩, -⟩ := winner_some.1 hv'
      rw [atHit_some hv' hk]
      by_cases hT : T = lampAbove
      · exfalso
        subst hT
        have hdl := hm.2.2.2.2
        have hvz : v.z ^ 2 ≤ 1 := by
          have : v.norm ^ 2 = 1 := by rw [hv]; norm_num
          rw [norm_sq] at this
          simp only [V3.dot] at this
          nlinarith [mul_self_nonneg v.x, mul_self_nonneg v.y]
        have hl : lampAbove.dist ((0 : V3 ℝ), v) = 1 / v.z := by
          rw [lampAbove_dist]
          show ((0 : ℝ) - 1) / (-v.z) = _
          rw [zero_sub, neg_div_neg_eq]
        have hs : sheet.dist ((0 : V3 ℝ), v) = (1999 / 2000) / v.z := by
          rw [sheet_dist]
          show (1999 / 2000 - (0 : ℝ)) * 36 / (v.z * 36) = _
          rw [sub_zero, mul_div_mul_right _ _ (by norm_num)]
        rw [hl] at hdl
        have hz0 : 0 < v.z := by
          by_contra hc
          have : 1 / v.z ≤ 0 := one_div_nonpos.2 (not_lt.1 hc)
          linarith
        have hz1 : v.z ≤ 1 := by nlinarith
        have hco : lampAbove.coords ((0 : V3 ℝ), v) = (v.y / v.z, v.x / v.z) := by
          simp only [Facet.coords, hl, lampAbove_cross]
          simp only [lampAbove, V3.cross, V3.dot, V3.sub_x, V3.sub_y, V3.sub_z, V3.add_x, V3.add_y, V3.add_z, V3.smul_x,
            V3.smul_y, V3.smul_z, V3.zero_x, V3.zero_y, V3.zero_z]
          rw [Prod.mk.injEq]
          constructor <;> (field_simp; ring)
        have hms : sheet.Meets ((0 : V3 ℝ), v) := by
          obtain ⟨-, c1, c2, c3, -⟩ := hm
          rw [hco] at c1 c2 c3
          dsimp only at c1 c2 c3
          have hcs : sheet.coords ((0 : V3 ℝ), v) =
              ((6 * (v.x / v.z * (1999 / 2000)) - 3 * (v.y / v.z * (1999 / 2000)) + 9) / 36,
                (v.y / v.z * (1999 / 2000) + 3) / 6) := by
            simp only [Facet.coords, hs, sheet_cross]
            simp only [sheet, V3.cross, V3.dot, V3.sub_x, V3.sub_y, V3.sub_z, V3.add_x, V3.add_y, V3.add_z, V3.smul_x,
              V3.smul_y, V3.smul_z, V3.zero_x, V3.zero_y, V3.zero_z]
            rw [Prod.mk.injEq]
            constructor <;> (field_simp; ring)
          refine ⟨?_, ?_, ?_, ?_, ?_⟩
          · rw [sheet_cross]
            simp only [V3.dot]
            nlinarith
          · rw [hcs]; dsimp only; linarith
          · rw [hcs]; dsimp only; linarith
          · rw [hcs]; dsimp only; linarith
          · rw [hs, le_div_iff₀ hz0]; linarith
        have := hmin sheet (by simp) hms
        rw [hl, hs, div_le_div_iff_of_pos_right hz0] at this
        norm_num at this
      · refine emitted_dark T ?_ _
        have := List.mem_of_getElem? hk
        simp at this
        rcases this with rfl | rfl | rfl
        · rfl
        · exact absurd rfl hT
        · rfl
  · have hg : glowing [ground, lampAbove, sheet] = [(lampAbove, ⟨1, 1, 1⟩, 1)] := by
      simp [glowing, List.zipIdx, ground, lampAbove, sheet]
    rw [direct_shares _ triple_proper (fun _ => 0) i straightDown 0 hw hmat, hg, down_point _ (Or.inr rfl),
      down_normal _ (Or.inr rfl), atHit_some hw (T := ground) rfl]
    have hback : ((hitFrame [ground, lampAbove, sheet] straightDown).toLocal (-straightDown.2)).z = 1 := by
      simp only [Frame.toLocal, down_normal _ (Or.inr rfl), V3.dot]
      norm_num [straightDown]
    rw [hback]
    simp only [List.map_cons, List.map_nil, List.sum_cons, List.sum_nil, add_zero]
    rw [if_neg one_ne_zero]
    have hpos : ∀ q ∈ Ioo (0 : ℝ) 1 ×ˢ Ioo (0 : ℝ) 1, 0 < (lampShare lampAbove ⟨1, 1, 1⟩
        (shadowed [ground, lampAbove, sheet]) 0 ⟨0, 0, 1⟩ ground.albedo 1 (pair (uniTri ⟨q.1, q.2⟩))).get i := by
      rintro ⟨s, t⟩ ⟨⟨hs0, hs1⟩, ht0, ht1⟩
      dsimp only at hs0 hs1 ht0 ht1
      have hr0 : 0 < Real.sqrt s := Real.sqrt_pos.2 hs0
      have hr1 : Real.sqrt s < 1 := by
        rw [show (1 : ℝ) = Real.sqrt 1 by simp]
        exact Real.sqrt_lt_sqrt hs0.le hs1
      set a := 1 - Real.sqrt s with ha
      set b := t * Real.sqrt s with hb
      have ha0 : 0 < a := by linarith
      have hb0 : 0 < b := by positivity
      have hab : a + b < 1 := by nlinarith
      have hq : lampShare lampAbove ⟨1, 1, 1⟩ (shadowed [ground, lampAbove, sheet]) 0 ⟨0, 0, 1⟩ ground.albedo 1
          (pair (uniTri ⟨s, t⟩)) = shareAt lampAbove ⟨1, 1, 1⟩ (shadowed [ground, lampAbove, sheet]) 0 ⟨0, 0, 1⟩
            ground.albedo 1 ⟨b, a, 1⟩ := by
        unfold lampShare
        congr 1
        simp only [pair, uniTri, hitPoint, lampAbove]
        ext <;> simp only [V3.add_x, V3.add_y, V3.add_z, V3.smul_x, V3.smul_y, V3.smul_z] <;> ring
      rw [hq]
      unfold shareAt
      dsimp only
      have hv : (⟨b, a, 1⟩ : V3 ℝ) - 0 = ⟨b, a, 1⟩ := by ext <;> simp
      rw [hv, lampAbove_normal]
      set m := (⟨b, a, 1⟩ : V3 ℝ).norm with hm
      have hm2 : m ^ 2 = b ^ 2 + a ^ 2 + 1 := by
        rw [hm, norm_sq]; simp only [V3.dot]; ring
      have hm0 : 0 < m := by
        have : 0 ≤ m := Real.sqrt_nonneg _
        rcases this.lt_or_eq with h | h
        · exact h
        · exfalso; rw [← h] at hm2; nlinarith [sq_nonneg a, sq_nonneg b]
      have hm3 : m < 2 := by nlinarith
      have hnb : ¬ shadowed [ground, lampAbove, sheet] 0 ((⟨b, a, 1⟩ : V3 ℝ).smul (1 / m)) (m - 1 / 1000) = true := by
        simp only [shadowed, decide_eq_true_eq]
        rintro ⟨T, hT, hTm, hTd⟩
        simp at hT
        rcases hT with rfl | rfl | rfl
        · have := hTm.2.2.2.2
          rw [ground_dist] at this
          norm_num at this
        · rw [lampAbove_dist] at hTd
          have : ((0 : V3 ℝ).z - 1) / (-((⟨b, a, 1⟩ : V3 ℝ).smul (1 / m)).z) = m := by
            simp only [V3.zero_z, V3.smul_z]
            field_simp
            ring
          rw [this] at hTd
          linarith
        · rw [sheet_dist] at hTd
          have : (1999 / 2000 - (0 : V3 ℝ).z) * 36 / (((⟨b, a, 1⟩ : V3 ℝ).smul (1 / m)).z * 36) = 1999 / 2000 * m := by
            simp only [V3.zero_z, V3.smul_z]
            field_simp
            ring
          rw [this] at hTd
          linarith
      have hd1 : (⟨0, 0, 1⟩ : V3 ℝ).dot ((⟨b, a, 1⟩ : V3 ℝ).smul (1 / m)) = 1 / m := by
        simp only [V3.dot, V3.smul_x, V3.smul_y, V3.smul_z]; ring
      have hd2 : (-((⟨b, a, 1⟩ : V3 ℝ).smul (1 / m))).dot ⟨0, 0, -1⟩ = 1 / m := by
        simp only [V3.dot, V3.smul_x, V3.smul_y, V3.smul_z, V3.neg_x, V3.neg_y, V3.neg_z]; ring
      have hm4 : 1 / 1000 < 1 / m := one_div_lt_one_div_of_lt hm0 (by linarith)
      have hm5 : 0 < 1 / m := by positivity
      rw [hd1, hd2, if_neg (by
        rintro (h | h | h | h)
        · exact hnb h
        · norm_num at h
        · linarith
        · linarith)]
      have hA := triArea_pos lampAbove lampAbove_proper.area
      have hpi := Real.pi_pos
      fin_cases i
      · show 0 < (1 : ℝ) * (1 / 2) * _; positivity
      · show 0 < (1 : ℝ) * (1 / 2) * _; positivity
      · show 0 < (1 : ℝ) * (1 / 2) * _; positivity
    intro h0
    have hsq : square = (volume : Measure (ℝ × ℝ)).restrict (Ioo (0 : ℝ) 1 ×ˢ Ioo (0 : ℝ) 1) := by
      rw [square, Measure.prod_restrict]; rfl
    have hms : Measurable fun x : ℝ × ℝ => ENNReal.ofReal ((lampShare lampAbove ⟨1, 1, 1⟩
        (shadowed [ground, lampAbove, sheet]) 0 ⟨0, 0, 1⟩ ground.albedo 1 x).get i) :=
      ((measurable_get i).comp (measurable_share lampAbove ⟨1, 1, 1⟩ _ (measurable_shadowed _) measurable_const
        measurable_const measurable_const measurable_const (measurable_hitPoint lampAbove))).ennreal_ofReal
    have hmu : Measurable fun q : ℝ × ℝ => ENNReal.ofReal ((lampShare lampAbove ⟨1, 1, 1⟩
        (shadowed [ground, lampAbove, sheet]) 0 ⟨0, 0, 1⟩ ground.albedo 1 (pair (uniTri ⟨q.1, q.2⟩))).get i) :=
      hms.comp measurable_uniTri
    have hae := (lintegral_eq_zero_iff hmu).1 h0
    have hmem : ∀ᵐ q ∂square, q ∈ Ioo (0 : ℝ) 1 ×ˢ Ioo (0 : ℝ) 1 := by
      rw [hsq]
      exact ae_restrict_mem (measurableSet_Ioo.prod measurableSet_Ioo)
    obtain ⟨q, hq0, hqm⟩ := (hae.and hmem).exists
    exact absurd (hpos q hqm) (not_lt.2 (ENNReal.ofReal_eq_zero.1 hq0))

end Feign.Integrators
