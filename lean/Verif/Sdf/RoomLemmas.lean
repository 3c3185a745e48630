import Verif.Sdf.Measurable
import Verif.Sdf.MarchProps
import Verif.Sdf.ShapeProps
import Verif.Sdf.RoomSpec
import Verif.Integrators.LitProps
import Verif.Integrators.BouncesProps

/-! # Scenes of distance functions are fair game for the path integrator (helper lemmas) -/

set_option linter.unusedSectionVars false
set_option linter.unusedVariables false
set_option linter.unusedSimpArgs false

namespace Feign.Sdf

open Integrators Sampling MeasureTheory Bsdf

theorem normalized_unit {v u : V3 ℝ} (h : v.normalized = some u) : u.sqrNorm = 1 := by
  have hv : v ≠ 0 := fun e => by rw [(V3.normalized_eq_none v).2 e] at h; cases h
  obtain ⟨w, hw, h1, -⟩ := V3.normalized_spec v hv
  rw [h] at hw
  injection hw with hw
  rw [hw]; exact h1

theorem sdNormal_sqr {fs : List (V3 ℝ → Option ℝ)} {p n : V3 ℝ} (h : sdNormal fs p = some n) : n.sqrNorm = 1 := by
  unfold sdNormal at h
  split at h
  · exact normalized_unit h
  · cases h

theorem march_found (fs : List (V3 ℝ → Option ℝ)) (r : Feign.Ray ℝ) (far : Ext ℝ) (h : Hit) (n : ℕ) :
    ∀ d, march fs r far n d = .ok (.hit h) → h.normal.sqrNorm = 1 ∧
      (∃ sd, sdEvaluate fs (r.point h.t) = some (sd, h.shape) ∧ sd ≤ eps) ∧ h.p = r.point h.t + h.normal.smul eps := by
  induction n with
  | zero => intro d hm; simp [march] at hm
  | succ n ih =>
    intro d hm
    unfold march at hm
    by_cases hfar : Ext.fin d ≤ far
    · rw [if_pos hfar] at hm
      dsimp only at hm
      cases he : sdEvaluate fs (r.point d) with
      | none => rw [he] at hm; simp at hm
      | some b =>
        obtain ⟨sd, idx⟩ := b
        rw [he] at hm
        dsimp only at hm
        by_cases hsd : sd ≤ eps
        · rw [if_pos hsd] at hm
          cases hn : sdNormal fs (r.point d) with
          | none => rw [hn] at hm; cases hm
          | some nv =>
            rw [hn] at hm
            dsimp only at hm
            by_cases hs : nv.norm < eps
            · rw [if_pos hs] at hm; cases hm
            · rw [if_neg hs] at hm
              injection hm with hm
              injection hm with hm
              subst hm
              exact ⟨sdNormal_sqr hn, ⟨sd, he, hsd⟩, rfl⟩
        · rw [if_neg hsd] at hm
          exact ih _ hm
    · rw [if_neg hfar] at hm; cases hm

theorem hitOf_found {fs : List (V3 ℝ → Option ℝ)} {box : Option (B3 ℝ)} {r : Integrators.Ray} {h : Hit}
    (hh : hitOf fs box r = some h) : h.normal.sqrNorm = 1 ∧
      ∃ q sd, sdEvaluate fs q = some (sd, h.shape) ∧ sd ≤ eps ∧ h.p = q + h.normal.smul eps := by
  unfold hitOf at hh
  have key : intersect fs box ⟨r.1, r.2, Ext.fin eps, ⊤⟩ = .ok (.hit h) := by
    cases hi : intersect fs box ⟨r.1, r.2, Ext.fin eps, ⊤⟩ with
    | ok m =>
      rw [hi] at hh
      cases m with
      | hit h' => injection hh with hh; rw [hh]
      | passed d => cases hh
      | nothing => cases hh
      | exhausted d => cases hh
    | throw e => rw [hi] at hh; cases hh
    | ub e => rw [hi] at hh; cases hh
  have : h.normal.sqrNorm = 1 ∧ (∃ sd, sdEvaluate fs ((⟨r.1, r.2, Ext.fin eps, ⊤⟩ : Feign.Ray ℝ).point h.t) = some (sd, h.shape) ∧
      sd ≤ eps) ∧ h.p = (⟨r.1, r.2, Ext.fin eps, ⊤⟩ : Feign.Ray ℝ).point h.t + h.normal.smul eps := by
    cases box with
    | none => exact march_found _ _ _ _ _ _ key
    | some b => exact march_found _ _ _ _ _ _ key
  obtain ⟨h1, ⟨sd, h2, h3⟩, h4⟩ := this
  exact ⟨h1, _, sd, h2, h3, h4⟩

theorem frameOf_unit {n : V3 ℝ} (hn : n.sqrNorm = 1) : (frameOf n).Orthonormal := by
  obtain ⟨f, hf, -, ho, -⟩ := Frame.frame_orthonormal n hn
  unfold frameOf
  rw [hf]
  exact ho

theorem room_frame (fs : List (V3 ℝ → Option ℝ)) (box : Option (B3 ℝ)) (looks : ℕ → Look) (env : V3 ℝ → V3 ℝ)
    (r : Integrators.Ray) : ((room fs box looks env).frame r).Orthonormal := by
  show (((hitOf fs box r).map fun h => frameOf h.normal).getD _).Orthonormal
  cases hh : hitOf fs box r with
  | none => constructor <;> norm_num [V3.dot]
  | some h => exact frameOf_unit (hitOf_found hh).1

theorem sdf_room_lawful {fs : List (V3 ℝ → Option ℝ)} (hf : ∀ f ∈ fs, OM f) (box : Option (B3 ℝ)) {looks : ℕ → Look}
    {env : V3 ℝ → V3 ℝ} (hl : ∀ i, (looks i).Fair) (he : Measurable env) (he0 : ∀ d, NonNeg (env d)) :
    (room fs box looks env).Lawful := by
  have hn : Measurable fun q : Integrators.Ray × (ℝ × ℕ × V3 ℝ × V3 ℝ) => q.2.2.2.1 := by fun_prop
  have hi : Measurable fun q : Integrators.Ray × (ℝ × ℕ × V3 ℝ × V3 ℝ) => q.2.2.1 := by fun_prop
  obtain ⟨fs1, fs2, fs3⟩ := measurable_frameOf hn
  have hfr : ∀ r, (room fs box looks env).frame r =
      ((hitOf fs box r).map fun h => frameOf h.normal).getD ⟨⟨1, 0, 0⟩, ⟨0, 1, 0⟩, ⟨0, 0, 1⟩⟩ := fun _ => rfl
  refine ⟨?_, ?_, fun r => he0 _, ?_, ?_, ?_, ?_, room_frame fs box looks env, ?_, ?_, ?_, ?_, ?_, ?_, ?_, ?_, ?_, ?_⟩
  · have := (om_hit hf box).isSome
    convert this using 2 with r
    show (hitOf fs box r).isSome = _
    cases hitOf fs box r <;> rfl
  · exact he.comp measurable_snd
  · exact measurable_read hf box (g := fun _ h => h.p) (g' := fun q => q.2.2.2.2) (by fun_prop) (fun _ _ => rfl)
      measurable_fst
  · have := measurable_read hf box (g := fun _ h => (frameOf h.normal).s) fs1 (fun _ _ => rfl) (d := fun _ => (⟨1, 0, 0⟩ : V3 ℝ))
      measurable_const
    convert this using 2 with r
    rw [hfr]
    cases hitOf fs box r <;> rfl
  · have := measurable_read hf box (g := fun _ h => (frameOf h.normal).t) fs2 (fun _ _ => rfl) (d := fun _ => (⟨0, 1, 0⟩ : V3 ℝ))
      measurable_const
    convert this using 2 with r
    rw [hfr]
    cases hitOf fs box r <;> rfl
  · have := measurable_read hf box (g := fun _ h => (frameOf h.normal).n) fs3 (fun _ _ => rfl) (d := fun _ => (⟨0, 0, 1⟩ : V3 ℝ))
      measurable_const
    convert this using 2 with r
    rw [hfr]
    cases hitOf fs box r <;> rfl
  · exact measurable_read hf box (g := fun _ h => (looks h.shape).material)
      ((measurable_from_top (f := fun i : ℕ => (looks i).material)).comp hi) (fun _ _ => rfl) measurable_const
  · exact measurable_read hf box (g := fun _ h => (looks h.shape).albedo)
      ((measurable_from_top (f := fun i : ℕ => (looks i).albedo)).comp hi) (fun _ _ => rfl) measurable_const
  · intro r
    show NonNeg (((hitOf fs box r).map fun h => (looks h.shape).albedo).getD 0)
    cases hitOf fs box r with
    | none => exact NonNeg.zero
    | some h => exact (hl _).albedo
  · exact measurable_read hf box (g := fun _ h => (looks h.shape).intIor)
      ((measurable_from_top (f := fun i : ℕ => (looks i).intIor)).comp hi) (fun _ _ => rfl) measurable_const
  · exact measurable_read hf box (g := fun _ h => (looks h.shape).extIor)
      ((measurable_from_top (f := fun i : ℕ => (looks i).extIor)).comp hi) (fun _ _ => rfl) measurable_const
  · have hloc : Measurable fun q : Integrators.Ray × (ℝ × ℕ × V3 ℝ × V3 ℝ) => (frameOf q.2.2.2.1).toLocal q.1.2 := by
      unfold Frame.toLocal
      have hd : Measurable fun q : Integrators.Ray × (ℝ × ℕ × V3 ℝ × V3 ℝ) => q.1.2 := by fun_prop
      exact measurable_mk (measurable_dot hd fs1) (measurable_dot hd fs2) (measurable_dot hd fs3)
    have hem : Measurable fun q : V3 ℝ × ℕ => (looks q.2).emitted q.1 :=
      measurable_from_prod_countable_left fun i => (hl i).measurable
    exact measurable_read hf box (g := fun r h => (looks h.shape).emitted ((frameOf h.normal).toLocal r.2))
      (hem.comp (hloc.prodMk hi)) (fun _ _ => rfl) measurable_const
  · intro r
    show NonNeg (((hitOf fs box r).map fun h => (looks h.shape).emitted ((frameOf h.normal).toLocal r.2)).getD 0)
    cases hitOf fs box r with
    | none => exact NonNeg.zero
    | some h => exact (hl _).emitted _
  · show Measurable fun p : Integrators.Ray × Stream => (total [], p.2)
    exact measurable_const.prodMk measurable_snd
  · intro r
    exact fresh_pure _
  · intro r ω
    exact NonNeg.zero

theorem measurable_blockedBy {fs : List (V3 ℝ → Option ℝ)} (hf : ∀ f ∈ fs, OM f) (box : Option (B3 ℝ)) :
    Measurable fun q : V3 ℝ × V3 ℝ × ℝ => blockedBy fs box q.1 q.2.1 q.2.2 := by
  have h : Measurable fun r : Integrators.Ray => (hitOf fs box r).isSome := by
    have := (om_hit hf box).isSome
    convert this using 2 with r
    cases hitOf fs box r <;> rfl
  exact h.comp (measurable_fst.prodMk (measurable_fst.comp measurable_snd))

theorem om_evals (ss : List Shape) : ∀ f ∈ evals ss, OM f := by
  intro f hf
  obtain ⟨s, -, rfl⟩ := List.mem_map.1 hf
  exact om_shape s

theorem sdEvaluate_shape {ss : List Shape} {q : V3 ℝ} {sd : ℝ} {i : ℕ} (h : sdEvaluate (evals ss) q = some (sd, i)) :
    ∃ s, ss[i]? = some s ∧ s.eval q = some sd := by
  have := sdEvaluate_firstMin (evals ss) q
  rw [h] at this
  obtain ⟨⟨f, hf, hfm⟩, -⟩ := this
  unfold evals at hf
  rw [List.getElem?_map, Option.map_eq_some_iff] at hf
  obtain ⟨s, hs, rfl⟩ := hf
  exact ⟨s, hs, hfm⟩

/-- Hits are near the solids, whatever the ray's direction. -/
theorem hit_near {ss : List Shape} (hw : ∀ s ∈ ss, s.WellFormed) {box : Option (B3 ℝ)} {r : Integrators.Ray} {h : Hit}
    (hh : hitOf (evals ss) box r = some h) : ∃ s, ss[h.shape]? = some s ∧ ∃ q ∈ s.solid, dist h.p q ≤ 2 * eps := by
  obtain ⟨hn, q, sd, he, hsd, hp⟩ := hitOf_found hh
  obtain ⟨s, hs, hev⟩ := sdEvaluate_shape he
  refine ⟨s, hs, ?_⟩
  obtain ⟨g, hg, hd⟩ := primitives_exact s (hw s (List.mem_of_getElem? hs))
  rw [hg] at hev
  obtain rfl := Option.some.inj hev
  have he0 := eps_pos
  have hpq : dist h.p q = eps := by
    unfold dist
    have e : h.p - q = h.normal.smul eps := by
      rw [hp]; ext <;> simp
    rw [e]
    have h1 : (h.normal.smul eps).sqrNorm = eps * eps := by
      unfold V3.sqrNorm at hn ⊢
      simp only [V3.smul_x, V3.smul_y, V3.smul_z]
      linear_combination eps * eps * hn
    rw [Integrators.norm_eq, h1, Real.sqrt_mul_self he0.le]
  by_cases h0 : 0 < g q
  · obtain ⟨q', hq', e⟩ := hd.outside_attained _ h0
    refine ⟨q', hq', ?_⟩
    have := dist_triangle h.p q q'
    linarith
  · exact ⟨q, (hd.inside_iff _).mp (not_lt.mp h0), by linarith⟩

theorem lamp_far {ss : List Shape} (hw : ∀ s ∈ ss, s.WellFormed) {box : Option (B3 ℝ)} {looks : ℕ → Look}
    {env : V3 ℝ → V3 ℝ} {l : V3 ℝ} {δ : ℝ} (hδ : 0 ≤ δ) (hl : ∀ s ∈ ss, ∀ q ∈ s.solid, δ + 2 * eps ≤ dist l q)
    {r : Integrators.Ray} (hs : (room (evals ss) box looks env).seen r = true) :
    δ * δ ≤ (l - (room (evals ss) box looks env).point r).sqrNorm := by
  have hs' : (hitOf (evals ss) box r).isSome = true := hs
  obtain ⟨h, hh⟩ := Option.isSome_iff_exists.1 hs'
  have hp : (room (evals ss) box looks env).point r = h.p := by
    show ((hitOf (evals ss) box r).map (·.p)).getD r.1 = _
    rw [hh]; rfl
  rw [hp]
  obtain ⟨s, hss, q, hq, hd⟩ := hit_near hw hh
  have h1 := hl s (List.mem_of_getElem? hss) q hq
  have h2 := dist_triangle l h.p q
  have h3 : δ ≤ dist l h.p := by linarith
  have h4 : dist l h.p * dist l h.p = (l - h.p).sqrNorm := V3.norm_sq _
  rw [← h4]
  exact mul_self_le_mul_self hδ h3

/-- A lamp at distance at least `δ` adds at most this. -/
theorem lampAt_le (S : Room) (h : S.Lawful) (blocked : Blocked) (i : Fin 3) (r : Integrators.Ray) (l : Lamp) {ρ I δ : ℝ} (hδ : 0 < δ)
    (hρ : 0 ≤ ρ) (hI : 0 ≤ I) (ha : (S.albedo r).get i ≤ ρ) (hl : l.1.get i ≤ I) (hl0 : NonNeg l.1)
    (hd : δ * δ ≤ (l.2 - S.point r).sqrNorm) :
    S.lampAt blocked i r l ≤ ρ / Real.pi * (I / (4 * Real.pi * (δ * δ))) := by
  have hpi := Real.pi_pos
  have hδ2 : 0 < δ * δ := mul_pos hδ hδ
  unfold Room.lampAt
  dsimp only
  split_ifs with hc
  · positivity
  · simp only [not_or, not_le] at hc
    obtain ⟨-, -, hcos⟩ := hc
    set d2 := (l.2 - S.point r).sqrNorm with hd2
    have hpos : 0 < d2 := lt_of_lt_of_le hδ2 hd
    have hsq : 0 < Real.sqrt d2 := Real.sqrt_pos.2 hpos
    have hunit : ((l.2 - S.point r).smul (1 / Real.sqrt d2)).sqrNorm = 1 := by
      have e : ((l.2 - S.point r).smul (1 / Real.sqrt d2)).sqrNorm = d2 * (1 / Real.sqrt d2) * (1 / Real.sqrt d2) := by
        rw [hd2]
        unfold V3.sqrNorm
        simp only [V3.smul_x, V3.smul_y, V3.smul_z]
        ring
      rw [e]
      have := Real.mul_self_sqrt hpos.le
      field_simp
      nlinarith
    have hn : (S.frame r).n.sqrNorm = 1 := by
      have := (h.frame r).nn
      unfold V3.sqrNorm
      unfold V3.dot at this
      exact this
    have hc1 : (S.frame r).n.dot ((l.2 - S.point r).smul (1 / Real.sqrt d2)) ≤ 1 := by
      have := V3.abs_dot_le (S.frame r).n ((l.2 - S.point r).smul (1 / Real.sqrt d2))
      rw [Integrators.norm_eq, Integrators.norm_eq, hn, hunit, Real.sqrt_one, one_mul] at this
      exact (le_abs_self _).trans this
    have ha0 : 0 ≤ (S.albedo r).get i := (h.albedo_nonneg r).get i
    have hl0' : 0 ≤ l.1.get i := hl0.get i
    have h1 : (S.albedo r).get i / Real.pi * (S.frame r).n.dot ((l.2 - S.point r).smul (1 / Real.sqrt d2)) ≤ ρ / Real.pi := by
      have : (S.albedo r).get i / Real.pi ≤ ρ / Real.pi := by gcongr
      calc _ ≤ (S.albedo r).get i / Real.pi * 1 := by gcongr
        _ ≤ _ := by rw [mul_one]; exact this
    have h2 : l.1.get i / (4 * Real.pi * d2) ≤ I / (4 * Real.pi * (δ * δ)) := by gcongr
    exact mul_le_mul h1 h2 (by positivity) (by positivity)

theorem sum_le_mul {α : Type} (l : List α) (f : α → ℝ) (B : ℝ) (h : ∀ a ∈ l, f a ≤ B) : (l.map f).sum ≤ l.length * B := by
  induction l with
  | nil => simp
  | cons a l ih =>
    have h1 := h a (List.mem_cons_self)
    have h2 := ih fun b hb => h b (List.mem_cons_of_mem _ hb)
    simp only [List.map_cons, List.sum_cons, List.length_cons]
    push_cast
    linarith

end Feign.Sdf
