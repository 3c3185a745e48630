import Verif.Sdf.Room
import Verif.Sdf.MarchLemmas
import Verif.Sampling.Partial
import Verif.Math.FrameProps
import Mathlib.MeasureTheory.Constructions.BorelSpace.Real
import Verif.Integrators.LitLemmas
import Mathlib.MeasureTheory.Constructions.BorelSpace.Real

/-! # Distance functions and sphere tracing depend measurably on the ray (helper lemmas) -/

set_option linter.unusedSectionVars false
set_option linter.unusedSimpArgs false
set_option linter.unusedVariables false

namespace Feign.Sdf

open Classical MeasureTheory Sampling Warp Integrators

variable {α : Type} [MeasurableSpace α]

theorem measurable_sub3 {f g : α → V3 ℝ} (hf : Measurable f) (hg : Measurable g) : Measurable fun a => f a - g a := by
  apply measurable_of <;> simp only [V3.sub_x, V3.sub_y, V3.sub_z] <;> fun_prop

theorem measurable_absR {f : α → ℝ} (hf : Measurable f) : Measurable fun a => |f a| := continuous_abs.measurable.comp hf

/-! ### The primitives -/

theorem measurable_sphereEval (c : V3 ℝ) (r : ℝ) : Measurable (sphereEval c r) := by
  unfold sphereEval
  exact (measurable_norm (measurable_sub3 measurable_id measurable_const)).sub measurable_const

theorem measurable_planeEval (c n : V3 ℝ) : Measurable (planeEval c n) := by
  unfold planeEval
  exact measurable_absR (measurable_dot (measurable_sub3 measurable_id measurable_const) measurable_const)

theorem measurable_boxFormula {q : α → V3 ℝ} (hx : Measurable fun a => (q a).x) (hy : Measurable fun a => (q a).y)
    (hz : Measurable fun a => (q a).z) : Measurable fun a => boxFormula (q a) := by
  unfold boxFormula
  have h0 : ∀ {f : α → ℝ}, Measurable f → Measurable fun a => if f a > 0 then f a else (0 : ℝ) := fun hf =>
    Measurable.ite (measurableSet_lt measurable_const hf) hf measurable_const
  refine (measurable_norm (v := fun a => (q a).maxS 0) ?_).add ((hx.max (hy.max hz)).min measurable_const)
  exact measurable_of (h0 hx) (h0 hy) (h0 hz)

theorem measurable_boxEval (t b : V3 ℝ) : Measurable (boxEval t b) := by
  unfold boxEval
  dsimp only
  apply measurable_boxFormula <;> simp only [V3.sub_x, V3.sub_y, V3.sub_z]
  · exact (measurable_absR (measurable_x.sub measurable_const)).sub measurable_const
  · exact (measurable_absR (measurable_y.sub measurable_const)).sub measurable_const
  · exact (measurable_absR (measurable_z.sub measurable_const)).sub measurable_const

theorem measurable_sign : Measurable sign := by
  unfold sign
  exact Measurable.ite measurableSet_Iio measurable_const measurable_const

theorem measurable_clamp (lo hi : ℝ) : Measurable fun v => clamp v lo hi := by
  unfold clamp
  exact Measurable.ite measurableSet_Iio measurable_const
    (Measurable.ite measurableSet_Ioi measurable_const measurable_id)

theorem measurable_cylD (k : ℝ) : Measurable fun q : ℝ × ℝ =>
    if max q.1 q.2 < 0 then -min (q.1 * q.1) (q.2 * q.2 * k)
    else (if q.1 > 0 then q.1 * q.1 else 0) + (if q.2 > 0 then q.2 * q.2 * k else 0) := by
  refine Measurable.ite (measurableSet_lt (by fun_prop) measurable_const) (by fun_prop) (Measurable.add ?_ ?_)
  · exact Measurable.ite (measurableSet_lt measurable_const measurable_fst) (by fun_prop) measurable_const
  · exact Measurable.ite (measurableSet_lt measurable_const measurable_snd) (by fun_prop) measurable_const

theorem om_cylinder (a b : V3 ℝ) (r : ℝ) : OM (cylinderEval a b r) := by
  unfold cylinderEval
  dsimp only
  refine OM.ite (by simp) OM.none (OM.some ?_)
  have hpa : Measurable fun p : V3 ℝ => p - a := measurable_sub3 measurable_id measurable_const
  have hpaba : Measurable fun p : V3 ℝ => (p - a).dot (b - a) := measurable_dot hpa measurable_const
  have hx : Measurable fun p : V3 ℝ => ((p - a).smul ((b - a).dot (b - a)) - (b - a).smul ((p - a).dot (b - a))).norm -
      r * (b - a).dot (b - a) :=
    (measurable_norm (measurable_sub3 (measurable_V3smul hpa measurable_const)
      (measurable_V3smul measurable_const hpaba))).sub measurable_const
  have hy : Measurable fun p : V3 ℝ => |(p - a).dot (b - a) - (b - a).dot (b - a) * (1 / 2)| - (b - a).dot (b - a) * (1 / 2) :=
    (measurable_absR (hpaba.sub measurable_const)).sub measurable_const
  have hd := (measurable_cylD ((b - a).dot (b - a))).comp (hx.prodMk hy)
  exact ((measurable_sign.comp hd).mul ((measurable_absR hd).sqrt)).div measurable_const

theorem measurable_pick (r s : ℝ) : Measurable fun t : ℝ => if t < 1 / 2 then r else s :=
  Measurable.ite measurableSet_Iio measurable_const measurable_const

theorem measurable_inner : Measurable fun q : ℝ × ℝ => if q.1 < 0 ∧ q.2 < 0 then (-1 : ℝ) else 1 :=
  Measurable.ite ((measurableSet_lt measurable_fst measurable_const).inter
    (measurableSet_lt measurable_snd measurable_const)) measurable_const measurable_const

theorem om_cone (a b : V3 ℝ) (r s : ℝ) : OM (coneEval a b r s) := by
  unfold coneEval
  dsimp only
  refine OM.ite (by simp) OM.none (OM.some ?_)
  have hpa : Measurable fun p : V3 ℝ => p - a := measurable_sub3 measurable_id measurable_const
  have hpaba : Measurable fun p : V3 ℝ => (p - a).dot (b - a) / (b - a).dot (b - a) :=
    (measurable_dot hpa measurable_const).div measurable_const
  have hx := ((measurable_dot hpa hpa).sub ((hpaba.mul hpaba).mul (measurable_const (a := (b - a).dot (b - a))))).sqrt
  have hcax := (measurable_const (a := (0 : ℝ))).max (hx.sub ((measurable_pick r s).comp hpaba))
  have hcay := (measurable_absR (hpaba.sub (measurable_const (a := (1 / 2 : ℝ))))).sub (measurable_const (a := (1 / 2 : ℝ)))
  have hf := (measurable_clamp 0 1).comp ((((measurable_const (a := s - r)).mul (hx.sub (measurable_const (a := r)))).add
    (hpaba.mul (measurable_const (a := (b - a).dot (b - a))))).div
      (measurable_const (a := (s - r) * (s - r) + (b - a).dot (b - a))))
  have hcbx := (hx.sub (measurable_const (a := r))).sub (hf.mul (measurable_const (a := s - r)))
  have hcby := hpaba.sub hf
  have hS := measurable_inner.comp (hcbx.prodMk hcay)
  exact hS.mul ((((hcax.mul hcax).add ((hcay.mul hcay).mul (measurable_const (a := (b - a).dot (b - a))))).min
    ((hcbx.mul hcbx).add ((hcby.mul hcby).mul (measurable_const (a := (b - a).dot (b - a)))))).sqrt)

theorem om_shape (s : Shape) : OM s.eval := by
  cases s with
  | sphere c r => exact OM.some (measurable_sphereEval c r)
  | plane c n => exact OM.some (measurable_planeEval c n)
  | box t b => exact OM.some (measurable_boxEval t b)
  | cylinder a b r => exact om_cylinder a b r
  | cone a b r s => exact om_cone a b r s

/-! ### The whole scene -/

theorem om_better {d : α → Option ℝ} {best : α → Option (ℝ × ℕ)} (hd : OM d) (hb : OM best) (i : ℕ) :
    OM fun a => better (d a) i (best a) := by
  have e : (fun a => better (d a) i (best a)) = fun a => if (d a).isSome = true then
      (if (best a).isSome = true then
        (if ((best a).getD (0, 0)).1 > (d a).getD 0 then some ((d a).getD 0, i) else some ((best a).getD (0, 0)))
        else some ((d a).getD 0, i)) else best a := by
    funext a
    unfold better
    cases d a with
    | none => simp
    | some x =>
      cases best a with
      | none => simp
      | some m => obtain ⟨m, j⟩ := m; simp
  rw [e]
  have h1 : Measurable fun a => (d a).getD 0 := hd.getD measurable_const
  have h2 : Measurable fun a => (best a).getD (0, 0) := hb.getD measurable_const
  refine OM.ite hd.1 (OM.ite hb.1 (OM.ite ?_ (OM.some (h1.prodMk measurable_const)) (OM.some h2))
    (OM.some (h1.prodMk measurable_const))) hb
  exact measurableSet_lt h1 (measurable_fst.comp h2)

theorem om_sdFrom {fs : List (V3 ℝ → Option ℝ)} (hf : ∀ f ∈ fs, OM f) {p : α → V3 ℝ} (hp : Measurable p) :
    ∀ (i : ℕ) {best : α → Option (ℝ × ℕ)}, OM best → OM fun a => sdEvaluateFrom (p a) fs i (best a) := by
  induction fs with
  | nil => intro i best hb; exact hb
  | cons f fs ih =>
    intro i best hb
    exact ih (fun g hg => hf g (by simp [hg])) (i + 1) (om_better ((hf f (by simp)).comp hp) hb i)

theorem om_sdEvaluate {fs : List (V3 ℝ → Option ℝ)} (hf : ∀ f ∈ fs, OM f) {p : α → V3 ℝ} (hp : Measurable p) :
    OM fun a => sdEvaluate fs (p a) := om_sdFrom hf hp 0 OM.none

theorem om_sdDiff {fs : List (V3 ℝ → Option ℝ)} (hf : ∀ f ∈ fs, OM f) {p : α → V3 ℝ} (hp : Measurable p) (e : V3 ℝ) :
    OM fun a => sdDiff fs (p a) e := by
  have h : (fun a => sdDiff fs (p a) e) = fun a => (sdEvaluate fs (p a + e)).bind fun x =>
      (sdEvaluate fs (p a - e)).map fun y => x.1 - y.1 := by
    funext a
    unfold sdDiff
    cases sdEvaluate fs (p a + e) <;> cases sdEvaluate fs (p a - e) <;> rfl
  rw [h]
  refine (om_sdEvaluate hf (measurable_V3add hp measurable_const)).bind ?_
  have := om_sdEvaluate (α := α × ℝ × ℕ) hf (measurable_sub3 (hp.comp measurable_fst) (measurable_const (a := e)))
  exact this.map (g := fun q y => q.2.1 - y.1) (by fun_prop)

theorem om_normalized {v : α → V3 ℝ} (hv : Measurable v) : OM fun a => (v a).normalized := by
  unfold V3.normalized
  have hn := measurable_norm hv
  refine OM.ite (hn (measurableSet_singleton 0)) OM.none (OM.some ?_)
  apply measurable_of <;> dsimp only <;> fun_prop

theorem om_sdNormal {fs : List (V3 ℝ → Option ℝ)} (hf : ∀ f ∈ fs, OM f) {p : α → V3 ℝ} (hp : Measurable p) :
    OM fun a => sdNormal fs (p a) := by
  have h : (fun a => sdNormal fs (p a)) = fun a => (sdDiff fs (p a) ⟨eps, 0, 0⟩).bind fun dx =>
      (sdDiff fs (p a) ⟨0, eps, 0⟩).bind fun dy => (sdDiff fs (p a) ⟨0, 0, eps⟩).bind fun dz =>
        (if dx = dy ∧ dx = dz ∧ dx = 0 then (⟨0, 1, 0⟩ : V3 ℝ) else ⟨dx, dy, dz⟩).normalized := by
    funext a
    unfold sdNormal
    cases sdDiff fs (p a) ⟨eps, 0, 0⟩ <;> cases sdDiff fs (p a) ⟨0, eps, 0⟩ <;> cases sdDiff fs (p a) ⟨0, 0, eps⟩ <;> rfl
  rw [h]
  refine (om_sdDiff hf hp _).bind ((om_sdDiff hf (hp.comp measurable_fst) _).bind
    ((om_sdDiff hf (hp.comp (measurable_fst.comp measurable_fst)) _).bind ?_))
  refine om_normalized (Measurable.ite ?_ measurable_const ?_)
  · refine MeasurableSet.inter ?_ (MeasurableSet.inter ?_ ?_)
    · exact measurableSet_eq_fun (by fun_prop) (by fun_prop)
    · exact measurableSet_eq_fun (by fun_prop) (by fun_prop)
    · exact measurableSet_eq_fun (by fun_prop) (by fun_prop)
  · apply measurable_of <;> dsimp only <;> fun_prop

/-! ### Marching -/

/-- A hit as a tuple. -/
def tup (h : Hit) : ℝ × ℕ × V3 ℝ × V3 ℝ := (h.t, h.shape, h.normal, h.p)

/-- The hit a march ended with. -/
def ended : Res March → Option (ℝ × ℕ × V3 ℝ × V3 ℝ)
  | .ok (.hit h) => some (tup h)
  | _ => none

theorem om_march {fs : List (V3 ℝ → Option ℝ)} (hf : ∀ f ∈ fs, OM f) {r : α → Feign.Ray ℝ}
    (ho : Measurable fun a => (r a).origin) (hd : Measurable fun a => (r a).dir) {far : α → Ext ℝ}
    (hfar : ∀ t : α → ℝ, Measurable t → MeasurableSet {a | Ext.fin (t a) ≤ far a}) :
    ∀ (n : ℕ) {t : α → ℝ}, Measurable t → OM fun a => ended (march fs (r a) (far a) n (t a)) := by
  intro n
  induction n with
  | zero => intro t ht; exact OM.none
  | succ n ih =>
    intro t ht
    have hp : Measurable fun a => (r a).point (t a) := by
      unfold Feign.Ray.point
      exact measurable_V3add ho (measurable_V3smul hd ht)
    have hs := om_sdEvaluate hf hp
    have hn := om_sdNormal hf hp
    have hsd : Measurable fun a => ((sdEvaluate fs ((r a).point (t a))).getD (0, 0)) := hs.getD measurable_const
    have hnm : Measurable fun a => ((sdNormal fs ((r a).point (t a))).getD 0) := hn.getD measurable_const
    have e : (fun a => ended (march fs (r a) (far a) (n + 1) (t a))) = fun a =>
        if Ext.fin (t a) ≤ far a then
          if (sdEvaluate fs ((r a).point (t a))).isSome = true then
            if ((sdEvaluate fs ((r a).point (t a))).getD (0, 0)).1 ≤ eps then
              if (sdNormal fs ((r a).point (t a))).isSome = true then
                if ((sdNormal fs ((r a).point (t a))).getD 0).norm < eps then none
                else some (t a, ((sdEvaluate fs ((r a).point (t a))).getD (0, 0)).2,
                  (sdNormal fs ((r a).point (t a))).getD 0,
                  (r a).point (t a) + ((sdNormal fs ((r a).point (t a))).getD 0).smul eps)
              else none
            else ended (march fs (r a) (far a) n (t a + ((sdEvaluate fs ((r a).point (t a))).getD (0, 0)).1))
          else none
        else none := by
      funext a
      conv_lhs => unfold march
      by_cases h1 : Ext.fin (t a) ≤ far a
      · rw [if_pos h1, if_pos h1]
        dsimp only
        cases hse : sdEvaluate fs ((r a).point (t a)) with
        | none => rfl
        | some q =>
          obtain ⟨sd, idx⟩ := q
          simp only [Option.isSome_some, if_true, Option.getD_some]
          by_cases h2 : sd ≤ eps
          · rw [if_pos h2, if_pos h2]
            cases hno : sdNormal fs ((r a).point (t a)) with
            | none => rfl
            | some nv =>
              simp only [Option.isSome_some, if_true, Option.getD_some]
              by_cases h3 : nv.norm < eps
              · rw [if_pos h3, if_pos h3]; rfl
              · rw [if_neg h3, if_neg h3]; rfl
          · rw [if_neg h2, if_neg h2]
      · rw [if_neg h1, if_neg h1]; rfl
    rw [e]
    refine OM.ite (hfar t ht) (OM.ite hs.1 (OM.ite ?_ (OM.ite hn.1 (OM.ite ?_ OM.none (OM.some ?_)) OM.none)
      (ih (ht.add (measurable_fst.comp hsd)))) OM.none) OM.none
    · exact measurableSet_le (measurable_fst.comp hsd) measurable_const
    · exact measurableSet_lt (measurable_norm hnm) measurable_const
    · exact ht.prodMk ((measurable_snd.comp hsd).prodMk (hnm.prodMk
        (measurable_V3add hp (measurable_V3smul hnm measurable_const))))

/-! ### The box of the scene -/

/-- The extended reals of the box are those of Mathlib. -/
def er (x : Ext ℝ) : EReal := x

theorem er_fin (t : ℝ) : er (Ext.fin t) = (t : EReal) := rfl
theorem er_max (a b : Ext ℝ) : er (max a b) = max (er a) (er b) := rfl
theorem er_min (a b : Ext ℝ) : er (min a b) = min (er a) (er b) := rfl
theorem er_le (a b : Ext ℝ) : a ≤ b ↔ er a ≤ er b := Iff.rfl

/-- The state of the slab loop depends measurably on the argument. -/
def SlabM (s : α → Bool × Ext ℝ × Ext ℝ) : Prop :=
  MeasurableSet {a | (s a).1 = false} ∧ Measurable (fun a => er (s a).2.1) ∧ Measurable (fun a => er (s a).2.2)

theorem SlabM.ite {p : α → Prop} [DecidablePred p] {s s' : α → Bool × Ext ℝ × Ext ℝ} (hp : MeasurableSet {a | p a})
    (h : SlabM s) (h' : SlabM s') : SlabM fun a => if p a then s a else s' a := by
  refine ⟨?_, ?_, ?_⟩
  · have e : {a | (if p a then s a else s' a).1 = false} =
        ({a | p a} ∩ {a | (s a).1 = false}) ∪ ({a | p a}ᶜ ∩ {a | (s' a).1 = false}) := by
      ext a
      by_cases h : p a <;> simp [h]
    rw [e]
    exact (hp.inter h.1).union (hp.compl.inter h'.1)
  · have e : (fun a => er (if p a then s a else s' a).2.1) = fun a => if p a then er (s a).2.1 else er (s' a).2.1 := by
      funext a
      by_cases h : p a <;> simp [h]
    rw [e]
    exact Measurable.ite hp h.2.1 h'.2.1
  · have e : (fun a => er (if p a then s a else s' a).2.2) = fun a => if p a then er (s a).2.2 else er (s' a).2.2 := by
      funext a
      by_cases h : p a <;> simp [h]
    rw [e]
    exact Measurable.ite hp h.2.2 h'.2.2

theorem measurable_lo : Measurable fun q : ℝ × ℝ => if q.1 > q.2 then q.2 else q.1 :=
  Measurable.ite (measurableSet_lt measurable_snd measurable_fst) measurable_snd measurable_fst

theorem measurable_hi : Measurable fun q : ℝ × ℝ => if q.1 > q.2 then q.1 else q.2 :=
  Measurable.ite (measurableSet_lt measurable_snd measurable_fst) measurable_fst measurable_snd

theorem slabM_round {o d : α → ℝ} (ho : Measurable o) (hd : Measurable d) (mn mx : ℝ)
    {s : α → Bool × Ext ℝ × Ext ℝ} (h : SlabM s) : SlabM fun a => slabNF (o a) (d a) mn mx (s a) := by
  unfold slabNF
  have ht1 : Measurable fun a => (mn - o a) * (1 / d a) := by fun_prop
  have ht2 : Measurable fun a => (mx - o a) * (1 / d a) := by fun_prop
  have hlo := measurable_lo.comp (ht1.prodMk ht2)
  have hhi := measurable_hi.comp (ht1.prodMk ht2)
  have hn := (measurable_coe_real_ereal.comp hlo).max h.2.1
  have hf := (measurable_coe_real_ereal.comp hhi).min h.2.2
  refine SlabM.ite h.1 h (SlabM.ite (hd (measurableSet_singleton 0)) (SlabM.ite ?_ ⟨?_, h.2⟩ h) ⟨?_, ?_, ?_⟩)
  · exact (measurableSet_lt ho measurable_const).union (measurableSet_lt measurable_const ho)
  · simp
  · have := (measurableSet_le hn hf).compl
    convert this using 1
    ext a
    simp only [decide_eq_false_iff_not, er_le]
    rfl
  · exact hn
  · exact hf

theorem slabM_box {r : α → Feign.Ray ℝ} (ho : Measurable fun a => (r a).origin) (hd : Measurable fun a => (r a).dir)
    (b : B3 ℝ) : Measurable (fun a => er (boxNearFar b (r a)).1) ∧
      Measurable (fun a => er (boxNearFar b (r a)).2) := by
  have h0 : SlabM fun _ : α => ((true, ⊥, ⊤) : Bool × Ext ℝ × Ext ℝ) :=
    ⟨by simp, measurable_const, measurable_const⟩
  exact (slabM_round (measurable_z.comp ho) (measurable_z.comp hd) b.min.z b.max.z
    (slabM_round (measurable_y.comp ho) (measurable_y.comp hd) b.min.y b.max.y
      (slabM_round (measurable_x.comp ho) (measurable_x.comp hd) b.min.x b.max.x h0))).2

theorem startAt_eq (n : Ext ℝ) : startAt n = if (er n).toReal < eps then eps else (er n).toReal := by
  have he : (0 : ℝ) < eps := by norm_num [eps]
  match n with
  | none => show eps = if (0 : ℝ) < eps then eps else 0; rw [if_pos he]
  | some none => show eps = if (0 : ℝ) < eps then eps else 0; rw [if_pos he]
  | some (some t) => rfl

theorem measurable_startAt {n : α → Ext ℝ} (h : Measurable (fun a => er (n a))) : Measurable fun a => startAt (n a) := by
  have ht : Measurable fun a => (er (n a)).toReal := h.ereal_toReal
  have hm : Measurable fun t : ℝ => if t < eps then eps else t :=
    Measurable.ite measurableSet_Iio measurable_const measurable_id
  have e : (fun a => startAt (n a)) = fun a => (fun t : ℝ => if t < eps then eps else t) ((er (n a)).toReal) := by
    funext a; exact startAt_eq _
  rw [e]
  exact hm.comp ht

theorem om_intersect {fs : List (V3 ℝ → Option ℝ)} (hf : ∀ f ∈ fs, OM f) (box : Option (B3 ℝ)) {r : α → Feign.Ray ℝ}
    (ho : Measurable fun a => (r a).origin) (hd : Measurable fun a => (r a).dir) :
    OM fun a => ended (intersect fs box (r a)) := by
  cases box with
  | none => exact om_march hf ho hd (far := fun _ => ⊤) (fun t ht => by simp) 2000 measurable_const
  | some b =>
    obtain ⟨h1, h2⟩ := slabM_box ho hd b
    exact om_march hf ho hd (far := fun a => (boxNearFar b (r a)).2)
      (fun t ht => by simp only [er_le, er_fin]; exact measurableSet_le (measurable_coe_real_ereal.comp ht) h2) 2000 (measurable_startAt h1)

/-! ### Hits -/

theorem hitOf_tup (fs : List (V3 ℝ → Option ℝ)) (box : Option (B3 ℝ)) (r : Integrators.Ray) :
    (hitOf fs box r).map tup = ended (intersect fs box ⟨r.1, r.2, Ext.fin eps, ⊤⟩) := by
  unfold hitOf ended
  cases intersect fs box ⟨r.1, r.2, Ext.fin eps, ⊤⟩ with
  | ok m => cases m <;> rfl
  | throw e => rfl
  | ub e => rfl

theorem om_hit {fs : List (V3 ℝ → Option ℝ)} (hf : ∀ f ∈ fs, OM f) (box : Option (B3 ℝ)) :
    OM fun r : Integrators.Ray => (hitOf fs box r).map tup := by
  simp only [hitOf_tup]
  exact om_intersect hf box (r := fun r : Integrators.Ray => (⟨r.1, r.2, Ext.fin eps, ⊤⟩ : Feign.Ray ℝ))
    measurable_fst measurable_snd

/-- What is read off a hit. -/
theorem measurable_read {fs : List (V3 ℝ → Option ℝ)} (hf : ∀ f ∈ fs, OM f) (box : Option (B3 ℝ)) {β : Type}
    [MeasurableSpace β] {g : Integrators.Ray → Hit → β} {g' : Integrators.Ray × (ℝ × ℕ × V3 ℝ × V3 ℝ) → β}
    (hg : Measurable g') (e : ∀ r h, g r h = g' (r, tup h)) {d : Integrators.Ray → β} (hd : Measurable d) :
    Measurable fun r => ((hitOf fs box r).map (g r)).getD (d r) := by
  have := ((om_hit hf box).map (g := fun r h => g' (r, h)) hg).getD hd
  convert this using 2 with r
  cases hitOf fs box r with
  | none => rfl
  | some h => simp only [Option.map_some, Option.getD_some, e]

theorem measurable_cross3 {f g : α → V3 ℝ} (hf : Measurable f) (hg : Measurable g) :
    Measurable fun a => (f a).cross (g a) := by
  apply measurable_of <;> simp only [V3.cross] <;> fun_prop

theorem om_frame {n : α → V3 ℝ} (hn : Measurable n) :
    OM fun a => (Frame.coordinateSystem (n a)) := by
  unfold Frame.coordinateSystem
  have hx := measurable_x.comp hn
  have hy := measurable_y.comp hn
  have hz := measurable_z.comp hn
  have hl1 : Measurable fun a => Real.sqrt ((n a).x * (n a).x + (n a).z * (n a).z) := ((hx.mul hx).add (hz.mul hz)).sqrt
  have hl2 : Measurable fun a => Real.sqrt ((n a).y * (n a).y + (n a).z * (n a).z) := ((hy.mul hy).add (hz.mul hz)).sqrt
  dsimp only
  refine OM.ite (measurableSet_lt (continuous_abs.measurable.comp hy) (continuous_abs.measurable.comp hx))
    (OM.ite (hl1 (measurableSet_singleton 0)) OM.none (OM.some ?_))
    (OM.ite (hl2 (measurableSet_singleton 0)) OM.none (OM.some ?_))
  · have hc : Measurable fun a => (⟨(n a).z * (1 / Real.sqrt ((n a).x * (n a).x + (n a).z * (n a).z)), 0,
        -(n a).x * (1 / Real.sqrt ((n a).x * (n a).x + (n a).z * (n a).z))⟩ : V3 ℝ) :=
      measurable_of (hz.mul (measurable_const.div hl1)) measurable_const (hx.neg.mul (measurable_const.div hl1))
    exact (measurable_cross3 hc hn).prodMk hc
  · have hc : Measurable fun a => (⟨0, (n a).z * (1 / Real.sqrt ((n a).y * (n a).y + (n a).z * (n a).z)),
        -(n a).y * (1 / Real.sqrt ((n a).y * (n a).y + (n a).z * (n a).z))⟩ : V3 ℝ) :=
      measurable_of measurable_const (hz.mul (measurable_const.div hl2)) (hy.neg.mul (measurable_const.div hl2))
    exact (measurable_cross3 hc hn).prodMk hc

theorem frameOf_parts (n : V3 ℝ) : (frameOf n).s = ((Frame.coordinateSystem n).getD (0, 0)).1 ∧
    (frameOf n).t = ((Frame.coordinateSystem n).getD (0, 0)).2 ∧ (frameOf n).n = n := by
  unfold frameOf Frame.ofNormal
  cases Frame.coordinateSystem n <;> exact ⟨rfl, rfl, rfl⟩

theorem measurable_frameOf {n : α → V3 ℝ} (hn : Measurable n) : Measurable (fun a => (frameOf (n a)).s) ∧
    Measurable (fun a => (frameOf (n a)).t) ∧ Measurable (fun a => (frameOf (n a)).n) := by
  have h := (om_frame hn).getD (d := fun _ => (0, 0)) measurable_const
  refine ⟨?_, ?_, ?_⟩
  · simp only [(frameOf_parts _).1]; exact measurable_fst.comp h
  · simp only [(frameOf_parts _).2.1]; exact measurable_snd.comp h
  · simp only [(frameOf_parts _).2.2]; exact hn

end Feign.Sdf
