import Verif.Api.TransformCmd
import Verif.Math.MatrixProps

/-!
# C17: transform commands

The specification says what each command does to a point, without matrices.
-/

namespace Feign.Api

open Feign

/-- What a command does to a point of the scene (specification). Rotation by Rodrigues' formula; the sign
of the last term is the direction of `rotate_direction`. -/
noncomputable def TCmd.act : TCmd → V3 ℝ → V3 ℝ
  | .clear, p => p
  | .scale v, p => ⟨v.x * p.x, v.y * p.y, v.z * p.z⟩
  | .translate v, p => ⟨p.x + v.x, p.y + v.y, p.z + v.z⟩
  | .rotate a v, p =>
    let u := v.smul (1 / v.norm)
    p.smul (Real.cos (a * Real.pi / 180)) + u.smul (u.dot p * (1 - Real.cos (a * Real.pi / 180))) -
      (u.cross p).smul (Real.sin (a * Real.pi / 180))

/-- Commands with finite inverse: no zero scale factor, no zero axis. -/
def TCmd.Proper : TCmd → Prop
  | .scale v => v.x ≠ 0 ∧ v.y ≠ 0 ∧ v.z ≠ 0
  | .rotate _ v => v ≠ 0
  | _ => True

/-- The commands after the last `clear` (specification). -/
def sinceClear : List TCmd → List TCmd
  | [] => []
  | c :: cs => if cs.any (fun d => match d with | .clear => true | _ => false) then sinceClear cs
    else match c with
      | .clear => cs
      | _ => c :: cs

/-- Apply commands to a point, first command first. -/
noncomputable def actAll (cs : List TCmd) (p : V3 ℝ) : V3 ℝ := cs.foldl (fun q c => c.act q) p

open Classical in
theorem xf_spec (c : TCmd) (h : c.Proper) :
    ∃ t, c.xf = some t ∧ t.Valid ∧ t.Aff ∧ ∀ p, t.point p = some (c.act p) := by
  have build : ∀ m : M4 ℝ, m.det ≠ 0 → m.Affine →
      ∃ t, Xf.ofMatrix m = some t ∧ t.mat = m ∧ t.Valid ∧ t.Aff := by
    intro m hd ha
    have e : Xf.ofMatrix m = some ⟨m, m.inverseEntries⟩ := by
      unfold Xf.ofMatrix M4.inverse
      rw [if_neg hd]; rfl
    obtain ⟨-, hv⟩ := Xf.valid_ofMatrix m _ e
    exact ⟨_, e, rfl, hv, Xf.aff_of_valid _ hv ha⟩
  cases c with
  | clear =>
    refine ⟨Xf.one, rfl, Xf.valid_one, ⟨M4.Affine.one, M4.Affine.one⟩, fun p => ?_⟩
    exact Xf.one_point p _ rfl
  | scale v =>
    obtain ⟨h1, h2, h3⟩ := h
    obtain ⟨t, e, em, hv, ha⟩ := build (M4.scale v)
      (by
        have : (M4.scale v).det = v.x * v.y * v.z := by simp only [M4.scale, M4.det]; ring
        rw [this]; exact mul_ne_zero (mul_ne_zero h1 h2) h3)
      ⟨rfl, rfl, rfl, rfl⟩
    refine ⟨t, e, hv, ha, fun p => ?_⟩
    rw [Xf.point_affine t ha.1]
    congr 1
    ext <;> simp only [Xf.vec, em, M4.scale, M4.topLeft, M3.mulVec, TCmd.act, V3.add_x, V3.add_y,
      V3.add_z] <;> ring
  | translate v =>
    obtain ⟨t, e, em, hv, ha⟩ := build (M4.translate v)
      (by
        have : (M4.translate v).det = 1 := by simp only [M4.translate, M4.det]; ring
        rw [this]; exact one_ne_zero)
      ⟨rfl, rfl, rfl, rfl⟩
    refine ⟨t, e, hv, ha, fun p => ?_⟩
    rw [Xf.point_affine t ha.1]
    congr 1
    ext <;> simp only [Xf.vec, em, M4.translate, M4.topLeft, M3.mulVec, TCmd.act, V3.add_x, V3.add_y,
      V3.add_z] <;> ring
  | rotate a v =>
    obtain ⟨u, hu, hu1, hu2⟩ := V3.normalized_spec v h
    have hm : M4.rotate a v = some (M4.rotateCS (Real.cos (a * Real.pi / 180))
        (Real.sin (a * Real.pi / 180)) u) := by unfold M4.rotate; rw [hu]; rfl
    obtain ⟨-, -, hdet, haff⟩ := rotateCS_rigid (Real.cos (a * Real.pi / 180))
      (Real.sin (a * Real.pi / 180)) u
      (by have := Real.cos_sq_add_sin_sq (a * Real.pi / 180); nlinarith) hu1
    obtain ⟨t, e, em, hv, ha⟩ := build _ (by rw [hdet]; exact one_ne_zero) haff
    refine ⟨t, by simp only [TCmd.xf, hm, Option.bind_some]; exact e, hv, ha, fun p => ?_⟩
    have hn : v.norm ≠ 0 := fun e => h ((V3.norm_eq_zero v).mp e)
    have huv : v.smul (1 / v.norm) = u := by
      rw [← hu2]
      have hn2 : (u.smul v.norm).norm = v.norm := by rw [hu2]
      rw [hn2]
      ext <;> simp only [V3.smul_x, V3.smul_y, V3.smul_z] <;> field_simp
    rw [Xf.point_affine t ha.1]
    congr 1
    have hz : (⟨t.mat.n3, t.mat.n7, t.mat.n11⟩ : V3 ℝ) = ⟨0, 0, 0⟩ := by rw [em]; rfl
    rw [hz]
    unfold Xf.vec
    rw [em, rotateCS_vec]
    simp only [TCmd.act, huv]
    ext <;> simp

/-- Histories from any valid start. -/
theorem runT_spec (cs : List TCmd) (h : ∀ c ∈ cs, c.Proper) (hclear : ∀ c ∈ cs, c ≠ .clear) :
    ∀ cur : Xf ℝ, cur.Valid → cur.Aff → ∃ t, runT cur cs = some t ∧ t.Valid ∧ t.Aff ∧
      ∀ p q, cur.point p = some q → t.point p = some (actAll cs q) := by
  induction cs with
  | nil => intro cur hv ha; exact ⟨cur, rfl, hv, ha, fun p q hq => hq⟩
  | cons c cs ih =>
    intro cur hv ha
    obtain ⟨x, ex, xv, xa, xp⟩ := xf_spec c (h c (by simp))
    have hstep : stepT cur c = some (x.mul cur) := by
      cases c with
      | clear => exact absurd rfl (hclear .clear (by simp))
      | scale v => simp only [stepT, ex, Option.map_some]
      | translate v => simp only [stepT, ex, Option.map_some]
      | rotate a v => simp only [stepT, ex, Option.map_some]
    obtain ⟨t, et, tv, ta, tp⟩ := ih (fun d hd => h d (by simp [hd])) (fun d hd => hclear d (by simp [hd]))
      (x.mul cur) (Xf.valid_mul _ _ xv hv) (Xf.aff_mul _ _ xa ha)
    refine ⟨t, by simp only [runT, hstep, Option.bind_some, et], tv, ta, fun p q hq => ?_⟩
    have := tp p (c.act q) (by rw [Xf.mul_point x cur p q hq, xp])
    rw [this]; rfl

/-- The last `clear` forgets everything before it. -/
theorem runT_append (cur : Xf ℝ) (a b : List TCmd) :
    runT cur (a ++ b) = (runT cur a).bind fun t => runT t b := by
  induction a generalizing cur with
  | nil => rfl
  | cons c cs ih =>
    simp only [List.cons_append, runT]
    cases stepT cur c with
    | none => rfl
    | some t => simp only [Option.bind_some]; exact ih t

theorem sinceClear_spec (cs : List TCmd) :
    (∀ c ∈ sinceClear cs, c ≠ .clear) ∧
    (sinceClear cs = cs ∨ ∃ pre, cs = pre ++ .clear :: sinceClear cs) := by
  induction cs with
  | nil => exact ⟨by simp [sinceClear], Or.inl rfl⟩
  | cons c cs ih =>
    unfold sinceClear
    split_ifs with hany
    · refine ⟨ih.1, Or.inr ?_⟩
      rcases ih.2 with h | ⟨pre, h⟩
      · exfalso
        rw [List.any_eq_true] at hany
        obtain ⟨d, hd, hd'⟩ := hany
        cases d with
        | clear => exact ih.1 .clear (by rw [h]; exact hd) rfl
        | _ => simp at hd'
      · exact ⟨c :: pre, by rw [List.cons_append, ← h]⟩
    · have hno : ∀ d ∈ cs, d ≠ .clear := by
        intro d hd e
        apply hany
        rw [List.any_eq_true]
        exact ⟨d, hd, by rw [e]⟩
      cases c with
      | clear => exact ⟨hno, Or.inr ⟨[], rfl⟩⟩
      | scale v =>
        refine ⟨fun d hd => ?_, Or.inl rfl⟩
        rcases List.mem_cons.mp hd with rfl | hd
        · simp
        · exact hno d hd
      | translate v =>
        refine ⟨fun d hd => ?_, Or.inl rfl⟩
        rcases List.mem_cons.mp hd with rfl | hd
        · simp
        · exact hno d hd
      | rotate a v =>
        refine ⟨fun d hd => ?_, Or.inl rfl⟩
        rcases List.mem_cons.mp hd with rfl | hd
        · simp
        · exact hno d hd

/-- **C17.** After any history of commands (no zero scale factor, no zero axis) the current transform
exists, its stored inverse is its exact two-sided inverse, and it maps a point by applying the commands
since the last `clear` one after the other, the latest last. -/
theorem transform_history (cs : List TCmd) (h : ∀ c ∈ cs, c.Proper) :
    ∃ t, runT Xf.one cs = some t ∧ t.Valid ∧ t.Aff ∧
      ∀ p, t.point p = some (actAll (sinceClear cs) p) := by
  obtain ⟨hs, hd⟩ := sinceClear_spec cs
  have start := fun l hl hc => runT_spec l hl hc Xf.one Xf.valid_one ⟨M4.Affine.one, M4.Affine.one⟩
  rcases hd with e | ⟨pre, e⟩
  · obtain ⟨t, et, tv, ta, tp⟩ := start cs h (by rw [← e]; exact hs)
    exact ⟨t, et, tv, ta, fun p => by rw [e]; exact tp p p (Xf.one_point p _ rfl)⟩
  · obtain ⟨t, et, tv, ta, tp⟩ := start (sinceClear cs)
      (fun c hc => h c (by rw [e]; simp [hc])) hs
    refine ⟨t, ?_, tv, ta, fun p => tp p p (Xf.one_point p _ rfl)⟩
    have hpre : ∀ c ∈ pre, c.Proper := fun c hc => h c (by rw [e]; simp [hc])
    have hgen : ∀ (l : List TCmd), (∀ c ∈ l, c.Proper) → ∀ cur : Xf ℝ, ∃ t, runT cur l = some t := by
      intro l
      induction l with
      | nil => intro _ cur; exact ⟨cur, rfl⟩
      | cons c l ih =>
        intro hl cur
        obtain ⟨x, ex, -⟩ := xf_spec c (hl c (by simp))
        have : ∃ t, stepT cur c = some t := by
          cases c with
          | clear => exact ⟨_, rfl⟩
          | scale v => exact ⟨x.mul cur, by simp only [stepT, ex, Option.map_some]⟩
          | translate v => exact ⟨x.mul cur, by simp only [stepT, ex, Option.map_some]⟩
          | rotate a v => exact ⟨x.mul cur, by simp only [stepT, ex, Option.map_some]⟩
        obtain ⟨t, et⟩ := this
        obtain ⟨t', et'⟩ := ih (fun d hd => hl d (by simp [hd])) t
        exact ⟨t', by simp only [runT, et, Option.bind_some, et']⟩
    obtain ⟨s, es⟩ := hgen pre hpre Xf.one
    rw [e, runT_append, es]
    simp only [Option.bind_some, runT, stepT]
    exact et

/-- A zero scale factor or a zero axis leaves no finite transform. -/
theorem transform_history_improper (cs : List TCmd) (c : TCmd) (rest : List TCmd) (hc : ¬ c.Proper) :
    runT Xf.one (cs ++ c :: rest) = none := by
  have hx : ∀ cur, stepT cur c = none := by
    intro cur
    cases c with
    | clear => exact absurd trivial hc
    | translate v => exact absurd trivial hc
    | scale v =>
      have hd : (M4.scale v).det = 0 := by
        have : (M4.scale v).det = v.x * v.y * v.z := by simp only [M4.scale, M4.det]; ring
        rw [this]
        by_contra hne
        apply hc
        simp only [TCmd.Proper]
        refine ⟨?_, ?_, ?_⟩ <;> intro h0 <;> apply hne <;> rw [h0] <;> ring
      simp [stepT, TCmd.xf, Xf.ofMatrix, M4.inverse, hd]
    | rotate a v =>
      have : v = 0 := by
        by_contra h0
        exact hc h0
      simp [stepT, TCmd.xf, (rotate_rigid a v).2 this]
  rw [runT_append]
  cases runT Xf.one cs with
  | none => rfl
  | some t => simp only [Option.bind_some, runT, hx, Option.bind_none]

/-- Non-vacuity: scale then translate; the order matters. -/
example : actAll (sinceClear [.translate ⟨9, 9, 9⟩, .clear, .scale ⟨2, 2, 2⟩, .translate ⟨1, 0, 0⟩])
      ⟨1, 1, 1⟩ = ⟨3, 2, 2⟩ ∧
    actAll (sinceClear [.clear, .translate ⟨1, 0, 0⟩, .scale ⟨2, 2, 2⟩]) ⟨1, 1, 1⟩ = ⟨4, 2, 2⟩ := by
  constructor
  · ext <;> norm_num [sinceClear, actAll, TCmd.act]
  · ext <;> norm_num [sinceClear, actAll, TCmd.act]

end Feign.Api
