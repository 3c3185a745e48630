import Verif.Turned.Lemmas
import Verif.Integrators.LitLemmas
import Verif.Integrators.LeftLemmas
import Verif.Camera.PerspectiveProps

/-!
# Turned scenes: lemmas about lights, cameras and paths
-/

set_option linter.unusedSectionVars false
set_option linter.unusedSimpArgs false

namespace Feign
open V3

namespace Lights
open Shapes Sampling
variable {Q : Frame}

/-- A result of `sample_nee`, turned. -/
def turnedSample (Q : Frame) : Res (Option LightSample) → Res (Option LightSample)
  | .ok x => .ok (x.map (LightSample.turned Q))
  | .throw e => .throw e
  | .ub e => .ub e

theorem areaSample_turned (h : Q.Orthonormal) (I p q n : V3 ℝ) (a : ℝ) :
    areaSample I (Q.toWorld p) (Q.toWorld q) (Q.toWorld n) a = (areaSample I p q n a).map (LightSample.turned Q) := by
  unfold areaSample
  rw [← turn_sub, turn_normalized h, turn_sqrNorm h]
  cases (q - p).normalized with
  | none => rfl
  | some wi =>
    simp only [Option.map_some]
    rw [← turn_neg, turn_dot h]
    by_cases hc : (-wi).dot n ≤ eps
    · rw [if_pos hc, if_pos hc]; rfl
    · rw [if_neg hc, if_neg hc]; rfl

theorem meshSample_turned (h : Q.Rotation) (I : V3 ℝ) (m : Mesh ℝ) (cdf : List ℝ) (p : V3 ℝ) (u : V2 ℝ) :
    meshSample I (m.turned Q) cdf (Q.toWorld p) u = turnedSample Q (meshSample I m cdf p u) := by
  unfold meshSample
  cases sampleReusePdf cdf u.x with
  | ok x =>
    show (getAt m.tris x.1 >>= _) = turnedSample Q (getAt m.tris x.1 >>= _)
    cases getAt m.tris x.1 with
    | ok f =>
      show ((m.turned Q).corners f >>= _) = turnedSample Q (m.corners f >>= _)
      rw [corners_turned]
      cases m.corners f with
      | ok c =>
        show ((m.turned Q).shadingNormal f _ _ >>= _) = turnedSample Q (m.shadingNormal f _ _ >>= _)
        rw [shadingNormal_turned h]
        cases m.shadingNormal f (Warp.uniTri ⟨x.2.1, u.y⟩).x (Warp.uniTri ⟨x.2.1, u.y⟩).y with
        | ok n =>
          cases n with
          | none => rfl
          | some n =>
            show (if triArea (Q.toWorld c.1) (Q.toWorld c.2.1) (Q.toWorld c.2.2) = 0 then Res.ok none else
              Res.ok (areaSample I (Q.toWorld p) (hitPoint (Q.toWorld c.1) (Q.toWorld c.2.1) (Q.toWorld c.2.2) _ _) (Q.toWorld n)
                (1 / triArea (Q.toWorld c.1) (Q.toWorld c.2.1) (Q.toWorld c.2.2) * x.2.2))) = turnedSample Q
              (if triArea c.1 c.2.1 c.2.2 = 0 then Res.ok none else Res.ok (areaSample I p
              (hitPoint c.1 c.2.1 c.2.2 _ _) n (1 / triArea c.1 c.2.1 c.2.2 * x.2.2)))
            rw [triArea_turned h.rigid]
            by_cases h0 : triArea c.1 c.2.1 c.2.2 = 0
            · rw [if_pos h0, if_pos h0]; rfl
            · rw [if_neg h0, if_neg h0, hitPoint_turned, areaSample_turned h.rigid]; rfl
        | throw e => rfl
        | ub e => rfl
      | throw e => rfl
      | ub e => rfl
    | throw e => rfl
    | ub e => rfl
  | throw e => rfl
  | ub e => rfl

theorem sampleNee_turned (h : Q.Rotation) (p : V3 ℝ) (u : V2 ℝ) (l : Light) :
    (l.turned Q).sampleNee (Q.toWorld p) u = turnedSample Q (l.sampleNee p u) := by
  cases l with
  | point I pos =>
    simp only [Light.turned, Light.sampleNee, ← turn_sub, turn_normalized h.rigid, turn_sqrNorm h.rigid, turnedSample]
    cases (pos - p).normalized <;> rfl
  | spot pos dir rad c =>
    simp only [Light.turned, Light.sampleNee, ← turn_sub, turn_normalized h.rigid, turnedSample]
    cases (pos - p).normalized with
    | none => rfl
    | some wi =>
      simp only [Option.map_some, ← turn_neg, turn_dot h.rigid]
      rfl
  | directional dir rad => rfl
  | mesh I inst m cdf => exact meshSample_turned h I m cdf p u
  | dirMesh dir I inst =>
    show Res.ok (some (⟨-Q.toWorld dir, none, I, 1⟩ : LightSample)) = Res.ok (some ⟨Q.toWorld (-dir), none, I, 1⟩)
    rw [turn_neg]
  | environment I => rfl

theorem initialCheck_turned (h : Q.Orthonormal) {w w' : World} (hw : w.TurnedTo Q w') (p : V3 ℝ) (l : Light) (s : LightSample) :
    initialCheck w' (Q.toWorld p) (l.turned Q) (s.turned Q) = (initialCheck w p l s).map (LightSample.turned Q) := by
  have hn : (l.turned Q).needsCheck = l.needsCheck := by cases l <;> rfl
  have hm : (l.turned Q).meshNode = l.meshNode := by cases l <;> rfl
  unfold initialCheck
  rw [hn, hm]
  by_cases hc : l.needsCheck = true
  · rw [if_pos hc, if_pos hc]
    show (match w'.first (Q.toWorld s.wi) with | some (m, q) => _ | none => _) = _
    rw [hw.first]
    cases w.first s.wi with
    | none => rfl
    | some a =>
      obtain ⟨m, q⟩ := a
      show (if l.meshNode = some m then
        if (Q.toWorld q - Q.toWorld p).sqrNorm = 0 then none else some _ else some _) = Option.map _ (if l.meshNode = some m then _ else _)
      rw [← turn_sub, turn_sqrNorm h]
      by_cases hm : l.meshNode = some m
      · rw [if_pos hm, if_pos hm]
        by_cases h0 : (q - p).sqrNorm = 0
        · rw [if_pos h0, if_pos h0]; rfl
        · rw [if_neg h0, if_neg h0]; rfl
      · rw [if_neg hm, if_neg hm]; rfl
  · rw [if_neg hc, if_neg hc]; rfl

theorem checkedSample_turned (h : Q.Rotation) {w w' : World} (hw : w.TurnedTo Q w') (p : V3 ℝ) (l : Light) (u : V2 ℝ) :
    checkedSample w' (Q.toWorld p) (l.turned Q) u = turnedSample Q (checkedSample w p l u) := by
  unfold checkedSample
  rw [sampleNee_turned h]
  cases l.sampleNee p u with
  | ok s =>
    cases s with
    | none => rfl
    | some s =>
      show Res.ok (initialCheck w' (Q.toWorld p) (l.turned Q) (s.turned Q)) = Res.ok ((initialCheck w p l s).map (LightSample.turned Q))
      rw [initialCheck_turned h.rigid hw]
  | throw e => rfl
  | ub e => rfl

/-- An outcome for one light, turned. -/
noncomputable def turnedEval (Q f f' : Frame) : Res LightEval → Res LightEval
  | .ok x => .ok (x.turned Q f f')
  | .throw e => .throw e
  | .ub e => .ub e

theorem lightEval_turned (h : Q.Rotation) {w w' : World} (hw : w.TurnedTo Q w') {sp sp' : Spot} (hs : sp.TurnedTo Q sp')
    (ho : sp.frame.Orthonormal) (n : V3 ℝ) (inMedia : Bool) (c : ℝ) (l : Light) (u : V2 ℝ) :
    lightEval w' sp' (Q.toWorld n) inMedia c (l.turned Q) u = turnedEval Q sp.frame sp'.frame (lightEval w sp n inMedia c l u) := by
  rw [lightEval_checked, lightEval_checked, hs.p, checkedSample_turned h hw]
  cases checkedSample w sp.p l u with
  | ok s =>
    cases s with
    | none => rfl
    | some s =>
      obtain ⟨wi, sd, v, pdf⟩ := s
      cases sd with
      | none => rfl
      | some d2 =>
        let F : Bool → Bool × V3 ℝ → ℝ → V3 ℝ → Res LightEval := fun ig x k d => if x.1 && !ig then pure .hidden else
          pure (.seen d (if pdf = 0 then 0 else
            ((if inMedia then v else v.smul (cosTerm k)).smul (1 / (c * pdf))) * x.2))
        show F w'.ignoreShadows (w'.shadow (Q.toWorld wi) (Real.sqrt d2 - eps)) ((Q.toWorld n).dot (Q.toWorld wi))
            (sp'.frame.toLocal (Q.toWorld wi)) =
          turnedEval Q sp.frame sp'.frame (F w.ignoreShadows (w.shadow wi (Real.sqrt d2 - eps)) (n.dot wi) (sp.frame.toLocal wi))
        rw [hw.shadow, hw.ignore, turn_dot h.rigid]
        show (if _ then _ else _) = turnedEval Q sp.frame sp'.frame (if _ then _ else _)
        by_cases hh : ((w.shadow wi (Real.sqrt d2 - eps)).1 && !w.ignoreShadows) = true
        · rw [if_pos hh, if_pos hh]; rfl
        · rw [if_neg hh, if_neg hh]
          show Res.ok (LightEval.seen (sp'.frame.toLocal (Q.toWorld wi)) _) =
            Res.ok (LightEval.seen (sp'.frame.toLocal (Q.toWorld (sp.frame.toWorld (sp.frame.toLocal wi)))) _)
          rw [Frame.toWorld_toLocal _ ho]
  | throw e => rfl
  | ub e => rfl

theorem infos_turned (ls : List Light) :
    ((ls.map (Light.turned Q)).map fun l => (⟨l.meshNode⟩ : LightInfo)) = ls.map fun l => ⟨l.meshNode⟩ := by
  rw [List.map_map]
  congr 1
  funext l
  cases l <;> rfl

theorem evalOne_turned (h : Q.Rotation) {w w' : World} (hw : w.TurnedTo Q w') {sp sp' : Spot} (hs : sp.TurnedTo Q sp')
    (ho : sp.frame.Orthonormal) (inMedia : Bool) (ls : List Light) (c : ℝ) (u : V2 ℝ) :
    evalOne w' sp' inMedia (ls.map (Light.turned Q)) c u = turnedEvals Q sp.frame sp'.frame (evalOne w sp inMedia ls c u) := by
  unfold evalOne
  rw [infos_turned, hs.inst]
  cases chooseEmitter (ls.map fun l => (⟨l.meshNode⟩ : LightInfo)) sp.inst c with
  | ok x =>
    obtain ⟨i, pdf⟩ := x
    cases i with
    | none => rfl
    | some i =>
      cases pdf with
      | none => rfl
      | some pdf =>
        show (getAt (ls.map (Light.turned Q)) i >>= _) = turnedEvals Q sp.frame sp'.frame (getAt ls i >>= _)
        have h2 : getAt (ls.map (Light.turned Q)) i = (getAt ls i >>= fun l => .ok (l.turned Q)) := by
          unfold getAt
          by_cases hi : (i : Int) < 0
          · rw [if_pos hi, if_pos hi]; rfl
          · rw [if_neg hi, if_neg hi, List.getElem?_map]
            cases ls[(i : Int).toNat]? <;> rfl
        rw [h2]
        cases getAt ls i with
        | ok l =>
          show (lightEval w' sp' sp'.frame.n inMedia pdf (l.turned Q) u >>= _) =
            turnedEvals Q sp.frame sp'.frame (lightEval w sp sp.frame.n inMedia pdf l u >>= _)
          rw [hs.normal, lightEval_turned h hw hs ho]
          cases lightEval w sp sp.frame.n inMedia pdf l u <;> rfl
        | throw e => rfl
        | ub e => rfl
  | throw e => rfl
  | ub e => rfl

theorem evalAll_turned (h : Q.Rotation) {w w' : World} (hw : w.TurnedTo Q w') {sp sp' : Spot} (hs : sp.TurnedTo Q sp')
    (ho : sp.frame.Orthonormal) (inMedia : Bool) (ls : List Light) : ∀ us : List (V2 ℝ),
    evalAll w' sp' inMedia (ls.map (Light.turned Q)) us = turnedEvals Q sp.frame sp'.frame (evalAll w sp inMedia ls us) := by
  induction ls with
  | nil => intro us; cases us <;> rfl
  | cons l ls ih =>
    intro us
    cases us with
    | nil => rfl
    | cons u us =>
      show (lightEval w' sp' sp'.gn inMedia 1 (l.turned Q) u >>= fun e =>
        evalAll w' sp' inMedia (ls.map (Light.turned Q)) us >>= fun es => Res.ok (e :: es)) =
        turnedEvals Q sp.frame sp'.frame (lightEval w sp sp.gn inMedia 1 l u >>= fun e =>
          evalAll w sp inMedia ls us >>= fun es => Res.ok (e :: es))
      rw [hs.gn, lightEval_turned h hw hs ho, ih]
      cases lightEval w sp sp.gn inMedia 1 l u with
      | ok e => cases evalAll w sp inMedia ls us <;> rfl
      | throw e => rfl
      | ub e => rfl

theorem faceAreas_turned (h : Q.Orthonormal) (m : Mesh ℝ) (fs : List Face) : faceAreas (m.turned Q) fs = faceAreas m fs := by
  induction fs with
  | nil => rfl
  | cons f fs ih =>
    unfold faceAreas
    rw [corners_turned, ih]
    cases m.corners f with
    | ok c =>
      show (faceAreas m fs >>= fun rest => Res.ok (triArea (Q.toWorld c.1) (Q.toWorld c.2.1) (Q.toWorld c.2.2) :: rest)) = _
      rw [triArea_turned h]
      rfl
    | throw e => rfl
    | ub e => rfl

end Lights

/-! ## Paths -/

namespace Integrators
open Sampling Lights Bsdf MeasureTheory Warp
open scoped ENNReal
variable {Q : Frame} {S S' : Room}

theorem turned_front (hQ : Q.Orthonormal) (h : TurnedRoom Q S S') (r : Ray) : (S'.wi (turnedRay Q r)).z = (S.wi r).z := by
  show (-(Q.toWorld r.2)).dot (S'.frame (turnedRay Q r)).n = (-r.2).dot (S.frame r).n
  rw [h.normal, ← turn_neg, turn_dot hQ]

theorem diffuseEval_congr (a : V3 ℝ) {wi wi' wo wo' : V3 ℝ} (h : wi'.z = wi.z) (h2 : wo'.z = wo.z) :
    diffuseEval a wi' wo' = diffuseEval a wi wo := by
  unfold diffuseEval
  rw [h, h2]

theorem lampLight_turned (hQ : Q.Rotation) (h : TurnedRoom Q S S') (ho : ∀ r, (S.frame r).Orthonormal) (lamps : List Lamp)
    {blocked blocked' : Blocked} (hb : ∀ p d L, blocked' (Q.toWorld p) (Q.toWorld d) L = blocked p d L) (r : Ray) (ω : Stream) :
    lampLight S' (lamps.map (turnedLamp Q)) blocked' (turnedRay Q r) ω = lampLight S lamps blocked r ω := by
  unfold lampLight
  rw [List.length_map, h.point, h.albedo]
  have hq : Lights.World.TurnedTo Q (queries blocked (S.point r)) (queries blocked' (Q.toWorld (S.point r))) :=
    ⟨fun _ => rfl, fun d L => by simp only [queries, hb], rfl⟩
  have hl : ((lamps.map (turnedLamp Q)).map fun l => Lights.Light.point l.1 l.2) =
      (lamps.map fun l => Lights.Light.point l.1 l.2).map (Lights.Light.turned Q) := by
    rw [List.map_map, List.map_map]
    rfl
  have hs : Spot.TurnedTo Q ⟨S.point r, (S.frame r).n, S.frame r, 0⟩
      ⟨Q.toWorld (S.point r), (S'.frame (turnedRay Q r)).n, S'.frame (turnedRay Q r), 0⟩ :=
    ⟨rfl, h.normal r, h.normal r, rfl⟩
  rw [hl, evalOne_turned hQ hq hs (ho r)]
  by_cases hn : lamps.length = 0
  · rw [if_pos hn, if_pos hn]
  · rw [if_neg hn, if_neg hn]
    cases evalOne (queries blocked (S.point r)) ⟨S.point r, (S.frame r).n, S.frame r, 0⟩ false
        (lamps.map fun l => .point l.1 l.2) (next ω).1 ⟨(next2 (next ω).2).1.1, (next2 (next ω).2).1.2⟩ with
    | ok es =>
      show (_, _) = (_, _)
      congr 1
      rw [List.map_map]
      apply List.map_congr_left
      intro e _
      cases e with
      | nan => exact congrArg (ShadowRay.mk _ _) (diffuseEval_congr _ (turned_front hQ.rigid h r) rfl)
      | hidden => exact congrArg (ShadowRay.mk _ _) (diffuseEval_congr _ (turned_front hQ.rigid h r) rfl)
      | seen d v =>
        have hd : ((S'.frame (turnedRay Q r)).toLocal (Q.toWorld ((S.frame r).toWorld d))).z = d.z := by
          show (Q.toWorld ((S.frame r).toWorld d)).dot (S'.frame (turnedRay Q r)).n = d.z
          rw [h.normal, turn_dot hQ.rigid, ← normal_toWorld (ho r)]
          simp only [V3.dot]
          ring
        exact congrArg (ShadowRay.mk true v) (diffuseEval_congr _ (turned_front hQ.rigid h r) hd)
    | throw e => rfl
    | ub e => rfl

end Integrators
end Feign
