import Verif.Moved.Lemmas
import Verif.Integrators.Left
import Verif.Image.Shoot

/-!
# Moving a scene: meshes, lights, camera and paths, lemmas
-/

set_option linter.unusedSectionVars false

namespace Feign
open V3

/-! ## Meshes -/

namespace Shapes
variable {K : Type} [Field K]

theorem readAt_map {α β : Type} (f : α → β) (l : List α) (i : ℕ) :
    readAt (l.map f) i = (readAt l i >>= fun a => .ok (f a)) := by
  unfold readAt
  rw [List.getElem?_map]
  cases l[i]? <;> rfl

theorem corners_moved [LinearOrder K] (v : V3 K) (m : Mesh K) (f : Face) :
    (m.moved v).corners f = (m.corners f >>= fun c => .ok (c.1 + v, c.2.1 + v, c.2.2 + v)) := by
  unfold Mesh.corners Mesh.moved
  simp only [readAt_map]
  cases readAt m.vs (f.v 0) with
  | ok a =>
    cases readAt m.vs (f.v 1) with
    | ok b => cases readAt m.vs (f.v 2) <;> rfl
    | throw e => rfl
    | ub e => rfl
  | throw e => rfl
  | ub e => rfl

theorem triTest_moved [LinearOrder K] (v p0 p1 p2 : V3 K) (r : Ray K) :
    triTest (p0 + v) (p1 + v) (p2 + v) (r.moved v) = triTest p0 p1 p2 r := by
  unfold triTest Ray.moved
  simp only [moved_sub]

theorem hitPoint_moved (v p0 p1 p2 : V3 K) (a b : K) :
    hitPoint (p0 + v) (p1 + v) (p2 + v) a b = hitPoint p0 p1 p2 a b + v := by
  unfold hitPoint
  ext <;> simp only [add_x, add_y, add_z, smul_x, smul_y, smul_z] <;> ring

theorem intersectFrom_moved [LinearOrder K] (v : V3 K) (m : Mesh K) (fs : List Face) : ∀ i (r : Ray K) best,
    (m.moved v).intersectFrom fs i (r.moved v) best = m.intersectFrom fs i r best := by
  induction fs with
  | nil => intro i r best; rfl
  | cons f fs ih =>
    intro i r best
    unfold Mesh.intersectFrom
    rw [corners_moved]
    cases m.corners f with
    | ok c =>
      obtain ⟨p0, p1, p2⟩ := c
      show (match triTest (p0 + v) (p1 + v) (p2 + v) (r.moved v) with
        | some h => _
        | none => _) = _
      rw [triTest_moved]
      show _ = (match triTest p0 p1 p2 r with
        | some h => _
        | none => _)
      cases triTest p0 p1 p2 r with
      | none => exact ih _ _ _
      | some h => exact ih _ { r with far := Ext.fin h.t } _
    | throw e => rfl
    | ub e => rfl

theorem shadingNormal_moved (v : V3 ℝ) (m : Mesh ℝ) (f : Face) (a b : ℝ) :
    (m.moved v).shadingNormal f a b = m.shadingNormal f a b := by
  unfold Mesh.shadingNormal
  show (if m.ns.length > 0 then _ else _) = _
  by_cases h : m.ns.length > 0
  · rw [if_pos h, if_pos h]; rfl
  · rw [if_neg h, if_neg h, corners_moved]
    cases m.corners f with
    | ok c =>
      show Res.ok (geomNormal (c.1 + v) (c.2.1 + v) (c.2.2 + v)) = Res.ok (geomNormal c.1 c.2.1 c.2.2)
      unfold geomNormal
      rw [moved_sub, moved_sub]
    | throw e => rfl
    | ub e => rfl

end Shapes

/-! ## Lights -/

namespace Lights
open Shapes Sampling

theorem areaSample_moved (v I p q n : V3 ℝ) (a : ℝ) : areaSample I (p + v) (q + v) n a = areaSample I p q n a := by
  unfold areaSample
  rw [moved_sub]

theorem meshSample_moved (v I : V3 ℝ) (m : Mesh ℝ) (cdf : List ℝ) (p : V3 ℝ) (u : V2 ℝ) :
    meshSample I (m.moved v) cdf (p + v) u = meshSample I m cdf p u := by
  unfold meshSample
  cases sampleReusePdf cdf u.x with
  | ok x =>
    show (getAt m.tris x.1 >>= _) = (getAt m.tris x.1 >>= _)
    cases getAt m.tris x.1 with
    | ok f =>
      show ((m.moved v).corners f >>= _) = (m.corners f >>= _)
      rw [corners_moved]
      cases m.corners f with
      | ok c =>
        show ((m.moved v).shadingNormal f _ _ >>= _) = (m.shadingNormal f _ _ >>= _)
        rw [shadingNormal_moved]
        congr 1
        funext n
        cases n with
        | none => rfl
        | some n =>
          have ha : triArea (c.1 + v) (c.2.1 + v) (c.2.2 + v) = triArea c.1 c.2.1 c.2.2 := by
            unfold triArea
            rw [moved_sub, moved_sub]
          dsimp only
          rw [ha, hitPoint_moved, areaSample_moved]
      | throw e => rfl
      | ub e => rfl
    | throw e => rfl
    | ub e => rfl
  | throw e => rfl
  | ub e => rfl

theorem sampleNee_moved (v p : V3 ℝ) (u : V2 ℝ) (l : Light) : (l.moved v).sampleNee (p + v) u = l.sampleNee p u := by
  cases l with
  | point I pos => simp only [Light.moved, Light.sampleNee, moved_sub]
  | spot pos dir rad c => simp only [Light.moved, Light.sampleNee, moved_sub]
  | directional dir rad => rfl
  | mesh I inst m cdf => exact meshSample_moved v I m cdf p u
  | dirMesh dir I inst => rfl
  | environment I => rfl

theorem faceAreas_moved (v : V3 ℝ) (m : Mesh ℝ) (fs : List Face) : faceAreas (m.moved v) fs = faceAreas m fs := by
  induction fs with
  | nil => rfl
  | cons f fs ih =>
    unfold faceAreas
    rw [corners_moved, ih]
    cases m.corners f with
    | ok c =>
      have ha : triArea (c.1 + v) (c.2.1 + v) (c.2.2 + v) = triArea c.1 c.2.1 c.2.2 := by
        unfold triArea
        rw [moved_sub, moved_sub]
      show (faceAreas m fs >>= fun rest => .ok (triArea (c.1 + v) (c.2.1 + v) (c.2.2 + v) :: rest)) = _
      rw [ha]
      rfl
    | throw e => rfl
    | ub e => rfl

/-- The queries at the moved point. -/
def World.moved (v : V3 ℝ) (w : World) : World := { w with first := fun d => (w.first d).map fun a => (a.1, a.2 + v) }

/-- The shaded point, moved. -/
def Spot.moved (v : V3 ℝ) (s : Spot) : Spot := { s with p := s.p + v }

theorem initialCheck_moved (v : V3 ℝ) (w : World) (p : V3 ℝ) (l : Light) (s : LightSample) :
    initialCheck (w.moved v) (p + v) (l.moved v) s = initialCheck w p l s := by
  unfold initialCheck
  have h1 : (l.moved v).needsCheck = l.needsCheck := by cases l <;> rfl
  have h2 : (l.moved v).meshNode = l.meshNode := by cases l <;> rfl
  rw [h1, h2]
  show (if l.needsCheck then
    match (w.first s.wi).map fun a => (a.1, a.2 + v) with
    | some (m, q) => _
    | none => _ else _) = _
  by_cases h : l.needsCheck
  · rw [if_pos h, if_pos h]
    cases w.first s.wi with
    | none => rfl
    | some a =>
      obtain ⟨m, q⟩ := a
      simp only [Option.map_some, moved_sub]
  · rw [if_neg h, if_neg h]

theorem lightEval_moved (v : V3 ℝ) (w : World) (sp : Spot) (n : V3 ℝ) (inMedia : Bool) (c : ℝ) (l : Light) (u : V2 ℝ) :
    lightEval (w.moved v) (sp.moved v) n inMedia c (l.moved v) u = lightEval w sp n inMedia c l u := by
  unfold lightEval
  show ((l.moved v).sampleNee (sp.p + v) u >>= _) = _
  rw [sampleNee_moved]
  congr 1
  funext s
  cases s with
  | none => rfl
  | some s =>
    show (match initialCheck (w.moved v) (sp.p + v) (l.moved v) s with
      | none => _
      | some s => _) = _
    rw [initialCheck_moved]
    rfl

theorem evalOne_moved (v : V3 ℝ) (w : World) (sp : Spot) (inMedia : Bool) (ls : List Light) (c : ℝ) (u : V2 ℝ) :
    evalOne (w.moved v) (sp.moved v) inMedia (ls.map (Light.moved v)) c u = evalOne w sp inMedia ls c u := by
  unfold evalOne
  have h1 : ((ls.map (Light.moved v)).map fun l => (⟨l.meshNode⟩ : LightInfo)) = ls.map fun l => ⟨l.meshNode⟩ := by
    rw [List.map_map]
    congr 1
    funext l
    cases l <;> rfl
  rw [h1]
  show (chooseEmitter _ sp.inst c >>= _) = _
  congr 1
  funext x
  obtain ⟨i, pdf⟩ := x
  cases i with
  | none => rfl
  | some i =>
    cases pdf with
    | none => rfl
    | some pdf =>
      show (getAt (ls.map (Light.moved v)) i >>= _) = (getAt ls i >>= _)
      have h2 : getAt (ls.map (Light.moved v)) i = (getAt ls i >>= fun l => .ok (l.moved v)) := by
        unfold getAt
        by_cases hi : (i : Int) < 0
        · rw [if_pos hi, if_pos hi]; rfl
        · rw [if_neg hi, if_neg hi, List.getElem?_map]
          cases ls[(i : Int).toNat]? <;> rfl
      rw [h2]
      cases getAt ls i with
      | ok l =>
        show (lightEval (w.moved v) (sp.moved v) _ inMedia pdf (l.moved v) u >>= _) = _
        rw [lightEval_moved]
        rfl
      | throw e => rfl
      | ub e => rfl

theorem evalAll_moved (v : V3 ℝ) (w : World) (sp : Spot) (inMedia : Bool) (ls : List Light) : ∀ us : List (V2 ℝ),
    evalAll (w.moved v) (sp.moved v) inMedia (ls.map (Light.moved v)) us = evalAll w sp inMedia ls us := by
  induction ls with
  | nil => intro us; cases us <;> rfl
  | cons l ls ih =>
    intro us
    cases us with
    | nil => rfl
    | cons u us =>
      show (lightEval (w.moved v) (sp.moved v) _ inMedia 1 (l.moved v) u >>= fun e =>
        evalAll (w.moved v) (sp.moved v) inMedia (ls.map (Light.moved v)) us >>= _) = _
      rw [lightEval_moved, ih]
      rfl

end Lights

/-! ## Paths and pictures -/

namespace Integrators
open Sampling

variable {R : Type}

/-- Two scenes that answer the same for corresponding rays. -/
structure Alike (φ : R → R) (W W' : World R) : Prop where
  escapes : ∀ r, W'.escapes (φ r) = W.escapes r
  env : ∀ r, W'.env (φ r) = W.env r
  delta : ∀ r, W'.delta (φ r) = W.delta r
  emitted : ∀ r, W'.emitted (φ r) = W.emitted r
  lights : ∀ r ω, W'.lights (φ r) ω = W.lights r ω
  scatter : ∀ r ω, W'.scatter (φ r) ω =
    (((W.scatter r ω).1.albedo, (W.scatter r ω).1.pdf, (W.scatter r ω).1.cos, φ (W.scatter r ω).1.ray), (W.scatter r ω).2)

namespace Alike
variable {φ : R → R} {W W' : World R} (h : Alike φ W W')
include h

theorem samples (r : R) (ω : Stream) : W'.samples (φ r) ω = W.samples r ω := by
  unfold World.samples
  rw [h.delta, h.lights]

theorem answer (r : R) (ω : Stream) : W'.answer (φ r, ω) = W.answer (r, ω) := by
  unfold World.answer
  simp only [h.escapes, h.samples, h.delta, h.emitted, h.env, h.scatter]
  rfl

theorem advance (r : R) (ω : Stream) : W'.advance (φ r, ω) = (φ (W.advance (r, ω)).1, (W.advance (r, ω)).2) := by
  unfold World.advance
  simp only [h.escapes, h.samples, h.scatter]
  by_cases he : W.escapes r = true
  · rw [if_pos he, if_pos he]
  · rw [if_neg he, if_neg he]; rfl

theorem walk (r : R) (ω : Stream) (k : ℕ) :
    W'.walk (φ r, ω) k = (φ (W.walk (r, ω) k).1, (W.walk (r, ω) k).2) := by
  induction k with
  | zero => rfl
  | succ k ih =>
    show W'.advance (W'.walk (φ r, ω) k) = _
    rw [ih, h.advance]
    rfl

theorem li (quot : ℝ → ℝ → ℝ) (n : ℕ) (r : R) (ω : Stream) : W'.Li quot n (φ r) ω = W.Li quot n r ω := by
  unfold World.Li
  congr 1
  funext k
  rw [h.walk, h.answer]

theorem left (quot : ℝ → ℝ → ℝ) (n : ℕ) : ∀ β r ω, W'.left quot n β (φ r, ω) = W.left quot n β (r, ω) := by
  induction n with
  | zero => intro β r ω; rfl
  | succ n ih =>
    intro β r ω
    simp only [World.left, h.escapes, h.samples, h.delta, h.scatter]
    have hb : ∀ ω', bounceBeta quot (W.delta r) β
        ((W.scatter r ω').1.albedo, (W.scatter r ω').1.pdf, (W.scatter r ω').1.cos, φ (W.scatter r ω').1.ray) =
        bounceBeta quot (W.delta r) β (W.scatter r ω').1 := fun ω' => rfl
    simp only [hb]
    have hp : ∀ (a : V3 ℝ) (p c : ℝ) (q : R), Bounce.pdf (a, p, c, q) = p := fun _ _ _ _ => rfl
    have hr : ∀ (a : V3 ℝ) (p c : ℝ) (q : R), Bounce.ray (a, p, c, q) = q := fun _ _ _ _ => rfl
    simp only [hp, hr]
    by_cases h1 : isZero β = true
    · rw [if_pos h1, if_pos h1]
    · rw [if_neg h1, if_neg h1]
      by_cases h2 : W.escapes r = true
      · rw [if_pos h2, if_pos h2]
      · rw [if_neg h2, if_neg h2]
        by_cases h3 : (W.samples r ω).2 0 > min β.maxValue 1
        · rw [if_pos h3, if_pos h3]
        · rw [if_neg h3, if_neg h3]
          by_cases h4 : (W.scatter r (drop 1 (W.samples r ω).2)).1.2.1 = 0
          · rw [if_pos h4, if_pos h4]
          · rw [if_neg h4, if_neg h4]
            exact ih _ _ _

theorem traces {quot : ℝ → ℝ → ℝ} {n : ℕ} {L L' : R → Stream → V3 ℝ × Stream} (hL : W.Traces quot n L)
    (hL' : W'.Traces quot n L') (r : R) (ω : Stream) : L' (φ r) ω = L r ω := by
  have ht : Idle (fun _ => false) := fun _ _ => rfl
  have h1 := (hL r ω).1 _ ht
  have h2 := (hL' (φ r) ω).1 _ ht
  rw [h.li, h1] at h2
  injection h2 with h2
  injection h2 with h2
  refine Prod.ext h2.symm ?_
  rw [(hL' (φ r) ω).2, (hL r ω).2, h.left]

end Alike

/-! ## Rooms -/

theorem MovedRoom.wi {v : V3 ℝ} {S S' : Room} (h : MovedRoom v S S') (r : Ray) : S'.wi (movedRay v r) = S.wi r := by
  unfold Room.wi
  rw [h.frame]
  rfl

theorem MovedRoom.onward {v : V3 ℝ} {S S' : Room} (h : MovedRoom v S S') (r : Ray) (s : Bsdf.Sample) :
    S'.onward (movedRay v r) s = ((S.onward r s).albedo, (S.onward r s).pdf, (S.onward r s).cos,
      movedRay v (S.onward r s).ray) := by
  unfold Room.onward
  rw [h.frame, h.point]
  rfl

theorem MovedRoom.scatter {v : V3 ℝ} {S S' : Room} (h : MovedRoom v S S') (r : Ray) (ω : Stream) :
    S'.scatter (movedRay v r) ω = (((S.scatter r ω).1.albedo, (S.scatter r ω).1.pdf, (S.scatter r ω).1.cos,
      movedRay v (S.scatter r ω).1.ray), (S.scatter r ω).2) := by
  unfold Room.scatter
  rw [h.material, h.albedo, h.wi, h.eps, h.intIor, h.extIor]
  cases S.material r with
  | diffuse =>
    dsimp only
    cases Bsdf.diffuseSample (S.albedo r) (S.wi r) ⟨(next2 ω).1.1, (next2 ω).1.2⟩ with
    | none => rfl
    | some s => dsimp only; rw [h.onward]
  | mirror =>
    dsimp only
    cases Bsdf.mirrorSample (S.albedo r) (S.wi r) with
    | none => rfl
    | some s => dsimp only; rw [h.onward]
  | glass =>
    dsimp only
    rw [h.onward]

theorem MovedRoom.lampLight {v : V3 ℝ} {S S' : Room} (h : MovedRoom v S S') (lamps : List Lamp)
    {blocked blocked' : Blocked} (hb : ∀ p d far, blocked' (p + v) d far = blocked p d far) (r : Ray) (ω : Stream) :
    Integrators.lampLight S' (lamps.map (movedLamp v)) blocked' (movedRay v r) ω =
      Integrators.lampLight S lamps blocked r ω := by
  unfold Integrators.lampLight
  rw [List.length_map, h.point, h.frame, h.albedo, h.wi]
  have hq : queries blocked' (S.point r + v) = (queries blocked (S.point r)).moved v := by
    unfold queries Lights.World.moved
    simp only [hb, Option.map_none]
  have hl : ((lamps.map (movedLamp v)).map fun l => Lights.Light.point l.1 l.2) =
      (lamps.map fun l => Lights.Light.point l.1 l.2).map (Lights.Light.moved v) := by
    rw [List.map_map, List.map_map]
    rfl
  have he := Lights.evalOne_moved v (queries blocked (S.point r)) ⟨S.point r, (S.frame r).n, S.frame r, 0⟩ false
    (lamps.map fun l => Lights.Light.point l.1 l.2) (next ω).1 ⟨(next2 (next ω).2).1.1, (next2 (next ω).2).1.2⟩
  rw [← hq, ← hl] at he
  unfold Lights.Spot.moved at he
  dsimp only at he
  rw [he]

/-- Rooms that have been moved, with lamps and obstacles moved, answer the same. -/
theorem MovedRoom.alike {v : V3 ℝ} {S S' : Room} (h : MovedRoom v S S') (lamps : List Lamp)
    {blocked blocked' : Blocked} (hb : ∀ p d far, blocked' (p + v) d far = blocked p d far) :
    Alike (movedRay v) (S.lit lamps blocked).world (S'.lit (lamps.map (movedLamp v)) blocked').world where
  escapes r := congrArg (!·) (h.seen r)
  env := h.env
  delta r := congrArg Material.isDelta (h.material r)
  emitted := h.emitted
  lights r ω := h.lampLight lamps hb r ω
  scatter r ω := by
    have h2 : MovedRoom v (S.lit lamps blocked) (S'.lit (lamps.map (movedLamp v)) blocked') :=
      ⟨h.eps, h.seen, h.env, h.point, h.frame, h.material, h.albedo, h.intIor, h.extIor, h.emitted⟩
    exact h2.scatter r ω

end Integrators

namespace Image
open Sampling
variable {R : Type}

theorem renderWith_congr (flt : Filter ℝ) (w h spp : ℕ) {ray ray' : ℝ × ℝ → ℝ × ℝ → R}
    {Li Li' : R → Stream → V3 ℝ × Stream} (he : ∀ f a ω, Li' (ray' f a) ω = Li (ray f a) ω) (ω : Stream) :
    renderWith flt w h spp ray' Li' ω = renderWith flt w h spp ray Li ω := by
  have h1 : ∀ i j ω, shoot ray' Li' i j ω = shoot ray Li i j ω := by
    intro i j ω
    unfold shoot
    simp only [he]
  have h2 : shootOnce flt w h ray' Li' = shootOnce flt w h ray Li := by
    funext st kij
    unfold shootOnce
    rw [h1]
  unfold renderWith
  rw [h2]

end Image

/-! ## Distance functions as rooms -/

namespace Sdf
open Integrators

theorem intersect_moved (v : V3 ℝ) (fs : List (V3 ℝ → Option ℝ)) (box : Option (B3 ℝ)) (r : Feign.Ray ℝ) :
    intersect (fs.map fun f q => f (q - v)) (box.map (B3.moved v)) (r.moved v) = movedRes v (intersect fs box r) := by
  cases box with
  | none => exact march_moved v fs r _ _ _
  | some b =>
    simp only [Option.map_some, intersect, boxNearFar_moved]
    exact march_moved v fs r _ _ _

theorem hitOf_moved (v : V3 ℝ) (fs : List (V3 ℝ → Option ℝ)) (box : Option (B3 ℝ)) (r : Integrators.Ray) :
    hitOf (fs.map fun f q => f (q - v)) (box.map (B3.moved v)) (movedRay v r) = (hitOf fs box r).map (Hit.moved v) := by
  unfold hitOf
  have h := intersect_moved v fs box ⟨r.1, r.2, Ext.fin eps, ⊤⟩
  unfold Feign.Ray.moved at h
  show (match intersect (fs.map fun f q => f (q - v)) (box.map (B3.moved v)) ⟨r.1 + v, r.2, Ext.fin eps, ⊤⟩ with
    | .ok (.hit h) => some h
    | _ => none) = _
  rw [h]
  cases intersect fs box ⟨r.1, r.2, Ext.fin eps, ⊤⟩ with
  | ok m => cases m <;> rfl
  | throw e => rfl
  | ub e => rfl

theorem room_moved (v : V3 ℝ) (fs : List (V3 ℝ → Option ℝ)) (box : Option (B3 ℝ)) (looks : ℕ → Look)
    (env : V3 ℝ → V3 ℝ) :
    MovedRoom v (room fs box looks env) (room (fs.map fun f q => f (q - v)) (box.map (B3.moved v)) looks env) := by
  have hh : ∀ r, hitOf (fs.map fun f q => f (q - v)) (box.map (B3.moved v)) (movedRay v r) =
      (hitOf fs box r).map (Hit.moved v) := hitOf_moved v fs box
  constructor
  · rfl
  · intro r; simp only [room, hh]; cases hitOf fs box r <;> rfl
  · intro r; rfl
  · intro r; simp only [room, hh]; cases hitOf fs box r <;> rfl
  · intro r; simp only [room, hh]; cases hitOf fs box r <;> rfl
  · intro r; simp only [room, hh]; cases hitOf fs box r <;> rfl
  · intro r; simp only [room, hh]; cases hitOf fs box r <;> rfl
  · intro r; simp only [room, hh]; cases hitOf fs box r <;> rfl
  · intro r; simp only [room, hh]; cases hitOf fs box r <;> rfl
  · intro r; simp only [room, hh]; cases hitOf fs box r <;> rfl

theorem blockedBy_moved (v : V3 ℝ) (fs : List (V3 ℝ → Option ℝ)) (box : Option (B3 ℝ)) (p d : V3 ℝ) (far : ℝ) :
    blockedBy (fs.map fun f q => f (q - v)) (box.map (B3.moved v)) (p + v) d far = blockedBy fs box p d far := by
  unfold blockedBy
  have h := hitOf_moved v fs box (p, d)
  unfold movedRay at h
  rw [h]
  cases hitOf fs box (p, d) <;> rfl

end Sdf
end Feign
