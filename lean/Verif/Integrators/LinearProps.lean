import Verif.Integrators.LinearLemmas
import Verif.Integrators.PathProps
import Verif.Integrators.RoomProps
import Verif.Lights.NeeProps

/-!
# C123: the picture is linear in the light

Dimming, tinting and adding light: with the same random numbers, what the path, Whitted and volumetric integrators
return, and the picture made of it, is `s` times the picture under the first lighting plus the picture under the second.
-/

set_option linter.unusedSectionVars false
set_option linter.unusedVariables false
set_option linter.unusedSimpArgs false

namespace Feign.Integrators

variable {K M : Type} [Field K] [LinearOrder K]

/-! ## Radiance -/

/-- **C123, path tracing.** Whatever the scene answers: under the third lighting `Li` returns `s` times what it returns
under the first plus what it returns under the second. -/
theorem path_superposition (quot : K → K → K) (maxBounces : ℕ) (s : V3 K) (A B C : ℕ → Answer K)
    (h : ∀ i, MixAnswer s (A i) (B i) (C i)) (r : Running) (hr : Idle r) :
    ∃ a b c, pathLi quot maxBounces A r = .ok (a, r) ∧ pathLi quot maxBounces B r = .ok (b, r) ∧
      pathLi quot maxBounces C r = .ok (c, r) ∧ c = s * a + b := by
  refine ⟨_, _, _, pathLoop_eq hr _ _ _ _ _, pathLoop_eq hr _ _ _ _ _, pathLoop_eq hr _ _ _ _ _, ?_⟩
  exact pathPure_mix quot h maxBounces 0 _ _ _ _ _ _ _ (Mix.zero s) (MixClosure.fresh s)

/-- **C123, Whitted ray tracing.** Either all three calls are still running or all return, and then the same holds. -/
theorem whitted_superposition (s : V3 K) (A B C : ℕ → Answer K) (h : ∀ i, MixAnswer s (A i) (B i) (C i)) (fuel : ℕ)
    (r : Running) (hr : Idle r) :
    (whittedLi A fuel 0 r = .ok (none, r) ∧ whittedLi B fuel 0 r = .ok (none, r) ∧
      whittedLi C fuel 0 r = .ok (none, r)) ∨
    ∃ a b c, whittedLi A fuel 0 r = .ok (some a, r) ∧ whittedLi B fuel 0 r = .ok (some b, r) ∧
      whittedLi C fuel 0 r = .ok (some c, r) ∧ c = s * a + b := by
  rw [whittedLi_eq hr, whittedLi_eq hr, whittedLi_eq hr]
  have hm := whittedPure_mix h fuel 0
  generalize whittedPure A fuel 0 = x at hm
  generalize whittedPure B fuel 0 = y at hm
  generalize whittedPure C fuel 0 = z at hm
  cases hm with
  | none => exact Or.inl ⟨rfl, rfl, rfl⟩
  | some hv => exact Or.inr ⟨_, _, _, rfl, rfl, rfl, hv⟩

/-- **C123, media.** The same for the volumetric integrators. -/
theorem vol_superposition (quot : K → K → K) (maxBounces : ℕ) (env : Option M) (s : V3 K) (A B C : ℕ → VolAnswer K M)
    (h : ∀ i, MixVolAnswer s (A i) (B i) (C i)) (fuel : ℕ) :
    (volLi quot maxBounces env A fuel = none ∧ volLi quot maxBounces env B fuel = none ∧
      volLi quot maxBounces env C fuel = none) ∨
    ∃ a b c, volLi quot maxBounces env A fuel = some a ∧ volLi quot maxBounces env B fuel = some b ∧
      volLi quot maxBounces env C fuel = some c ∧ c = s * a + b := by
  have hm := volLoop_mix quot maxBounces h fuel 0 (a := ⟨0, white, Closure.fresh, [], env, 0⟩)
    (b := ⟨0, white, Closure.fresh, [], env, 0⟩) (c := ⟨0, white, Closure.fresh, [], env, 0⟩)
    ⟨Mix.zero s, ⟨rfl, rfl⟩, MixClosure.fresh s, .nil, ⟨rfl, rfl⟩, ⟨rfl, rfl⟩⟩
  unfold volLi
  revert hm
  generalize volLoop quot maxBounces A fuel 0 _ = x
  generalize volLoop quot maxBounces B fuel 0 _ = y
  generalize volLoop quot maxBounces C fuel 0 _ = z
  intro hm
  cases hm with
  | none => exact Or.inl ⟨rfl, rfl, rfl⟩
  | some hv => exact Or.inr ⟨_, _, _, rfl, rfl, rfl, hv⟩

/-- All light at a vertex passed through `f`. -/
def relight (f : V3 K → V3 K) : Answer K → Answer K
  | .escape q env => .escape q (f env)
  | .surface q x => .surface q { x with
      emitted := f x.emitted
      shadowRays := x.shadowRays.map fun r => { r with throughput := f r.throughput } }

theorem relight_mix (s : V3 K) (f g k : V3 K → V3 K) (hf : ∀ v, Mix s (f v) (g v) (k v)) (a : Answer K) :
    MixAnswer s (relight f a) (relight g a) (relight k a) := by
  cases a with
  | escape q env => exact .escape (hf env)
  | surface q x =>
    refine .surface ⟨⟨rfl, rfl⟩, ⟨rfl, rfl⟩, hf _, ?_, ⟨rfl, rfl⟩, ⟨rfl, rfl⟩, ⟨rfl, rfl⟩⟩
    simp only
    induction x.shadowRays with
    | nil => exact .nil
    | cons r rs ih => exact .cons ⟨⟨rfl, rfl⟩, ⟨rfl, rfl⟩, hf _⟩ ih

/-- **C123, no light.** If nothing sends out light the radiance is black. -/
theorem path_dark (quot : K → K → K) (maxBounces : ℕ) (ans : ℕ → Answer K) (r : Running) (hr : Idle r) :
    pathLi quot maxBounces (fun i => relight (fun _ => 0) (ans i)) r = .ok (0, r) := by
  obtain ⟨a, b, c, ha, hb, hc, h⟩ := path_superposition quot maxBounces white
    (fun i => relight (fun _ => 0) (ans i)) (fun i => relight (fun _ => 0) (ans i)) (fun i => relight (fun _ => 0) (ans i))
    (fun i => relight_mix _ _ _ _ (fun _ => Mix.zero _) (ans i)) r hr
  rw [ha] at hb hc
  cases hb
  cases hc
  have : a = 0 := by
    have hx := congrArg V3.x h
    have hy := congrArg V3.y h
    have hz := congrArg V3.z h
    simp [white] at hx hy hz
    exact V3.ext hx hy hz
  rw [ha, this]

/-- **C123, tinting.** Multiplying all light by a colour multiplies the radiance by it. -/
theorem path_tint (quot : K → K → K) (maxBounces : ℕ) (s : V3 K) (ans : ℕ → Answer K) (r : Running) (hr : Idle r) :
    ∃ v, pathLi quot maxBounces ans r = .ok (v, r) ∧
      pathLi quot maxBounces (fun i => relight (fun v => s * v) (ans i)) r = .ok (s * v, r) := by
  have hid : ∀ a : Answer K, relight (fun v => v) a = a := by
    intro a; cases a <;> simp [relight]
  obtain ⟨a, b, c, ha, hb, hc, h⟩ := path_superposition quot maxBounces s
    (fun i => relight (fun v => v) (ans i)) (fun i => relight (fun _ => 0) (ans i))
    (fun i => relight (fun v => s * v) (ans i))
    (fun i => relight_mix _ _ _ _ (fun v => by unfold Mix; ext <;> simp) (ans i)) r hr
  rw [path_dark quot maxBounces ans r hr] at hb
  cases hb
  simp only [hid] at ha
  refine ⟨a, ha, ?_⟩
  rw [hc, h, add_zero]

/-- The wall that a lamp shines on, under a red and a blue light: the magenta light gives the sum. -/
example : radiance 2 (fun i => relight (fun v => ⟨v.x, 0, 0⟩) (wallLamp .simple i)) = some ⟨2, 0, 0⟩ ∧
    radiance 2 (fun i => relight (fun v => ⟨0, 0, v.z⟩) (wallLamp .simple i)) = some ⟨0, 0, 2⟩ ∧
    radiance 2 (fun i => relight (fun v => ⟨3 * v.x, 0, v.z⟩) (wallLamp .simple i)) = some ⟨6, 0, 2⟩ ∧
    ∀ i, MixAnswer (⟨3, 3, 3⟩ : V3 ℚ) (relight (fun v => ⟨v.x, 0, 0⟩) (wallLamp .simple i))
      (relight (fun v => ⟨0, 0, v.z⟩) (wallLamp .simple i)) (relight (fun v => ⟨3 * v.x, 0, v.z⟩) (wallLamp .simple i)) := by
  refine ⟨by decide +kernel, by decide +kernel, by decide +kernel, fun i => relight_mix _ _ _ _ (fun v => ?_) _⟩
  unfold Mix
  ext <;> simp

/-- A floor under fog with lights of colour `l` that are sampled and a lamp of colour `m` at the end. -/
def fogUnder (l m : V3 ℚ) (k : ℕ) : VolAnswer ℚ Unit :=
  let fog : Unit → MediumSample ℚ := fun _ => ⟨white, some ⟨[⟨true, l, ⟨0, 0, 1⟩⟩], fun _ => 1 / 2, ⟨0, 1, 0⟩, 1 / 2⟩⟩
  let clear : Unit → MediumSample ℚ := fun _ => ⟨white, none⟩
  if k = 0 then .hit fog none .null
  else if k = 1 then .hit clear none
    (.surface ⟨.simple, false, m, [⟨true, l, ⟨0, 0, 1⟩⟩], fun _ => white, .bsdf white 1, 1, 1 / 2⟩)
  else .escape m

example : (∀ i, MixVolAnswer (⟨3, 3, 3⟩ : V3 ℚ) (fogUnder ⟨1, 0, 0⟩ ⟨2, 0, 0⟩ i) (fogUnder ⟨0, 0, 4⟩ 0 i)
      (fogUnder ⟨3, 0, 4⟩ ⟨6, 0, 0⟩ i)) ∧
    volLi (· / ·) 10 (some ()) (fogUnder ⟨1, 0, 0⟩ ⟨2, 0, 0⟩) 10 = some ⟨11 / 2, 0, 0⟩ ∧
    volLi (· / ·) 10 (some ()) (fogUnder ⟨0, 0, 4⟩ 0) 10 = some ⟨0, 0, 6⟩ ∧
    volLi (· / ·) 10 (some ()) (fogUnder ⟨3, 0, 4⟩ ⟨6, 0, 0⟩) 10 = some ⟨33 / 2, 0, 6⟩ := by
  refine ⟨fun i => ?_, by decide +kernel, by decide +kernel, by decide +kernel⟩
  have hl : Mix (⟨3, 3, 3⟩ : V3 ℚ) ⟨1, 0, 0⟩ ⟨0, 0, 4⟩ ⟨3, 0, 4⟩ := by unfold Mix; ext <;> norm_num
  have hm : Mix (⟨3, 3, 3⟩ : V3 ℚ) ⟨2, 0, 0⟩ 0 ⟨6, 0, 0⟩ := by unfold Mix; ext <;> norm_num
  match i with
  | 0 => exact .hit (fun _ => .scatter ⟨.cons ⟨⟨rfl, rfl⟩, ⟨rfl, rfl⟩, hl⟩ .nil, ⟨rfl, rfl⟩, ⟨rfl, rfl⟩, ⟨rfl, rfl⟩⟩) .null
  | 1 => exact .hit (fun _ => .through) (.surface ⟨⟨rfl, rfl⟩, ⟨rfl, rfl⟩, hm, .cons ⟨⟨rfl, rfl⟩, ⟨rfl, rfl⟩, hl⟩ .nil,
      ⟨rfl, rfl⟩, ⟨rfl, rfl⟩, ⟨rfl, rfl⟩, ⟨rfl, rfl⟩⟩)
  | n + 2 => exact .escape hm

/-! ## Lights -/

open Lights

/-- **C123, direct light.** `eval_one_emitter` and `eval_all_emitters` for lights in three colours: the same failure, or
lists of entries from which any material collects `s` times the light of the first plus the light of the second. The
choice of the light does not depend on its colour. -/
theorem direct_superposition (s : V3 ℝ) (w : Lights.World) (sp : Spot) (inMedia : Bool) (as bs cs : List Light)
    (h : Each3 (MixLight s) as bs cs) (bsdf : V3 ℝ → V3 ℝ) :
    (∀ c u, Each3Res (fun x y z => Mix s (Lights.accumulate bsdf (x.map toEntry)) (Lights.accumulate bsdf (y.map toEntry))
      (Lights.accumulate bsdf (z.map toEntry))) (evalOne w sp inMedia as c u) (evalOne w sp inMedia bs c u)
      (evalOne w sp inMedia cs c u)) ∧
    ∀ us, Each3Res (fun x y z => Mix s (Lights.accumulate bsdf (x.map toEntry)) (Lights.accumulate bsdf (y.map toEntry))
      (Lights.accumulate bsdf (z.map toEntry)) ∧ Mix s (Lights.accumulate bsdf (evalMulti x))
        (Lights.accumulate bsdf (evalMulti y)) (Lights.accumulate bsdf (evalMulti z)))
      (evalAll w sp inMedia as us) (evalAll w sp inMedia bs us) (evalAll w sp inMedia cs us) := by
  constructor
  · intro c u
    have := evalOne_mix w sp inMedia h c u
    revert this
    generalize evalOne w sp inMedia as c u = x
    generalize evalOne w sp inMedia bs c u = y
    generalize evalOne w sp inMedia cs c u = z
    intro hm
    cases hm with
    | ok hv => exact .ok (entries_mix bsdf (hv.map fun _ _ _ => toEntry_mix))
    | throw e => exact .throw e
    | ub e => exact .ub e
  · intro us
    have := evalAll_mix w sp inMedia h us
    revert this
    generalize evalAll w sp inMedia as us = x
    generalize evalAll w sp inMedia bs us = y
    generalize evalAll w sp inMedia cs us = z
    intro hm
    cases hm with
    | ok hv => exact .ok ⟨entries_mix bsdf (hv.map fun _ _ _ => toEntry_mix), entries_mix bsdf (evalMulti_mix hv)⟩
    | throw e => exact .throw e
    | ub e => exact .ub e

/-- **C123, lights that are seen.** What a ray finds that hits the object of the light. -/
theorem emission_superposition (s : V3 ℝ) (wi : V3 ℝ) (a b c : Light) (h : MixLight s a b c) :
    Each3Res (Mix s) (a.evaluate wi) (b.evaluate wi) (c.evaluate wi) := by
  obtain ⟨l, I, J, rfl, rfl, rfl⟩ := h
  have hm : Mix s I J (s * I + J) := rfl
  cases l with
  | point => exact .throw _
  | spot => exact .ok (hm.ite _)
  | directional => exact .ok (hm.ite _)
  | mesh => exact .ok (hm.ite' _)
  | dirMesh => exact .ok (hm.ite' _)
  | environment => exact .ok hm

end Feign.Integrators

namespace Feign.Image

open Integrators Sampling

/-! ## Images -/

variable {K : Type} [Field K] [LinearOrder K] [IsStrictOrderedRing K] [FloorRing K]

/-- **C123, the image.** Samples in the same places with mixed radiance give mixed pixels, whatever the filter. -/
theorem image_superposition (flt : Filter K) (w h spp : ℕ) (s : Fin 3 → K) (oa ob oc : ℕ → ℕ → ℕ → Obs K)
    (ho : ∀ k i j, MixObs s (oa k i j) (ob k i j) (oc k i j)) :
    Each3Res (fun ia ib ic => ∀ x y c, ic x y c = s c * ia x y c + ib x y c)
      (render id flt w h spp oa) (render id flt w h spp ob) (render id flt w h spp oc) := by
  unfold render accumulate
  refine (foldlM_mix (P := MixBuf s) (renderOrder spp w h) (fun a b c x hb => ?_)
    ⟨fun _ _ _ => by simp, fun _ _ => ⟨rfl, rfl⟩⟩).bind fun a b c hb => .ok fun x y i => normalize_mix hb x y i
  exact sampleOnce_mix s flt w h _ _ (ho _ _ _) hb

/-- **C123, the image rendered in tiles.** If the images the tiles are drawn into are mixed to begin with (they are
cleared), so are the results. -/
theorem tiles_superposition (flt : Filter K) (w h spp : ℕ) (s : Fin 3 → K) (oa ob oc : ℕ → ℕ → ℕ → Obs K)
    (ho : ∀ k i j, MixObs s (oa k i j) (ob k i j) (oc k i j)) (tiles : List Pool.Tile) (ia ib ic : Int → Int → Fin 3 → K)
    (hi : ∀ x y c, ic x y c = s c * ia x y c + ib x y c) :
    Each3Res (fun ia ib ic => ∀ x y c, ic x y c = s c * ia x y c + ib x y c)
      (renderTiles id flt w h spp oa tiles ia) (renderTiles id flt w h spp ob tiles ib)
      (renderTiles id flt w h spp oc tiles ic) := by
  unfold renderTiles accumulate
  refine Each3Res.bind (foldlM_mix (P := MixBuf s) (tiles.flatMap (tileOrder spp)) (fun a b c x hb => ?_)
    ⟨fun x y i => ?_, fun _ _ => ⟨rfl, rfl⟩⟩) fun a b c hb => ?_
  · exact sampleOnce_mix s flt w h _ _ (ho _ _ _) hb
  · have hi3 : ((i.castSucc : Fin 4) : ℕ) < 3 := by simp
    have e : (⟨((i.castSucc : Fin 4) : ℕ), hi3⟩ : Fin 3) = i := by ext; simp
    simp only [dif_pos hi3, e, hi]
  · exact .ok fun x y i => normalizePool_mix hb x y i

/-- **C123, the picture of a scene.** One stream of random numbers, one camera, any filter: the picture of the scene
under the third lighting is `s` times the picture under the first plus the picture under the second, in every channel
of every pixel. -/
theorem picture_superposition {R : Type} (s : V3 ℝ) (A B C : World R) (h : MixWorld s A B C) (quot : ℝ → ℝ → ℝ) (n : ℕ)
    (LA LB LC : R → Stream → V3 ℝ × Stream) (hA : A.Traces quot n LA) (hB : B.Traces quot n LB) (hC : C.Traces quot n LC)
    (ray : ℝ × ℝ → ℝ × ℝ → R) (flt : Filter ℝ) (w hgt spp : ℕ) (ω : Stream) :
    Each3Res (fun ia ib ic => ∀ x y c, ic x y c = s.get c * ia x y c + ib x y c)
      (renderWith flt w hgt spp ray LA ω) (renderWith flt w hgt spp ray LB ω) (renderWith flt w hgt spp ray LC ω) := by
  have hidle : Idle (fun _ => false) := fun _ _ => rfl
  have key : ∀ r ω, Mix s (LA r ω).1 (LB r ω).1 (LC r ω).1 ∧ (LA r ω).2 = (LC r ω).2 ∧ (LB r ω).2 = (LC r ω).2 := by
    intro r ω
    obtain ⟨a, b, c, ha, hb, hc, e⟩ := path_superposition quot n s (fun k => A.answer (A.walk (r, ω) k))
      (fun k => B.answer (B.walk (r, ω) k)) (fun k => C.answer (C.walk (r, ω) k)) (fun k => by
        rw [(walk_mix h (r, ω) k).1, (walk_mix h (r, ω) k).2]; exact answer_mix h _) _ hidle
    have ha' := (hA r ω).1 _ hidle
    have hb' := (hB r ω).1 _ hidle
    have hc' := (hC r ω).1 _ hidle
    unfold World.Li at ha' hb' hc'
    rw [ha] at ha'
    rw [hb] at hb'
    rw [hc] at hc'
    simp only [Res.ok.injEq, Prod.mk.injEq, and_true] at ha' hb' hc'
    refine ⟨?_, ?_, ?_⟩
    · rw [← ha', ← hb', ← hc']; exact e
    · rw [(hA r ω).2, (hC r ω).2, (left_mix h quot n _ _).1]
    · rw [(hB r ω).2, (hC r ω).2, (left_mix h quot n _ _).2]
  unfold renderWith
  refine (foldlM_mix (P := fun a b c : Buf ℝ × Stream => MixBuf s.get a.1 b.1 c.1 ∧ a.2 = c.2 ∧ b.2 = c.2)
    (renderOrder spp w hgt) (fun a b c x hb => ?_) ⟨⟨fun _ _ _ => by simp, fun _ _ => ⟨rfl, rfl⟩⟩, rfl, rfl⟩).bind
    fun a b c hb => .ok fun x y i => normalize_mix hb.1 x y i
  obtain ⟨hb, h1, h2⟩ := hb
  unfold shootOnce
  rw [h1, h2]
  simp only [shoot]
  obtain ⟨hm, e1, e2⟩ := key (ray ((x.2.2 : ℝ) + (next2 c.2).1.1, (x.2.1 : ℝ) + (next2 c.2).1.2) (next2 (next2 c.2).2).1)
    (next2 (next2 c.2).2).2
  refine Each3Res.bind (P := MixBuf s.get) (sampleOnce_mix s.get flt w hgt _ _ ?_ hb) fun a b c hb => ?_
  · refine ⟨⟨rfl, rfl⟩, ⟨rfl, rfl⟩, fun i => ?_⟩
    simp only [toObs]
    rw [hm]
    fin_cases i <;> rfl
  · exact .ok ⟨hb, e1, e2⟩

end Feign.Image

namespace Feign.Integrators

open Sampling Lights

/-! ## Rooms with lamps -/

/-- The room under three lightings, with lamps in the same places. -/
theorem room_mix (S : Room) (s : V3 ℝ) (ea eb ec ma mb mc : Ray → V3 ℝ) (he : ∀ r, Mix s (ea r) (eb r) (ec r))
    (hm : ∀ r, Mix s (ma r) (mb r) (mc r)) (la lb lc : List Lamp) (hl : MixLamps s la lb lc) (blocked : Blocked) :
    MixWorld s (({ S with env := ea, emitted := ma } : Room).lit la blocked).world
      (({ S with env := eb, emitted := mb } : Room).lit lb blocked).world
      (({ S with env := ec, emitted := mc } : Room).lit lc blocked).world where
  escapes := ⟨rfl, rfl⟩
  delta := ⟨rfl, rfl⟩
  scatter := ⟨rfl, rfl⟩
  env := he
  emitted := hm
  lights := by
    intro r ω
    have hlen := Each3.length hl
    show Each3 _ (lampLight _ la blocked r ω).1 (lampLight _ lb blocked r ω).1 (lampLight _ lc blocked r ω).1 ∧
      (lampLight _ la blocked r ω).2 = (lampLight _ lc blocked r ω).2 ∧
      (lampLight _ lb blocked r ω).2 = (lampLight _ lc blocked r ω).2
    unfold lampLight
    rw [hlen.1, hlen.2]
    by_cases h0 : lc.length = 0
    · rw [if_pos h0, if_pos h0, if_pos h0]
      exact ⟨.cons ⟨⟨rfl, rfl⟩, ⟨rfl, rfl⟩, Mix.zero s⟩ .nil, rfl, rfl⟩
    · rw [if_neg h0, if_neg h0, if_neg h0]
      have hL : Each3 (MixLight s) (la.map fun l => .point l.1 l.2) (lb.map fun l => .point l.1 l.2)
          (lc.map fun l => .point l.1 l.2) := by
        refine Each3.map hl fun a b c h => ⟨.point 0 c.2, a.1, b.1, ?_, ?_, ?_⟩
        · rw [h.1]; rfl
        · rw [h.2.1]; rfl
        · rw [h.2.2]; rfl
      have hev := evalOne_mix (queries blocked (S.point r)) ⟨S.point r, (S.frame r).n, S.frame r, 0⟩ false hL (next ω).1
        ⟨(next2 (next ω).2).1.1, (next2 (next ω).2).1.2⟩
      have e : ∀ (e m : Ray → V3 ℝ), ({ S with env := e, emitted := m } : Room).wi r = S.wi r := fun _ _ => rfl
      simp only [e]
      revert hev
      generalize evalOne (queries blocked (S.point r)) ⟨S.point r, (S.frame r).n, S.frame r, 0⟩ false
        (la.map fun l => .point l.1 l.2) (next ω).1 ⟨(next2 (next ω).2).1.1, (next2 (next ω).2).1.2⟩ = xa
      generalize evalOne (queries blocked (S.point r)) ⟨S.point r, (S.frame r).n, S.frame r, 0⟩ false
        (lb.map fun l => .point l.1 l.2) (next ω).1 ⟨(next2 (next ω).2).1.1, (next2 (next ω).2).1.2⟩ = xb
      generalize evalOne (queries blocked (S.point r)) ⟨S.point r, (S.frame r).n, S.frame r, 0⟩ false
        (lc.map fun l => .point l.1 l.2) (next ω).1 ⟨(next2 (next ω).2).1.1, (next2 (next ω).2).1.2⟩ = xc
      intro hev
      cases hev with
      | ok hv =>
        refine ⟨hv.map fun a b c h => ?_, rfl, rfl⟩
        have := toEntry_mix h
        exact ⟨this.valid, ⟨by simp only [shadowRay, this.dir.1], by simp only [shadowRay, this.dir.2]⟩, this.throughput⟩
      | throw e => exact ⟨.nil, rfl, rfl⟩
      | ub e => exact ⟨.nil, rfl, rfl⟩

/-- **C123, a room.** Diffuse, mirror and glass surfaces, lamps, glowing surfaces and a background: turning every lamp,
every glow and the background to `s` times one setting plus another gives `s` times the one picture plus the other. A
lamp that is off in a setting has intensity zero there. -/
theorem room_superposition (S : Room) (s : V3 ℝ) (ea eb ec ma mb mc : Ray → V3 ℝ) (he : ∀ r, Mix s (ea r) (eb r) (ec r))
    (hm : ∀ r, Mix s (ma r) (mb r) (mc r)) (la lb lc : List Lamp) (hl : MixLamps s la lb lc) (blocked : Blocked)
    (quot : ℝ → ℝ → ℝ) (n : ℕ) (LA LB LC : Ray → Stream → V3 ℝ × Stream)
    (hA : (({ S with env := ea, emitted := ma } : Room).lit la blocked).world.Traces quot n LA)
    (hB : (({ S with env := eb, emitted := mb } : Room).lit lb blocked).world.Traces quot n LB)
    (hC : (({ S with env := ec, emitted := mc } : Room).lit lc blocked).world.Traces quot n LC)
    (ray : ℝ × ℝ → ℝ × ℝ → Ray) (flt : Image.Filter ℝ) (w hgt spp : ℕ) (ω : Stream) :
    Each3Res (fun ia ib ic => ∀ x y c, ic x y c = s.get c * ia x y c + ib x y c)
      (Image.renderWith flt w hgt spp ray LA ω) (Image.renderWith flt w hgt spp ray LB ω)
      (Image.renderWith flt w hgt spp ray LC ω) :=
  Image.picture_superposition s _ _ _ (room_mix S s ea eb ec ma mb mc he hm la lb lc hl blocked) quot n LA LB LC hA hB hC
    ray flt w hgt spp ω

/-- The programs `LA`, `LB`, `LC` exist for all scenes. -/
theorem traces_exist {R : Type} (W : World R) (quot : ℝ → ℝ → ℝ) (n : ℕ) : ∃ L, W.Traces quot n L := by
  refine ⟨fun r ω => (pathPure quot (fun k => W.answer (W.walk (r, ω) k)) n 0 ⟨0, white, Closure.fresh⟩, _), fun r ω => ⟨fun t ht => ?_, rfl⟩⟩
  exact pathLoop_eq ht _ _ _ _ _

/-- A red lamp that stays on and a blue one that is turned off, and the other way round. -/
example : MixLamps (⟨1, 1, 1⟩ : V3 ℝ) [(⟨1, 0, 0⟩, ⟨0, 0, 1⟩), (0, ⟨0, 0, 2⟩)] [(0, ⟨0, 0, 1⟩), (⟨0, 0, 1⟩, ⟨0, 0, 2⟩)]
    [(⟨1, 0, 0⟩, ⟨0, 0, 1⟩), (⟨0, 0, 1⟩, ⟨0, 0, 2⟩)] := by
  refine .cons ⟨rfl, rfl, ?_⟩ (.cons ⟨rfl, rfl, ?_⟩ .nil) <;> (unfold Mix; ext <;> simp)

/-- A point on a floor without obstacles. -/
noncomputable def openFloor : Lights.World := ⟨fun _ => none, fun _ _ => (false, ⟨1, 1, 1⟩), false⟩

/-- The point below the lamps. -/
noncomputable def underLamps : Spot := ⟨0, ⟨0, 0, 1⟩, ⟨⟨1, 0, 0⟩, ⟨0, 1, 0⟩, ⟨0, 0, 1⟩⟩, 0⟩

private theorem lampAbove (a : ℝ) (u : V2 ℝ) : ∃ d t, lightEval openFloor underLamps underLamps.frame.n false 1
    (.point ⟨a, a, a⟩ ⟨0, 0, 1⟩) u = .ok (.seen d t) ∧ t.x = a / (4 * Real.pi) := by
  obtain ⟨wi, d, hd, h1, h2, -, h3⟩ := point_direct openFloor underLamps underLamps.frame.n ⟨a, a, a⟩ ⟨0, 0, 1⟩ u (by
      intro h; have := congrArg V3.z h; simp [underLamps] at this)
  have hx := congrArg V3.x h2
  have hy := congrArg V3.y h2
  have hz := congrArg V3.z h2
  simp only [V3.add_x, V3.add_y, V3.add_z, V3.smul_x, V3.smul_y, V3.smul_z, underLamps, V3.zero_x, V3.zero_y, V3.zero_z, zero_add]
    at hx hy hz
  have ex : wi.x = 0 := (mul_eq_zero.mp hx).resolve_right hd.ne'
  have ey : wi.y = 0 := (mul_eq_zero.mp hy).resolve_right hd.ne'
  simp only [V3.sqrNorm, V3.dot, ex, ey] at h1
  have ez : 0 < wi.z := by
    by_contra hc
    have : wi.z * d ≤ 0 := mul_nonpos_of_nonpos_of_nonneg (not_lt.mp hc) hd.le
    linarith
  have e1 : wi.z = 1 := by nlinarith
  have ed : d = 1 := by rw [e1] at hz; linarith
  refine ⟨_, _, h3 (Or.inl rfl), ?_⟩
  simp only [V3.mul_x, V3.smul_x, openFloor, underLamps, V3.dot, ex, ey, e1, ed]
  norm_num [cosTerm, Lights.eps]
  try ring

private theorem pick (ls : List Light) (l : Light) (u : V2 ℝ) (d t : V3 ℝ)
    (h : lightEval openFloor underLamps underLamps.frame.n false 1 l u = .ok (.seen d t)) (hn : l.meshNode = none) :
    evalOne openFloor underLamps false (l :: ls) 0 u = .ok [.seen d (t.smul ((ls.length + 1 : ℕ) : ℝ))] := by
  have hsc := lightEval_choice openFloor underLamps underLamps.frame.n false (1 / ((ls.length + 1 : ℕ) : ℝ)) _ u _ h
  rw [one_div_one_div] at hsc
  unfold evalOne chooseEmitter naiveSelect
  have ht : truncInt ((0 : ℝ) * (((ls.map fun l => (⟨l.meshNode⟩ : LightInfo)).length + 1 : ℕ) : ℝ)) = 0 := by
    rw [zero_mul]; exact truncInt_zero 0 (le_refl _) one_pos
  simp only [List.map_cons, List.length_cons, Nat.add_one_ne_zero, if_false]
  rw [ht]
  simp only [getAt, lt_irrefl, if_false, Int.toNat_zero, List.getElem?_cons_zero, Res.bind_ok, hn, Nat.cast_zero,
    List.length_map]
  simp only [reduceCtorEq, if_false, Res.pure_eq, Res.bind_ok]
  rw [hsc]
  rfl

/-- **C123 does not extend to taking lamps away.** Rendering a scene once with the first lamp only and once with the
second only, with the same random numbers, and adding the results is not the picture with both: with two lamps one of
them is chosen and counted twice. (On average over the random numbers it is, C100.) -/
theorem separate_lamps_refuted : ∃ (l m : Light) (c : ℝ) (u : V2 ℝ) (x y z : List LightEval),
    evalOne openFloor underLamps false [l] c u = .ok x ∧ evalOne openFloor underLamps false [m] c u = .ok y ∧
    evalOne openFloor underLamps false [l, m] c u = .ok z ∧
    Lights.accumulate (fun _ => ⟨1, 1, 1⟩) (z.map toEntry) ≠
      Lights.accumulate (fun _ => ⟨1, 1, 1⟩) (x.map toEntry) + Lights.accumulate (fun _ => ⟨1, 1, 1⟩) (y.map toEntry) := by
  obtain ⟨d, t, h, e⟩ := lampAbove 1 ⟨0, 0⟩
  obtain ⟨d', t', h', e'⟩ := lampAbove 2 ⟨0, 0⟩
  refine ⟨_, _, 0, ⟨0, 0⟩, _, _, _, pick [] _ _ d t h rfl, pick [] _ _ d' t' h' rfl,
    pick [.point ⟨2, 2, 2⟩ ⟨0, 0, 1⟩] _ _ d t h rfl, fun hh => ?_⟩
  have hx := congrArg V3.x hh
  have hpi := Real.pi_pos
  simp [Lights.accumulate, toEntry, e, e'] at hx
  field_simp at hx
  norm_num at hx

end Feign.Integrators
