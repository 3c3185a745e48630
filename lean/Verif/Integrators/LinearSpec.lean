import Verif.Integrators.Left
import Verif.Integrators.VolPath
import Verif.Integrators.Lit

/-!
# Specification of relighting

Three lightings of one scene: whatever sends out light in the third sends out `s` times what it sends out in the first
plus what it sends out in the second, where `s` has a factor for each colour channel. Everything else, the random
numbers included, is the same. With the second lighting dark this is dimming or tinting the first; with `s` white it is
having both.
-/

namespace Feign.Integrators

variable {K M : Type} [Field K] [LinearOrder K]

/-- The colour `c` is `s` times `a` plus `b`, channel by channel. -/
def Mix (s a b c : V3 K) : Prop := c = s * a + b

/-- Three lists of the same length, related entry by entry. -/
inductive Each3 {α : Type} (P : α → α → α → Prop) : List α → List α → List α → Prop where
  | nil : Each3 P [] [] []
  | cons {a b c : α} {as bs cs : List α} : P a b c → Each3 P as bs cs → Each3 P (a :: as) (b :: bs) (c :: cs)

/-! ## Surfaces -/

/-- Light samples under three lightings. -/
structure MixRay (s : V3 K) (a b c : ShadowRay K) : Prop where
  valid : a.valid = c.valid ∧ b.valid = c.valid
  albedo : a.albedo = c.albedo ∧ b.albedo = c.albedo
  throughput : Mix s a.throughput b.throughput c.throughput

/-- A surface under three lightings: what it emits and the light samples taken there differ, nothing else does (the
number of ray queries, which only concerns the timers, is free). -/
structure MixSurface (s : V3 K) (a b c : Surface K) : Prop where
  shader : a.shader = c.shader ∧ b.shader = c.shader
  delta : a.delta = c.delta ∧ b.delta = c.delta
  emitted : Mix s a.emitted b.emitted c.emitted
  rays : Each3 (MixRay s) a.shadowRays b.shadowRays c.shadowRays
  scatter : a.scatter = c.scatter ∧ b.scatter = c.scatter
  cos : a.cos = c.cos ∧ b.cos = c.cos
  u : a.u = c.u ∧ b.u = c.u

/-- The answers at a vertex under three lightings. -/
inductive MixAnswer (s : V3 K) : Answer K → Answer K → Answer K → Prop where
  | escape {qa qb qc : ℕ} {a b c : V3 K} : Mix s a b c → MixAnswer s (.escape qa a) (.escape qb b) (.escape qc c)
  | surface {qa qb qc : ℕ} {a b c : Surface K} :
      MixSurface s a b c → MixAnswer s (.surface qa a) (.surface qb b) (.surface qc c)

/-! ## Media -/

/-- Light samples with a direction. -/
structure MixVRay (s : V3 K) (a b c : VRay K) : Prop where
  valid : a.valid = c.valid ∧ b.valid = c.valid
  dir : a.dir = c.dir ∧ b.dir = c.dir
  throughput : Mix s a.throughput b.throughput c.throughput

/-- A scattering point under three lightings. -/
structure MixVertex (s : V3 K) (a b c : MediumVertex K) : Prop where
  rays : Each3 (MixVRay s) a.rays b.rays c.rays
  phase : a.phase = c.phase ∧ b.phase = c.phase
  wi : a.wi = c.wi ∧ b.wi = c.wi
  u : a.u = c.u ∧ b.u = c.u

/-- A way through a medium under three lightings: it ends at a scattering point in all of them or in none. -/
inductive MixMedium (s : V3 K) : MediumSample K → MediumSample K → MediumSample K → Prop where
  | through {w : V3 K} : MixMedium s ⟨w, none⟩ ⟨w, none⟩ ⟨w, none⟩
  | scatter {w : V3 K} {a b c : MediumVertex K} :
      MixVertex s a b c → MixMedium s ⟨w, some a⟩ ⟨w, some b⟩ ⟨w, some c⟩

/-- A surface with a material under three lightings. -/
structure MixVSurface (s : V3 K) (a b c : VSurface K) : Prop where
  shader : a.shader = c.shader ∧ b.shader = c.shader
  delta : a.delta = c.delta ∧ b.delta = c.delta
  emitted : Mix s a.emitted b.emitted c.emitted
  rays : Each3 (MixVRay s) a.rays b.rays c.rays
  mat : a.mat = c.mat ∧ b.mat = c.mat
  scatter : a.scatter = c.scatter ∧ b.scatter = c.scatter
  cos : a.cos = c.cos ∧ b.cos = c.cos
  u : a.u = c.u ∧ b.u = c.u

/-- What is hit under three lightings. -/
inductive MixTarget (s : V3 K) : Target K → Target K → Target K → Prop where
  | null : MixTarget s .null .null .null
  | surface {a b c : VSurface K} : MixVSurface s a b c → MixTarget s (.surface a) (.surface b) (.surface c)

/-- The answers of a pass under three lightings. -/
inductive MixVolAnswer (s : V3 K) : VolAnswer K M → VolAnswer K M → VolAnswer K M → Prop where
  | escape {a b c : V3 K} : Mix s a b c → MixVolAnswer s (.escape a) (.escape b) (.escape c)
  | hit {ma mb mc : M → MediumSample K} {bd : Option (Boundary K M)} {ta tb tc : Target K} :
      (∀ m, MixMedium s (ma m) (mb m) (mc m)) → MixTarget s ta tb tc →
        MixVolAnswer s (.hit ma bd ta) (.hit mb bd tb) (.hit mc bd tc)

/-! ## Scenes -/

/-- A scene under three lightings: the surroundings, the emission and the light samples are mixed, and sampling the
lights draws the same numbers. -/
structure MixWorld {R : Type} (s : V3 ℝ) (A B C : World R) : Prop where
  escapes : A.escapes = C.escapes ∧ B.escapes = C.escapes
  delta : A.delta = C.delta ∧ B.delta = C.delta
  scatter : A.scatter = C.scatter ∧ B.scatter = C.scatter
  env : ∀ r, Mix s (A.env r) (B.env r) (C.env r)
  emitted : ∀ r, Mix s (A.emitted r) (B.emitted r) (C.emitted r)
  lights : ∀ r ω, Each3 (MixRay s) (A.lights r ω).1 (B.lights r ω).1 (C.lights r ω).1 ∧
    (A.lights r ω).2 = (C.lights r ω).2 ∧ (B.lights r ω).2 = (C.lights r ω).2

/-! ## Lights -/

/-- The light with another colour: intensity, radiance or whatever the light calls it. -/
def recolour (I : V3 ℝ) : Lights.Light → Lights.Light
  | .point _ pos => .point I pos
  | .spot pos dir _ c => .spot pos dir I c
  | .directional dir _ => .directional dir I
  | .mesh _ inst m cdf => .mesh I inst m cdf
  | .dirMesh dir _ inst => .dirMesh dir I inst
  | .environment _ => .environment I

/-- A light in three colours. -/
def MixLight (s : V3 ℝ) (a b c : Lights.Light) : Prop :=
  ∃ l I J, a = recolour I l ∧ b = recolour J l ∧ c = recolour (s * I + J) l

/-- What a light contributes in three colours: visible in all or in none, from the same direction. -/
inductive MixEval (s : V3 ℝ) : Lights.LightEval → Lights.LightEval → Lights.LightEval → Prop where
  | nan : MixEval s .nan .nan .nan
  | hidden : MixEval s .hidden .hidden .hidden
  | seen {d a b c : V3 ℝ} : Mix s a b c → MixEval s (.seen d a) (.seen d b) (.seen d c)

/-- Three outcomes: the same failure, or related values. -/
inductive Each3Res {α : Type} (P : α → α → α → Prop) : Res α → Res α → Res α → Prop where
  | ok {a b c : α} : P a b c → Each3Res P (.ok a) (.ok b) (.ok c)
  | throw (e : String) : Each3Res P (.throw e) (.throw e) (.throw e)
  | ub (e : String) : Each3Res P (.ub e) (.ub e) (.ub e)

/-- Three lists of lamps at the same places. -/
def MixLamps (s : V3 ℝ) : List Lamp → List Lamp → List Lamp → Prop :=
  Each3 fun a b c => a.2 = c.2 ∧ b.2 = c.2 ∧ Mix s a.1 b.1 c.1

end Feign.Integrators
