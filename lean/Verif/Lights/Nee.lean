import Verif.Lights.Emitters
import Verif.Sampling.LightSelect

/-!
# Direct light at a point (model)

`Scene::eval_all_emitters`, `eval_one_emitter`, `eval_multi_emitters` (`src/scene.cpp:361-632`) and
`MaterialClosure::accumulate_shadow_rays` (`src/closure/material.cpp:72-94`). Ray queries are functions: what they
answer is the subject of `Verif/Scene`. The three evaluation functions contain the same code for one light; it is
modelled once (`lightEval`) with the places in which they differ as arguments.
-/

namespace Feign.Lights

open Feign.Sampling

/-- Ray queries from the point: `first d` is the answer of `intersect_non_null` in direction `d` (mesh and point);
`shadow d far` is the answer of `intersect_transmittance` up to `far` and the transmittance it leaves. -/
structure World where
  first : V3 ℝ → Option (ℕ × V3 ℝ)
  shadow : V3 ℝ → ℝ → Bool × V3 ℝ
  ignoreShadows : Bool

/-- The shaded point: position, geometric normal, shading frame and the instance id of the mesh. -/
structure Spot where
  p : V3 ℝ
  gn : V3 ℝ
  frame : Frame
  inst : ℕ

/-- The outcome for one light: the numbers are not numbers, the light is hidden (the entry stays invalid), or the entry
is valid with a local direction and a throughput. -/
inductive LightEval where
  | nan
  | hidden
  | seen (dir throughput : V3 ℝ)

/-- `cos_term` after `src/scene.cpp:420-423` (`:513-516`, `:609-612`). -/
noncomputable def cosTerm (c : ℝ) : ℝ := if c < -eps then -c else c

/-- The extra ray of `src/scene.cpp:373-400` (`:464-491`, `:560-587`). -/
noncomputable def initialCheck (w : World) (p : V3 ℝ) (l : Light) (s : LightSample) : Option LightSample :=
  if l.needsCheck then
    match w.first s.wi with
    | some (m, q) =>
      if l.meshNode = some m then
        if (q - p).sqrNorm = 0 then none
        else some { s with sqrDist := some (q - p).sqrNorm, value := s.value.smul (1 / (q - p).sqrNorm) }
      else some { s with value := 0 }
    | none => some { s with value := 0 }
  else some s

/-- One light, `src/scene.cpp:367-441` (`:458-534`, `:554-630`): `normal` is the geometric normal in
`eval_all_emitters` and the shading normal in the others; `choice` is `choice_pdf` (1 in `eval_all_emitters`, where
the factor is absent). Reading `eqr.sqr_dist` when it has never been written is undefined. -/
noncomputable def lightEval (w : World) (sp : Spot) (normal : V3 ℝ) (inMedia : Bool) (choice : ℝ) (l : Light)
    (u : V2 ℝ) : Res LightEval := do
  match ← l.sampleNee sp.p u with
  | none => pure .nan
  | some s =>
    match initialCheck w sp.p l s with
    | none => pure .nan
    | some s =>
      match s.sqrDist with
      | none => .ub "sqr_dist is read before it is written"
      | some d2 =>
        let (hit, tr) := w.shadow s.wi (Real.sqrt d2 - eps)
        if hit && !w.ignoreShadows then pure .hidden
        else
          let li := if inMedia then s.value else s.value.smul (cosTerm (normal.dot s.wi))
          pure (.seen (sp.frame.toLocal s.wi)
            (if s.pdf = 0 then 0 else (li.smul (1 / (choice * s.pdf))) * tr))

/-- `eval_all_emitters`, `src/scene.cpp:361-443`: one entry per light; `us` are the numbers drawn for each. -/
noncomputable def evalAll (w : World) (sp : Spot) (inMedia : Bool) : List Light → List (V2 ℝ) → Res (List LightEval)
  | l :: ls, u :: us => do
    let e ← lightEval w sp sp.gn inMedia 1 l u
    let es ← evalAll w sp inMedia ls us
    pure (e :: es)
  | _, _ => .ok []

/-- `eval_one_emitter`, `src/scene.cpp:445-535`, with `choose_emitter` (`:634-661`, `Sampling/LightSelect`): `c` is the
number drawn for the choice. The returned list is `closure.shadow_rays`. -/
noncomputable def evalOne (w : World) (sp : Spot) (inMedia : Bool) (ls : List Light) (c : ℝ) (u : V2 ℝ) :
    Res (List LightEval) := do
  let (chosen, pdf) ← chooseEmitter (ls.map fun l => ⟨l.meshNode⟩) sp.inst c
  match chosen, pdf with
  | some i, some pdf => do
    let l ← getAt ls i
    let e ← lightEval w sp sp.frame.n inMedia pdf l u
    pure [e]
  | _, _ => pure [.hidden]

/-- An element of `closure.shadow_rays` (`include/feign/core/closure.h:23-28`); the direction of a new element is the
zero vector. -/
structure Entry where
  valid : Bool
  dir : V3 ℝ
  throughput : V3 ℝ

/-- What round `i` of `eval_multi_emitters` writes, `src/scene.cpp:617-627`: validity and direction of element 0,
throughput of element `i`. -/
def multiWrite (i : ℕ) (e : LightEval) (es : List Entry) : List Entry :=
  match e with
  | .seen d t =>
    let es := es.modify 0 fun x => { x with valid := true, dir := d }
    es.modify i fun x => { x with throughput := t }
  | _ => es

/-- The loop of `eval_multi_emitters`, `src/scene.cpp:543-631`, from round `i` on; the outcomes of the rounds are
given. -/
def multiLoop : ℕ → List LightEval → List Entry → List Entry
  | _, [], es => es
  | i, e :: rest, es => multiLoop (i + 1) rest (multiWrite i e es)

/-- `eval_multi_emitters`, `src/scene.cpp:537-632`. -/
def evalMulti (evals : List LightEval) : List Entry :=
  multiLoop 0 evals (List.replicate evals.length ⟨false, 0, 0⟩)

/-- The elements after `eval_all_emitters` or `eval_one_emitter`. -/
def toEntry : LightEval → Entry
  | .seen d t => ⟨true, d, t⟩
  | _ => ⟨false, 0, 0⟩

/-- `accumulate_shadow_rays`, `src/closure/material.cpp:72-94`: what is added to `nee`; `bsdf d` is the material's value
for the direction `d` after line 81 has normalised it. -/
def accumulate (bsdf : V3 ℝ → V3 ℝ) (es : List Entry) : V3 ℝ :=
  es.foldl (fun acc e => if e.valid then acc + e.throughput * bsdf e.dir else acc) 0

end Feign.Lights
