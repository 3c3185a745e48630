import Verif.Api.RegistryRun

/-!
# Names, redefinition, repeated objects, single scene

C11, C12, C14, C15. A session starts in `St.init` and makes any sequence of calls (`run`); the caller may go
on after a thrown exception. `clk = true` is the code as it is; `clk = false` is the code with `CLOCKING`
switched off.
-/

set_option linter.unusedSectionVars false
namespace Feign.Api
variable {D T : Type}

/-- States a session can be in. -/
def Reachable (clk : Bool) (s : St D T) : Prop := ∃ one cs os, run clk (St.init one) cs = some (os, s)

theorem Reachable.inv {clk : Bool} {s : St D T} (h : Reachable clk s) : Inv s := by
  obtain ⟨one, cs, os, h⟩ := h
  exact (run_keeps clk cs (init_inv one) h).1

/-- The definition stored under a name, if any. -/
def St.defn (s : St D T) (k : Key) : Option (Def D T) := (s.lookup k.1 k.2).bind fun p => (s.node p).bind (·.payload)

/-! ### C11 -/

/-- **C11.** In every history: a name keeps its node for ever, two names of a kind never share a node, nodes
never lose their name, and a definition once given is kept as it is. -/
theorem names_permanent (clk : Bool) {s s' : St D T} (hs : Reachable clk s) {cs os}
    (h : run clk s cs = some (os, s')) :
    (∀ k n p, s.lookup k n = some p → s'.lookup k n = some p) ∧
    (∀ k n n' p, s.lookup k n = some p → s.lookup k n' = some p → n = n') ∧
    (∀ k k' n n' p, s.lookup k n = some p → s.lookup k' n' = some p → k = k') ∧
    (∀ k n p, s.lookup k n = some p → ∃ nd, s'.node p = some nd ∧ nd.kind = k ∧ nd.name = n) ∧
    (∀ k d, s.defn k = some d → s'.defn k = some d) := by
  have hI := hs.inv
  obtain ⟨hI', hL⟩ := run_keeps clk cs hI h
  refine ⟨hL.look, ?_, ?_, ?_, ?_⟩
  · intro k n n' p h1 h2
    obtain ⟨a, ha, _, hn⟩ := (hI.look _ _ _).1 h1
    obtain ⟨b, hb, _, hn'⟩ := (hI.look _ _ _).1 h2
    rw [ha, Option.some.injEq] at hb
    subst hb
    rw [← hn, hn']
  · intro k k' n n' p h1 h2
    obtain ⟨a, ha, hk, _⟩ := (hI.look _ _ _).1 h1
    obtain ⟨b, hb, hk', _⟩ := (hI.look _ _ _).1 h2
    rw [ha, Option.some.injEq] at hb
    subst hb
    rw [← hk, hk']
  · intro k n p h1
    exact (hI'.look _ _ _).1 (hL.look _ _ _ h1)
  · intro k d hd
    unfold St.defn at *
    obtain ⟨p, hp, hd⟩ := Option.bind_eq_some_iff.1 hd
    obtain ⟨nd, hn, hd⟩ := Option.bind_eq_some_iff.1 hd
    obtain ⟨nd', hn', _, _, hpay⟩ := hL.node p nd hn
    rw [hL.look _ _ _ hp]
    simp only [Option.bind_some]
    rw [hn']
    exact hpay d hd

/-- **C11.** Looking a name up makes it known, and every later lookup of it yields the same node. -/
theorem find_stable (clk : Bool) {s s' : St D T} (hs : Reachable clk s) {k n p}
    (hf : (find k n s).1 = some p) {cs os} (h : run clk (find k n s).2 cs = some (os, s')) :
    (find k n s').1 = some p := by
  have h1 := find_ok hs.inv k n
  obtain ⟨hI', hL⟩ := run_keeps clk cs h1.inv h
  have hl := hL.look _ _ _ (h1.ptr p hf)
  have h2 := find_ok hI' k n
  cases hp : (find k n s').1 with
  | none =>
    have := h2.null.1 hp
    rw [h1.null.2 this] at hf
    simp at hf
  | some q =>
    have := h2.ptr q hp
    rw [h2.grow.look _ _ _ hl] at this
    exact this.symm

/-- A session used in the examples: scene, two lights, an object, a BSDF defined after use, a repeated
definition. -/
def demo : List (Call Unit ℕ) :=
  [.scene "s" "i" "sam" "cam" "" () true, .integrator "i" "path" "default" (), .emitter "e" "point" "" (),
   .transform (· + 1), .object "o" "m" "sh" "e" (-1), .mesh "m" "sdf_sphere" "" "" "null" "null" (),
   .shader "sh" "simple_material" "b" "" (), .bsdf "b" "diffuse" ()]

example : (run true (St.init 0) demo).map (·.1) = some [.ok, .ok, .ok, .ok, .ok, .ok, .ok, .ok] := by decide
example : (run true (St.init 0) demo).map (fun r => (r.2.defn (.bsdf, "b"))) =
    some (some ⟨"diffuse", [], some (), none⟩) := by decide
example : (run true (St.init 0) (demo ++ [.bsdf "b" "mirror" ()])).map (fun r => (r.1.getLast?, r.2.defn (.bsdf, "b"))) =
    some (some .throw, some ⟨"diffuse", [], some (), none⟩) := by decide

/-! ### C12 -/

/-- The name a call defines (objects are C14). -/
def target : Call D T → Option Key
  | .integrator n _ _ _ => some (.integrator, n)
  | .sampler n _ _ => some (.sampler, n)
  | .camera n _ _ => some (.camera, n)
  | .mesh n _ _ _ _ _ _ => some (.mesh, n)
  | .shader n t _ _ _ =>
    if t = "interp_verts_to_sphere" then some (.geomShader, n)
    else if t = "simple_material" ∨ t = "wireframe" then some (.matShader, n) else none
  | .media n _ _ _ _ _ _ => some (.media, n)
  | .density n _ _ => some (.density, n)
  | .phase n _ _ => some (.phase, n)
  | .medSampling n _ _ => some (.medSampling, n)
  | .transEst n _ _ => some (.transEst, n)
  | .transFunc n _ _ => some (.transFunc, n)
  | .emitter n _ _ _ => some (.emitter, n)
  | .bsdf n _ _ => some (.bsdf, n)
  | .texture n _ _ => some (.texture, n)
  | _ => none

theorem declare_defined (d : Decl D) {s : St D T} (h : Inv s) {x} (hd : s.defn (d.kind, d.name) = some x) :
    (declare d s).1 = .throw ∧ Grow s (declare d s).2 := by
  have h1 := find_ok h d.kind d.name
  have h2 := findAll_ok d.pre h1.inv
  have hg := h1.grow.trans h2.grow
  unfold St.defn at hd
  obtain ⟨p, hp, hd⟩ := Option.bind_eq_some_iff.1 hd
  obtain ⟨nd, hn, hd⟩ := Option.bind_eq_some_iff.1 hd
  have hp1 : (find d.kind d.name s).1 = some p := by
    cases hq : (find d.kind d.name s).1 with
    | none =>
      have := h1.null.1 hq
      obtain ⟨nd', hn', hk, hm⟩ := (h.look _ _ _).1 hp
      have hf := h.free p nd' hn'
      dsimp only at hk hm
      rw [hk, hm, this] at hf
      simp at hf
    | some q =>
      have := h1.ptr q hq
      rw [h1.grow.look _ _ _ hp] at this
      exact this.symm
  unfold declare
  dsimp only
  rw [hp1]
  dsimp only
  rw [hg.node hn]
  dsimp only
  rw [if_pos (by rw [hd]; rfl)]
  exact ⟨rfl, hg⟩

theorem timed_throw (clk : Bool) {body : St D T → Out × St D T} {s : St D T}
    (hb : ∀ b, (body { s with apiOn := b }).1 = .throw ∧ Grow { s with apiOn := b } (body { s with apiOn := b }).2) :
    ∃ s', timed clk body s = (.throw, s') ∧ s.nodes <+: s'.nodes ∧
      (∀ k n p, s.lookup k n = some p → s'.lookup k n = some p) ∧ s'.scene = s.scene ∧ s'.lights = s.lights ∧
      s'.accel = s.accel ∧ s'.sdfOnly = s.sdfOnly ∧ s'.cur = s.cur := by
  unfold timed
  split_ifs with c1 c2
  · exact ⟨s, rfl, List.prefix_refl _, fun _ _ _ h => h, rfl, rfl, rfl, rfl, rfl⟩
  · have := hb true
    dsimp only
    rw [this.1]
    exact ⟨_, rfl, this.2.nodes, this.2.look, this.2.scene, this.2.lights, this.2.accel, this.2.sdf, this.2.cur⟩
  · have := hb s.apiOn
    have e : ({ s with apiOn := s.apiOn } : St D T) = s := rfl
    rw [e] at this
    exact ⟨_, Prod.ext this.1 rfl, this.2.nodes, this.2.look, this.2.scene, this.2.lights, this.2.accel, this.2.sdf, this.2.cur⟩

/-- **C12.** A call that defines a name already defined throws. Every node keeps exactly the contents it had
(new, undefined nodes may appear for names the call mentions), and nothing else changes except the timer. -/
theorem redefinition_rejected (clk : Bool) {s : St D T} (hs : Reachable clk s) {c : Call D T} {k : Key}
    (hc : target c = some k) {d} (hd : s.defn k = some d) :
    ∃ s', step clk s c = some (.throw, s') ∧ s'.defn k = some d ∧
      (∀ p nd, s.node p = some nd → s'.node p = some nd) ∧
      (∀ k n p, s.lookup k n = some p → s'.lookup k n = some p) ∧
      s'.scene = s.scene ∧ s'.lights = s.lights ∧ s'.accel = s.accel ∧ s'.sdfOnly = s.sdfOnly ∧
      s'.cur = s.cur := by
  have hI := hs.inv
  have main : ∃ s', timed clk (declBody c) s = (.throw, s') ∧ s.nodes <+: s'.nodes ∧
      (∀ k n p, s.lookup k n = some p → s'.lookup k n = some p) ∧ s'.scene = s.scene ∧ s'.lights = s.lights ∧
      s'.accel = s.accel ∧ s'.sdfOnly = s.sdfOnly ∧ s'.cur = s.cur := by
    apply timed_throw
    intro b
    unfold declBody
    have hd' : ({ s with apiOn := b } : St D T).defn k = some d := hd
    cases hq : decl? c with
    | none => exact ⟨rfl, Grow.refl _⟩
    | some dc =>
      have hk : (dc.kind, dc.name) = k := by
        cases c <;> simp only [decl?, target, reduceCtorEq, Option.some.injEq] at hq hc
        case shader n t b b2 dd =>
          split_ifs at hq hc <;> simp_all <;> (subst hq; simp_all)
        all_goals (subst hq; exact hc)
      exact declare_defined dc (hI.api b) (by rw [hk]; exact hd')
  have hstep : step clk s c = some (timed clk (declBody c) s) := by
    cases c <;> first | rfl | simp [target] at hc
  obtain ⟨s', h1, h2, h3, h4⟩ := main
  have hnode : ∀ p nd, s.node p = some nd → s'.node p = some nd := by
    intro p nd hn
    obtain ⟨l, hl⟩ := h2
    have hlt := node_lt hn
    unfold St.node at *
    rw [← hl, List.getElem?_append_left hlt]
    exact hn
  refine ⟨s', by rw [hstep, h1], ?_, hnode, h3, h4⟩
  unfold St.defn at *
  obtain ⟨p, hp, hd⟩ := Option.bind_eq_some_iff.1 hd
  obtain ⟨nd, hn, hd⟩ := Option.bind_eq_some_iff.1 hd
  rw [h3 _ _ _ hp]
  simp only [Option.bind_some]
  rw [hnode p nd hn]
  exact hd

/-- The hypotheses of `redefinition_rejected` are met by the demo session. -/
example : ∃ s : St Unit ℕ, Reachable true s ∧ target (.bsdf "b" "mirror" () : Call Unit ℕ) = some (.bsdf, "b") ∧
    ∃ d, s.defn (.bsdf, "b") = some d := by
  refine ⟨_, ⟨0, demo, _, rfl⟩, rfl, ⟨"diffuse", [], some (), none⟩, ?_⟩
  decide

/-- Declaring a BSDF with type "null" stores nothing, so the name is still undefined and may be declared
again (`api.cpp:1395-1398`). -/
theorem null_bsdf_redeclared :
    (run true (St.init 0 : St Unit ℕ) [.bsdf "b" "null" (), .bsdf "b" "diffuse" ()]).map
      (fun r => (r.1, r.2.defn (.bsdf, "b"))) =
    some ([.ok, .ok], some ⟨"diffuse", [], some (), none⟩) := by decide

/-! ### C14 -/

/-- **C14 refuted.** In the code as it is, declaring an object under a name that is in use always throws (the
nested call finds the `API` timer running); no object is added. -/
theorem repeated_object_refuted {s : St D T} (hoff : s.apiOn = false)
    (name mesh shader emitter : String) (index : Int) {d} (hd : s.defn (.object, objName name index) = some d) :
    step true s (.object name mesh shader emitter index) = some (.throw, { s with apiOn := true }) := by
  unfold St.defn at hd
  obtain ⟨p, hp, hd⟩ := Option.bind_eq_some_iff.1 hd
  obtain ⟨nd, hn, hd⟩ := Option.bind_eq_some_iff.1 hd
  dsimp only at hp
  show objectCall true mesh shader emitter (_ + 2 + _) name index s = _
  rw [show s.nodes.length + 2 + (-1 - index).toNat = s.nodes.length + (-1 - index).toNat + 1 + 1 from by omega]
  unfold objectCall
  rw [hoff]
  simp only [Bool.and_false, Bool.false_eq_true, if_false, Bool.true_or, if_true]
  have hp' : ({ s with apiOn := true } : St D T).lookup .object (objName name index) = some p := hp
  have hn' : ({ s with apiOn := true } : St D T).node p = some nd := hn
  rw [find_object_known hp']
  dsimp only
  rw [hn']
  dsimp only
  rw [if_pos (by rw [hd]; rfl)]
  unfold objectCall
  rfl

/-- The refutation concerns real sessions: two objects called "o". -/
example : (run true (St.init 0) (demo ++ [.object "o" "m2" "sh" "" (-1)])).map
    (fun r => (r.1.getLast?, r.2.lookup .object "o_0", r.2.lookup .mesh "m2")) = some (some .throw, none, none) := by
  decide

theorem find_object_undefined {s : St D T} {nm : String}
    {p nd} (hp : (find .object nm s).1 = some p) (hn : (find .object nm s).2.node p = some nd)
    (hpay : nd.payload = none) : s.defn (.object, nm) = none := by
  unfold St.defn
  dsimp only
  cases hl : s.lookup .object nm with
  | none => rfl
  | some q =>
    rw [find_object_known hl] at hp hn
    simp only [Option.some.injEq] at hp
    subst hp
    dsimp only at hn
    simp only [Option.bind_some]
    rw [hn]
    exact hpay

theorem view_defn (s : St D T) (k : Key) :
    (s.view.entry k).bind (·.payload) = (s.defn k).map s.viewDef := by
  unfold St.view St.defn
  dsimp only
  cases s.lookup k.1 k.2 with
  | none => rfl
  | some p =>
    simp only [Option.bind_some]
    cases s.node p with
    | none => rfl
    | some nd => rfl

theorem objectFill_defn (mesh shader emitter : String) {s : St D T} (h : Inv s) {p : Nat} {nm : String}
    {nd : Node D T} (hl : s.lookup .object nm = some p) (hn : s.node p = some nd) (hp : nd.payload = none) :
    ∃ d, (objectFill mesh shader emitter p s).defn (.object, nm) = some d ∧ d.xf = some s.cur ∧
      d.refs.map (objectFill mesh shader emitter p s).key = [some (.mesh, mesh), some (.matShader, shader),
          if emitter = "null" ∨ emitter = "" then none else some (.emitter, emitter)] := by
  have h1 := (objectFill_ok mesh shader emitter h hl hn hp).view
  dsimp only at h1
  have h2 := view_defn (objectFill mesh shader emitter p s) (.object, nm)
  have he : (s.view.entry (.object, nm)) = some (s.viewNode nd) := entry_some hl hn
  have key : ∃ a : ADef D T, (((objectFill mesh shader emitter p s).view.entry (.object, nm)).bind (·.payload)) = some a ∧
      a.xf = some s.cur ∧ a.refs = [some (.mesh, mesh), some (.matShader, shader),
          if emitter = "null" ∨ emitter = "" then none else some (.emitter, emitter)] := by
    rw [h1]
    unfold Desc.objectFill
    by_cases hc : emitter = "null" ∨ emitter = ""
    · rw [if_neg (by tauto), if_pos hc]
      simp only [Desc.define, Desc.mention, if_true, he]
      exact ⟨_, rfl, rfl, rfl⟩
    · rw [if_pos (by tauto), if_neg hc]
      simp only [Desc.define, Desc.own, Desc.mention, if_true, he]
      rw [if_neg (by simp)]
      exact ⟨_, rfl, rfl, rfl⟩
  obtain ⟨a, ha, hx, hr⟩ := key
  rw [ha] at h2
  cases hd : (objectFill mesh shader emitter p s).defn (.object, nm) with
  | none => rw [hd] at h2; simp at h2
  | some d =>
    rw [hd] at h2
    simp only [Option.map_some, Option.some.injEq] at h2
    subst h2
    exact ⟨d, rfl, hx, hr⟩

theorem objectCall_creates (mesh shader emitter : String) :
    ∀ (fuel : ℕ) (name : String) (index : Int) {s : St D T} {r}, Inv s →
      objectCall false mesh shader emitter fuel name index s = some r →
      r.1 = .ok ∧ ∃ nm d, name.toList <+: nm.toList ∧ s.defn (.object, nm) = none ∧
        r.2.defn (.object, nm) = some d ∧ d.xf = some s.cur ∧
        d.refs.map r.2.key = [some (.mesh, mesh), some (.matShader, shader),
          if emitter = "null" ∨ emitter = "" then none else some (.emitter, emitter)]
  | 0, _, _, _, _, _, h => by simp [objectCall] at h
  | fuel + 1, name, index, s, r, hI, h => by
    have hpre : name.toList <+: (objName name index).toList := by
      unfold objName
      split_ifs
      · rw [String.toList_append, String.toList_append, List.append_assoc]
        exact List.prefix_append _ _
      · exact List.prefix_refl _
    unfold objectCall at h
    simp only [Bool.false_and, Bool.false_eq_true, if_false, Bool.false_or] at h
    cases hl : s.lookup .object (objName name index) with
    | some p =>
      have hund := @find_object_undefined D T s (objName name index) p
      rw [find_object_known hl] at h hund
      dsimp only at h
      obtain ⟨nd, hn, -⟩ := (hI.look _ _ _).1 hl
      rw [hn] at h
      dsimp only at h
      by_cases hp : nd.payload.isSome = true
      · rw [if_pos hp] at h
        obtain ⟨h1, nm, d, h2, h3⟩ := objectCall_creates mesh shader emitter fuel _ _ hI h
        exact ⟨h1, nm, d, hpre.trans h2, h3⟩
      · rw [if_neg hp] at h
        have hp' : nd.payload = none := by simpa using hp
        obtain ⟨d, hdef⟩ := objectFill_defn mesh shader emitter hI hl hn hp'
        simp only [Option.some.injEq] at h
        subst h
        exact ⟨rfl, objName name index, d, hpre, hund rfl hn hp', hdef⟩
    | none =>
      have h1 := find_ok hI .object (objName name index)
      rw [find_object_fresh hl] at h h1
      have hn : (s.alloc .object (objName name index)).2.node s.nodes.length =
          some ⟨.object, objName name index, none, none⟩ := by
        rw [node_alloc, if_pos rfl]; rfl
      have hp : (s.alloc .object (objName name index)).1 = some s.nodes.length := rfl
      rw [hp] at h
      simp only [hn, Option.isSome_none, Bool.false_eq_true, if_false, Option.some.injEq] at h
      subst h
      obtain ⟨d, hdef⟩ := objectFill_defn mesh shader emitter h1.inv (h1.ptr _ hp) hn rfl
      refine ⟨rfl, objName name index, d, hpre, ?_, hdef⟩
      unfold St.defn
      dsimp only
      rw [hl]
      rfl

/-- **C14, without the timing code** (`CLOCKING` off; the full property fails in the code as it is, see
`repeated_object_refuted`). Declaring an object under any name, used or not, returns normally. It defines one
object whose name starts with the given name and was undefined before, with the mesh, material, emitter and
transform of this call. Everything defined before stays as it was. -/
theorem repeated_object_partial {s : St D T} (hs : Reachable false s) (name mesh shader emitter : String)
    (index : Int) :
    ∃ s' nm d, step false s (.object name mesh shader emitter index) = some (.ok, s') ∧
      name.toList <+: nm.toList ∧ s.defn (.object, nm) = none ∧ s'.defn (.object, nm) = some d ∧
      d.xf = some s.cur ∧
      d.refs.map s'.key = [some (.mesh, mesh), some (.matShader, shader),
        if emitter = "null" ∨ emitter = "" then none else some (.emitter, emitter)] ∧
      (∀ k x, s.defn k = some x → s'.defn k = some x) := by
  have hI := hs.inv
  have ht := step_total false hI (.object name mesh shader emitter index)
  obtain ⟨⟨o, s'⟩, hr⟩ := Option.isSome_iff_exists.1 ht
  obtain ⟨ho, nm, d, h1, h2, h3, h4, h5⟩ := objectCall_creates mesh shader emitter _ name index hI hr
  dsimp only at ho
  subst ho
  refine ⟨s', nm, d, hr, h1, h2, h3, h4, h5, ?_⟩
  intro k x hx
  have hL := (step_keeps false hI _ hr).2
  unfold St.defn at *
  obtain ⟨p, hp, hx⟩ := Option.bind_eq_some_iff.1 hx
  obtain ⟨nd, hn, hx⟩ := Option.bind_eq_some_iff.1 hx
  obtain ⟨nd', hn', _, _, hpay⟩ := hL.node p nd hn
  rw [hL.look _ _ _ hp]
  simp only [Option.bind_some]
  dsimp only at hn'
  rw [hn']
  exact hpay x hx

/-- Three objects called "o" and one called "o_0": without timers they get four different names. -/
example : (run false (St.init 0 : St Unit ℕ) [.object "o" "m" "h" "" (-1), .object "o_0" "m" "h" "" (-1),
    .object "o" "m" "h" "" (-1), .object "o" "m" "h" "" (-1)]).map (fun r => (r.1, r.2.reg.filterMap fun x =>
      if x.1.1 = .object then some x.1.2 else none)) =
    some ([.ok, .ok, .ok, .ok], ["o", "o_0", "o_0_1", "o_0_1_2"]) := by decide

/-! ### C15 -/

theorem sceneBody_second {s : St D T} {r} (hs : s.scene = some r) (n i sa c m : String) (d : D) (sdf : Bool) :
    sceneBody n i sa c m d sdf s = (.throw, { s with sdfOnly := sdf }) := by
  unfold sceneBody
  simp [hs]

/-- **C15, partial.** Once a scene is declared, every further scene declaration throws, and the declared
scene (its name, integrator, sampler, camera, medium and texts) stays the same in every later history; a
rejected declaration changes no node. Missing: the distance-field mode flag, which the rejected call does
overwrite (`second_scene_mode_refuted`). -/
theorem single_scene_partial (clk : Bool) {s : St D T} (hs : Reachable clk s) {r} (hr : s.scene = some r) :
    (∀ n i sa c m d sdf, ∃ s', step clk s (.scene n i sa c m d sdf) = some (.throw, s') ∧ s'.scene = some r ∧
      s'.nodes = s.nodes ∧ s'.reg = s.reg ∧ s'.lights = s.lights ∧ s'.accel = s.accel ∧ s'.cur = s.cur) ∧
    (∀ cs os s', run clk s cs = some (os, s') → s'.scene = some r) := by
  constructor
  · intro n i sa c m d sdf
    show ∃ s', some (timed clk (sceneBody n i sa c m d sdf) s) = some (.throw, s') ∧ _
    unfold timed
    split_ifs with c1 c2
    · exact ⟨s, rfl, hr, rfl, rfl, rfl, rfl, rfl⟩
    · dsimp only
      rw [sceneBody_second (s := { s with apiOn := true }) hr]
      exact ⟨_, rfl, hr, rfl, rfl, rfl, rfl, rfl⟩
    · rw [sceneBody_second hr]
      exact ⟨_, rfl, hr, rfl, rfl, rfl, rfl, rfl⟩
  · intro cs os s' h
    exact (run_keeps clk cs hs.inv h).2.scene r hr

/-- **C15 refuted for the mode flag.** The rejected second declaration switches distance-field mode. -/
theorem second_scene_mode_refuted :
    (run true (St.init 0 : St Unit ℕ) [.scene "s" "i" "sam" "cam" "" () true,
      .scene "t" "i" "sam" "cam" "" () false]).map (fun r => (r.1, r.2.scene.map (·.name), r.2.sdfOnly)) =
    some ([.ok, .throw], some "s", false) := by decide

example : ∃ (s : St Unit ℕ) (r : _), Reachable true s ∧ s.scene = some r :=
  ⟨_, ⟨"s", some 0, some 1, some 2, none, some ()⟩, ⟨0, demo, _, rfl⟩, by decide⟩

end Feign.Api
