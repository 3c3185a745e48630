import Verif.Parser.ExecRender

/-!
# C121: which files can be rendered
-/

set_option linter.unusedSectionVars false
set_option linter.unusedSimpArgs false

namespace Feign.Parser

open Api (Kind)

variable {F T : Type} (fl : Rat → F) (m : Xf F T)

/-- **C121 (nothing missing).** The scene of a file that was carried out is put together, in whatever order the
renderer goes through its tables, exactly if the file has a scene and declares what is referred to: the scene's
camera, sampler and integrator, the integrator using the provided filter, the shape of each object and the light
it carries, and all media with their densities. -/
theorem assembles_iff {ms : List (String × Js)} {s : Api.St (Call F) T}
    (h : runFile fl m (.obj ms) = some (.rendered s)) (mul : T → T → T) (one : T) {os es mds : List Nat}
    (ho : Api.IsOrder s .object os) (he : Api.IsOrder s .emitter es) (hm : Api.IsOrder s .media mds) :
    (Api.flush true mul one s os es mds).1 = .ok ↔ Whole ((entries fl m ms).map (·.2)) := by
  have hv := file_builds fl m h
  obtain ⟨-, hf⟩ := (rendered_iff fl m ms).1 ⟨s, h⟩
  have hoff : s.apiOn = false := congrArg Api.Desc.apiOn hv
  have hreach : Api.Reachable true s := by
    obtain ⟨-, hx⟩ := (rendered_cases fl m ms s).1 h
    obtain ⟨o, hr⟩ := exec_run m _ hx
    exact ⟨_, _, o, hr⟩
  have hscv : s.scene.map s.viewScene = (describe m.one (entries fl m ms)).scene := congrArg Api.Desc.scene hv
  cases hsc : s.scene with
  | none =>
    rw [hsc, Option.map_none] at hscv
    constructor
    · intro h'
      unfold Api.flush at h'
      rw [hoff, hsc] at h'
      simp at h'
    · intro hw
      obtain ⟨c, hc, hapi⟩ := hw.scene
      obtain ⟨p, hp, rfl⟩ := List.mem_map.1 hc
      have := (scene_isSome m.one (entries fl m ms)).2 ⟨p, hp, hapi⟩
      rw [← hscv] at this
      simp at this
  | some sc =>
    rw [hsc, Option.map_some] at hscv
    rw [Api.complete_renders mul one hreach hoff hsc ho he hm, Api.complete_view hreach hsc, hv,
      whole_iff m.one hf hscv.symm]

/-! ### An example -/

/-- Transforms written out as the list of commands. -/
def commands : Xf Rat (List (Call Rat)) where
  one := []
  scale v t := t ++ [.scale v]
  translate v t := t ++ [.translate v]
  rotate a v t := t ++ [.rotate a v]

/-- A glowing ball. -/
def ballFile : List (String × Js) :=
  [("scene", .obj [("integrator", .str "i"), ("sampler", .str "s"), ("camera", .str "c")]),
   ("object", .obj [("mesh", .str "ball"), ("emitter", .str "lamp"), ("scale", .arr [.int 2, .int 2, .int 2])]),
   ("emitter", .obj [("type", .str "mesh"), ("name", .str "lamp")]),
   ("mesh", .obj [("type", .str "sdf_sphere"), ("name", .str "ball")]),
   ("camera", .obj [("name", .str "c")]), ("sampler", .obj [("name", .str "s")]),
   ("integrator", .obj [("name", .str "i")])]

/-- How a run ended, without the state. -/
def End.tag {F T : Type} : End F T → String
  | .rendered _ => "rendered"
  | .stopped _ => "stopped"
  | .failed _ => "failed"

example : (runFile id commands (.obj ballFile)).map End.tag = some "rendered" := by decide +kernel

/-- The light before the scene. -/
example : (runFile id commands (.obj (("emitter", .obj [("type", .str "mesh"), ("name", .str "lamp")]) :: ballFile))).map
    End.tag = some "failed" := by decide +kernel

/-- Two objects of the same name: here both are left without one. -/
example : (runFile id commands (.obj (ballFile ++ [("object", .obj [("mesh", .str "ball")])]))).map End.tag =
    some "failed" := by decide +kernel

/-- Each object has the transform of its own section. -/
example : (entries id commands ballFile).map (fun p => (p.2.api, p.1.length)) =
    [("scene", 0), ("object", 1), ("emitter", 0), ("mesh", 0), ("camera", 0), ("sampler", 0), ("integrator", 0)] := by
  decide +kernel

/-- Nothing is missing from the example. -/
example : Whole ((entries id commands ballFile).map (·.2)) := by
  have hk : ((entries id commands ballFile).map (·.2)).map Call.key = [none, some (.object, "obj"), some (.emitter, "lamp"),
      some (.mesh, "ball"), some (.camera, "c"), some (.sampler, "s"), some (.integrator, "i")] := by decide +kernel
  have hu : ((entries id commands ballFile).map (·.2)).map Call.uses = [[(.integrator, "i"), (.sampler, "s"), (.camera, "c"),
      (.media, "default")], [(.mesh, "ball"), (.matShader, "null"), (.emitter, "lamp")], [], [], [], [],
      [(.filter, "default")]] := by decide +kernel
  have hd : ∀ k, some k ∈ ((entries id commands ballFile).map (·.2)).map Call.key →
      Declared ((entries id commands ballFile).map (·.2)) k := by
    intro k h
    obtain ⟨c, hc, h⟩ := List.mem_map.1 h
    exact ⟨c, hc, h⟩
  have hmem : ∀ c ∈ (entries id commands ballFile).map (·.2), c.uses ∈ ((entries id commands ballFile).map (·.2)).map Call.uses ∧
      c.key ∈ ((entries id commands ballFile).map (·.2)).map Call.key :=
    fun c hc => ⟨List.mem_map.2 ⟨c, hc, rfl⟩, List.mem_map.2 ⟨c, hc, rfl⟩⟩
  rw [hk] at hd
  simp only [hk, hu] at hmem
  refine ⟨?_, ?_, ?_, ?_, ?_⟩
  · have : "scene" ∈ ((entries id commands ballFile).map (·.2)).map Call.api := by decide +kernel
    obtain ⟨c, hc, h⟩ := List.mem_map.1 this
    exact ⟨c, hc, h⟩
  · intro n i s cam med kw ds sdf h
    have := (hmem _ h).1
    simp only [Call.uses, List.mem_cons, List.cons_append, List.nil_append, List.cons.injEq, Prod.mk.injEq,
      reduceCtorEq, false_and, true_and, and_false, false_or, or_false, List.not_mem_nil] at this
    obtain ⟨rfl, rfl, rfl, -⟩ := this
    have hi : some (Kind.integrator, "i") ∈ ((entries id commands ballFile).map (·.2)).map Call.key := by
      rw [hk]; simp
    obtain ⟨c, hc, hck⟩ := List.mem_map.1 hi
    obtain ⟨t, f, ip, ph, rfl⟩ := key_integrator hck
    have hf := (hmem _ hc).1
    simp [Call.uses] at hf
    subst hf
    exact ⟨hd _ (by simp), hd _ (by simp), t, ip, ph, hc⟩
  · intro n me sh e h
    have := (hmem _ h).1
    simp only [Call.uses, List.mem_cons, List.cons_append, List.nil_append, List.cons.injEq, Prod.mk.injEq,
      reduceCtorEq, false_and, true_and, and_false, false_or, or_false, List.not_mem_nil] at this
    obtain ⟨rfl, rfl, he⟩ := this
    refine ⟨hd _ (by simp), fun h1 h2 => ?_⟩
    simp [h1, h2] at he
    subst he
    exact hd _ (by simp)
  · intro c hc n hn h1 h2
    have := (hmem _ hc).1
    simp only [List.mem_cons, List.not_mem_nil, or_false] at this
    rcases this with h | h | h | h | h | h | h <;> rw [h] at hn <;> simp at hn
    exact absurd hn h2
  · intro n te ph sa de tf a s h
    have := (hmem _ h).2
    simp [Call.key] at this

/-- The sections of the example behind the scene can be turned around. -/
example {s} (h : runFile id commands (.obj ballFile) = some (.rendered s)) :
    ∃ s', runFile id commands (.obj (ballFile.take 1 ++ (ballFile.drop 1).reverse)) = some (.rendered s') ∧
      Api.SameDescription s s' := by
  refine sections_any_order id commands ?_ h ?_ ?_ ?_
  · conv_lhs => rw [← List.take_append_drop 1 ballFile]
    exact List.Perm.append_left _ (List.reverse_perm _).symm
  · have hc : ((entries id commands ballFile).map fun p => p.2.carried).Pairwise fun a b => a = none ∨ b = none := by
      decide +kernel
    rw [List.pairwise_map] at hc
    refine hc.imp fun {p q} h e he he' => ?_
    rcases h with h | h
    · rw [h] at he; simp at he
    · rw [h] at he'; simp at he'
  · have hc : ((entries id commands ballFile).map fun p => p.2.api).Pairwise fun a b => a ≠ "accel" := by
      decide +kernel
    rw [List.pairwise_map] at hc
    exact hc.imp fun {p q} h h' => absurd h' h
  · intro A p B e hp
    have hh : ((entries id commands (ballFile.take 1 ++ (ballFile.drop 1).reverse)).head?.map fun p => p.2.api) =
        some "scene" := by decide +kernel
    cases A with
    | nil =>
      rw [e] at hh
      simp only [List.nil_append, List.head?_cons, Option.map_some, Option.some.injEq] at hh
      rw [hh] at hp
      simp at hp
    | cons q A =>
      rw [e] at hh
      simp only [List.cons_append, List.head?_cons, Option.map_some, Option.some.injEq] at hh
      exact ⟨q, List.mem_cons_self, hh⟩

/-- **C121 refuted (names left out).** Names can be left out of a section, and the parser fills in defaults
(`json_parser.cpp:94-98`, `:293`). They do not fit together: a scene that leaves out its integrator asks for one
called "default", an integrator that leaves out its name is called "integrator". So the file with everything left
out is carried out, but nothing is rendered: putting the scene together fails. -/
theorem default_names_refuted (fl : Rat → F) (m : Xf F T) :
    (∃ s, runFile fl m (.obj [("scene", .obj []), ("integrator", .obj []), ("sampler", .obj []), ("camera", .obj [])]) =
      some (.rendered s)) ∧
    ¬ Whole ((entries fl m [("scene", .obj []), ("integrator", .obj []), ("sampler", .obj []), ("camera", .obj [])]).map
      (·.2)) := by
  refine ⟨(rendered_iff fl m _).2 ⟨?_, ?_⟩, fun hw => ?_⟩
  · intro sec h
    simp only [List.mem_cons, List.not_mem_nil, or_false] at h
    rcases h with rfl | rfl | rfl | rfl <;> rfl
  · obtain ⟨c1, c2, c3, c4, he, k1, k2, k3, k4, a1, a2, a3, a4, t2⟩ : ∃ c1 c2 c3 c4, entries fl m [("scene", .obj []),
        ("integrator", .obj []), ("sampler", .obj []), ("camera", .obj [])] = [(m.one, c1), (m.one, c2), (m.one, c3),
          (m.one, c4)] ∧ c1.key = none ∧ c2.key = some (.integrator, "integrator") ∧ c3.key = some (.sampler, "sampler") ∧
        c4.key = some (.camera, "camera") ∧ c1.api = "scene" ∧ c2.api = "integrator" ∧ c3.api = "sampler" ∧
        c4.api = "camera" ∧ c2.type = "normal" :=
      ⟨_, _, _, _, rfl, rfl, rfl, rfl, rfl, rfl, rfl, rfl, rfl, rfl⟩
    rw [he, allFit_iff]
    refine ⟨?_, ?_, ?_⟩
    · simp [Alone, k1, k2, k3, k4, a1, a2, a3, a4, t2, takenNames, integratorTypes]
    · simp [Apart, k1, k2, k3, k4, a1, a2, a3, a4]
    · intro A p B e hp
      have : p ∈ [(m.one, c1), (m.one, c2), (m.one, c3), (m.one, c4)] := by rw [e]; simp
      simp only [List.mem_cons, List.not_mem_nil, or_false] at this
      rcases this with rfl | rfl | rfl | rfl <;> simp [a1, a2, a3, a4] at hp
  have hu : ((entries fl m [("scene", .obj []), ("integrator", .obj []), ("sampler", .obj []), ("camera", .obj [])]).map
      (·.2)).map Call.uses = [[(.integrator, "default"), (.sampler, "default"), (.camera, "default"), (.media, "default")],
        [(.filter, "default")], [], []] := rfl
  have hk : ((entries fl m [("scene", .obj []), ("integrator", .obj []), ("sampler", .obj []), ("camera", .obj [])]).map
      (·.2)).map Call.key = [none, some (.integrator, "integrator"), some (.sampler, "sampler"), some (.camera, "camera")] :=
    rfl
  obtain ⟨c, hc, hs⟩ := hw.scene
  have hcu : c.uses ∈ _ := List.mem_map_of_mem (f := Call.uses) hc
  rw [hu] at hcu
  cases c <;> simp [Call.api] at hs
  obtain ⟨⟨c', hc', hk'⟩, -⟩ := hw.settings _ _ _ _ _ _ _ _ hc
  have hck : c'.key ∈ _ := List.mem_map_of_mem (f := Call.key) hc'
  rw [hk, hk'] at hck
  simp [Call.uses] at hcu hck
  simp [hcu] at hck

end Feign.Parser
