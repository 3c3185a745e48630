import Verif.Parser.DrawnLamps
import Verif.Parser.DrawnCopies
import Verif.Sdf.LampSum

/-!
# C145: files with the same total intensity of lamps in every place
-/

set_option linter.unusedSectionVars false
set_option linter.unusedSimpArgs false
set_option linter.unusedVariables false

namespace Feign.Parser

open Api (St)

/-- The same scene, with its things in any order and any number of times, lamps of the same total intensity in every place, and skies
of the same total. -/
structure Drawn.Equal {T : Type} (e d : Drawn T) : Prop where
  things : ∀ t, t ∈ e.things ↔ t ∈ d.things
  lamps : ∀ p k, Integrators.shine e.lamps p k = Integrators.shine d.lamps p k
  skies : e.skies.foldl (· + ·) 0 = d.skies.foldl (· + ·) 0
  rest : { e with things := d.things, lamps := d.lamps, skies := d.skies } = d

/-- **C145** (missing: things that are not told apart, as in C142)**.** Two files are carried out, nothing in them is missing, and their
declarations show scenes with the same things, the same total intensity of the lamps in every place and the same total sky. However the
renderer goes through its tables, the light that paths of any number of segments carry back along any ray is the same for both, and so is the
light seen through any number of mirrors and panes of glass. These are the quantities the pictures tend to (`file_picture`, C137). -/
theorem file_lamp_sum_partial (fl : Rat → ℝ) {ms ms' : List (String × Js)} {s s' : St (Call ℝ) (Option (Feign.Xf ℝ))}
    (h : runFile fl matrices (.obj ms) = some (.rendered s)) (h' : runFile fl matrices (.obj ms') = some (.rendered s'))
    (hw : Whole ((entries fl matrices ms).map (·.2))) (hw' : Whole ((entries fl matrices ms').map (·.2)))
    {d d' : Drawn (Option (Feign.Xf ℝ))} (hd : Shows (entries fl matrices ms) d) (hd' : Shows (entries fl matrices ms') d')
    (hal : d'.Equal d) {ρ E I δ ρ' E' I' δ' : ℝ} (hg : d.Good ρ E I δ) (hρ : 0 ≤ ρ) (hE : 0 ≤ E) (hδ : 0 < δ)
    (hg' : d'.Good ρ' E' I' δ') (hρ' : 0 ≤ ρ') (hE' : 0 ≤ E') (hδ' : 0 < δ') (ht : Sdf.Told d.things)
    (mul : Option (Feign.Xf ℝ) → Option (Feign.Xf ℝ) → Option (Feign.Xf ℝ)) (one : Option (Feign.Xf ℝ))
    {os es mds os' es' mds' : List Nat} (hos : Api.IsOrder s .object os) (hes : Api.IsOrder s .emitter es)
    (hms : Api.IsOrder s .media mds) (hos' : Api.IsOrder s' .object os') (hes' : Api.IsOrder s' .emitter es')
    (hms' : Api.IsOrder s' .media mds') :
    ∃ a a' e e' bs bs', Api.flush true mul one s os es mds = (.ok, a) ∧ Api.flush true mul one s' os' es' mds' = (.ok, a') ∧
      drawn s a = some e ∧ drawn s' a' = some e' ∧
      (e.things.map (·.1)).mapM Sdf.Shape.boundingBox = some bs ∧ (e'.things.map (·.1)).mapM Sdf.Shape.boundingBox = some bs' ∧
      (∀ k n look r, (e'.room (Sdf.sceneBox bs')).world.carried k n look r = (e.room (Sdf.sceneBox bs)).world.carried k n look r) ∧
      (∀ k n r, (e'.room (Sdf.sceneBox bs')).world.seenThrough k n r = (e.room (Sdf.sceneBox bs)).world.seenThrough k n r) ∧
      e'.camera = e.camera ∧ e'.placed = e.placed ∧ e'.view = e.view ∧ e'.bounces = e.bounces ∧ e'.samples = e.samples := by
  obtain ⟨a, e, h1, h2, h3⟩ := file_drawn fl matrices h hw hd mul one hos hes hms
  obtain ⟨a', e', h1', h2', h3'⟩ := file_drawn fl matrices h' hw' hd' mul one hos' hes' hms'
  obtain ⟨f1, f2, f3⟩ := h3.fields
  obtain ⟨f1', f2', f3'⟩ := h3'.fields
  have hfin : d'.camera = d.camera ∧ d'.placed = d.placed ∧ d'.view = d.view ∧ d'.bounces = d.bounces ∧ d'.samples = d.samples := by
    rw [← hal.rest]; exact ⟨rfl, rfl, rfl, rfl, rfl⟩
  have hth : ∀ t, t ∈ e'.things ↔ t ∈ e.things := fun t => (h3'.1.mem_iff.trans (hal.things t)).trans h3.1.mem_iff.symm
  have hla : ∀ p k, Integrators.shine e.lamps p k = Integrators.shine e'.lamps p k := by
    rw [f1, f1']; exact fun p k => (hal.lamps p k).symm
  have hsk : e'.skies.foldl (· + ·) 0 = e.skies.foldl (· + ·) 0 := by rw [f2, f2']; exact hal.skies
  have hte : Sdf.Told e.things := fun x hx y hy => ht x (h3.1.mem_iff.1 hx) y (h3.1.mem_iff.1 hy)
  have good : ∀ x ∈ e.things.map (·.1), x.WellFormed := by
    intro x hx
    obtain ⟨t, ht, rfl⟩ := List.mem_map.1 hx
    exact hg.shapes t (h3.1.mem_iff.1 ht)
  obtain ⟨bs, hbs⟩ := boxes_exist good
  obtain ⟨bs', hbs'⟩ := boxes_exist (ss := e'.things.map (·.1)) fun x hx => good x ((Sdf.map_members _ hth x).1 hx)
  have hset := good_setting hd h3 hρ hE hg
  have hset' := good_setting hd' h3' hρ' hE' hg'
  have hmix : Sdf.Setting (e.things.map (·.1)) (looksOf e.things) (fun _ => e.skies.foldl (· + ·) 0) e'.lamps ρ E I' δ' :=
    { shapes := hset.shapes, fair := hset.fair, colour := hset.colour, glow := hset.glow, sky := hset.sky, sky_nonneg := hset.sky_nonneg,
      sky_le := hset.sky_le, lamps_nonneg := hset'.lamps_nonneg, lamps_le := hset'.lamps_le,
      apart := fun l hl x hx => hset'.apart l hl x ((Sdf.map_members _ hth x).2 hx) }
  have hroom : e'.room (Sdf.sceneBox bs') =
      Sdf.litRoom (Sdf.evals (e.things.map (·.1))) (Sdf.sceneBox bs) (looksOf e.things) (fun _ => e.skies.foldl (· + ·) 0) e'.lamps := by
    have := Sdf.copies_free_partial (fun t => (hth t).symm) hte hbs hbs' (fun _ => e.skies.foldl (· + ·) 0) e'.lamps
    unfold Drawn.room
    rw [hsk]
    exact this.symm
  have key := fun k n => Sdf.lamp_sum hset hδ hmix hδ' k (fun p => hla p k) (Sdf.sceneBox bs) n
  refine ⟨a, a', e, e', bs, bs', h1, h1', h2, h2', hbs, hbs', fun k n look r => ?_, fun k n r => ?_, ?_⟩
  · rw [hroom]; exact ((key k n).1 look r).symm
  · rw [hroom]; exact ((key k n).2 r).symm
  · obtain ⟨a1, a2, a3, a4, a5⟩ := f3
    obtain ⟨b1, b2, b3, b4, b5⟩ := f3'
    obtain ⟨c1, c2, c3, c4, c5⟩ := hfin
    exact ⟨by rw [b1, c1, a1], by rw [b2, c2, a2], by rw [b3, c3, a3], by rw [b4, c4, a4], by rw [b5, c5, a5]⟩

/-! ### A file with two lamps in one place, and one with a single lamp -/

/-- A glass ball above a floor, under two lamps in the same place and an even sky. -/
def hoverFile6 : List (String × Js) :=
  [("scene", .obj [("name", .str "room"), ("integrator", .str "i"), ("sampler", .str "s"), ("camera", .str "c"),
     ("sdf_mode", .bool true)]),
   ("object", .obj [("name", .str "o1"), ("mesh", .str "ball"), ("material_shader", .str "clear")]),
   ("object", .obj [("name", .str "o2"), ("mesh", .str "floor"), ("material_shader", .str "dull")]),
   ("mesh", .obj [("type", .str "sdf_sphere"), ("name", .str "ball")]),
   ("mesh", .obj [("type", .str "sdf_plane"), ("name", .str "floor"), ("center", .arr [.int 0, .int (-3), .int 0])]),
   ("shader", .obj [("type", .str "simple_material"), ("name", .str "clear"), ("bsdf", .str "b1")]),
   ("shader", .obj [("type", .str "simple_material"), ("name", .str "dull"), ("bsdf", .str "b2")]),
   ("bsdf", .obj [("type", .str "dielectric"), ("name", .str "b1")]),
   ("bsdf", .obj [("type", .str "diffuse"), ("name", .str "b2")]),
   ("emitter", .obj [("type", .str "point"), ("name", .str "lamp"), ("position", .arr [.int 0, .int 5, .int 0]),
     ("intensity", .arr [.int 9, .int 9, .int 9])]),
   ("emitter", .obj [("type", .str "point"), ("name", .str "torch"), ("position", .arr [.int 0, .int 5, .int 0]),
     ("intensity", .arr [.int 4, .int 2, .int 1])]),
   ("emitter", .obj [("type", .str "environment"), ("name", .str "sky")]),
   ("camera", .obj [("name", .str "c"),
     ("lookat", .arr [.int 0, .int 0, .int (-5), .int 0, .int 0, .int 0, .int 0, .int 1, .int 0])]),
   ("sampler", .obj [("name", .str "s")]),
   ("integrator", .obj [("type", .str "path"), ("name", .str "i")])]

/-- Its declarations. -/
def hoverEntries6 {F T : Type} (fl : Rat → F) (m : Xf F T) : List (Entry F T) :=
  [(m.one, .scene "room" "i" "s" "c" "default" "" "" true),
   (m.one, .object "o1" "ball" "clear" "null"),
   (m.one, .object "o2" "floor" "dull" "null"),
   (m.one, .mesh "ball" "sdf_sphere" (.sphere (splat (fl 0)) (fl 1) (fl 0) ⟨"null", "null", false⟩)),
   (m.one, .mesh "floor" "sdf_plane" (.plane ⟨fl (0 : ℤ), fl (-3 : ℤ), fl (0 : ℤ)⟩ ⟨fl 0, fl 1, fl 0⟩ (fl 0) ⟨"null", "null", false⟩)),
   (m.one, .shader "clear" "simple_material" (.simple "b1")),
   (m.one, .shader "dull" "simple_material" (.simple "b2")),
   (m.one, .bsdf "b1" "dielectric" (.dielectric (fl (3 / 2)) (fl 1))),
   (m.one, .bsdf "b2" "diffuse" (.diffuse (splat (fl (8 / 10))))),
   (m.one, .emitter "lamp" "point" (.point ⟨fl (9 : ℤ), fl (9 : ℤ), fl (9 : ℤ)⟩ ⟨fl (0 : ℤ), fl (5 : ℤ), fl (0 : ℤ)⟩)),
   (m.one, .emitter "torch" "point" (.point ⟨fl (4 : ℤ), fl (2 : ℤ), fl (1 : ℤ)⟩ ⟨fl (0 : ℤ), fl (5 : ℤ), fl (0 : ℤ)⟩)),
   (m.one, .emitter "sky" "environment" (.environment (splat (fl 1)) "")),
   (m.one, .camera "c" "perspective" ⟨⟨fl (0 : ℤ), fl (0 : ℤ), fl (-5 : ℤ)⟩, ⟨fl (0 : ℤ), fl (0 : ℤ), fl (0 : ℤ)⟩, ⟨fl (0 : ℤ), fl (1 : ℤ), fl (0 : ℤ)⟩, fl 30, fl (1 / 10000), fl 10000, fl 10, fl 0, (512, 512)⟩),
   (m.one, .sampler "s" "independent" 8 0x12345678),
   (m.one, .integrator "i" "path" "default" ⟨-1, -1, "", 10, 1⟩ none)]

theorem hover_fits6 {F T : Type} (fl : Rat → F) (m : Xf F T) : AllFit (hoverEntries6 fl m) := by
  rw [allFit_iff]
  refine ⟨?_, ?_, ?_⟩
  · simp [hoverEntries6, Alone, Call.key, Call.api, Call.type, takenNames, integratorTypes]
  · simp [hoverEntries6, Apart, Call.key, Call.api]
  · intro A p B e hp
    cases A with
    | nil =>
      simp only [hoverEntries6, List.nil_append, List.cons.injEq] at e
      rw [← e.1] at hp
      simp [Call.api] at hp
    | cons a A =>
      simp only [hoverEntries6, List.cons_append, List.cons.injEq] at e
      exact ⟨a, List.mem_cons_self, by rw [← e.1]; rfl⟩

theorem hover_whole6 {F T : Type} (fl : Rat → F) (m : Xf F T) : Whole ((hoverEntries6 fl m).map (·.2)) := by
  constructor
  · exact ⟨_, List.mem_cons_self, rfl⟩
  · simp [hoverEntries6, Declared, Call.key]
    rintro _ _ _ _ _ _ _ - rfl rfl rfl - - -
    simp
  · simp [hoverEntries6, Declared, Call.key]
    rintro _ _ _ _ (⟨-, rfl, -, rfl⟩ | ⟨-, rfl, -, rfl⟩) <;> simp
  · simp [hoverEntries6, Declared, Call.key, Call.uses, MeshP.uses, BoundaryP.media]
  · simp [hoverEntries6]

/-- The file is carried out. -/
theorem hover_runs6 {F T : Type} (fl : Rat → F) (m : Xf F T) : ∃ s, runFile fl m (.obj hoverFile6) = some (.rendered s) := by
  refine (rendered_iff fl m hoverFile6).2 ⟨?_, hover_fits6 fl m⟩
  simp only [hoverFile6, List.forall_mem_cons]
  exact ⟨rfl, rfl, rfl, rfl, rfl, rfl, rfl, rfl, rfl, rfl, rfl, rfl, rfl, rfl, rfl, by simp⟩

/-- What it shows. -/
noncomputable def hoverDrawn6 {T : Type} (one : T) : Drawn T where
  things := Sdf.hovering
  lamps := [(⟨9, 9, 9⟩, ⟨0, 5, 0⟩), (⟨4, 2, 1⟩, ⟨0, 5, 0⟩)]
  skies := [⟨1, 1, 1⟩]
  camera := ⟨⟨0, 0, -5⟩, 0, ⟨0, 1, 0⟩, 30, 1 / 10000, 10000, 10, 0, (512, 512)⟩
  placed := one
  view := "path"
  bounces := 10
  samples := 8

theorem hover_shows6 {T : Type} (m : Xf ℝ T) : Shows (hoverEntries6 real m) (hoverDrawn6 m.one) := by
  constructor
  · refine .cons ?_ (.cons ?_ .nil)
    · refine ⟨"o1", "ball", "clear", "null", .sphere (splat (real 0)) (real 1) (real 0) ⟨"null", "null", false⟩, "b1",
        .dielectric (real (3 / 2)) (real 1), rfl, Or.inl rfl, ?_, ?_, ?_, ?_, ?_⟩
      · simp [hoverEntries6, MeshP.type]
      · have h0 : splat (real 0) = 0 := by simp [splat, real]; rfl
        have h1 : real 1 = 1 := by simp [real]
        rw [h0, h1]
        exact .sphere ⟨rfl, rfl, rfl⟩
      · simp [hoverEntries6]
      · simp [hoverEntries6, BsdfP.type]
      · have h0 : real (3 / 2) = 3 / 2 := by simp [real]
        have h1 : real 1 = 1 := by simp [real]
        rw [h0, h1]
        exact .glass
    · refine ⟨"o2", "floor", "dull", "null", .plane ⟨real (0 : ℤ), real (-3 : ℤ), real (0 : ℤ)⟩ ⟨real 0, real 1, real 0⟩ (real 0)
        ⟨"null", "null", false⟩, "b2", .diffuse (splat (real (8 / 10))), rfl, Or.inl rfl, ?_, ?_, ?_, ?_, ?_⟩
      · simp [hoverEntries6, MeshP.type]
      · have h0 : (⟨real (0 : ℤ), real (-3 : ℤ), real (0 : ℤ)⟩ : V3 ℝ) = ⟨0, -3, 0⟩ := by simp [real]
        have h1 : (⟨real 0, real 1, real 0⟩ : V3 ℝ) = ⟨0, 1, 0⟩ := by simp [real]
        rw [h0, h1]
        exact .plane ⟨rfl, rfl, rfl⟩
      · simp [hoverEntries6]
      · simp [hoverEntries6, BsdfP.type]
      · have h0 : splat (real (8 / 10)) = ⟨4 / 5, 4 / 5, 4 / 5⟩ := by simp only [splat, real]; norm_num
        rw [h0]
        exact .diffuse
  · simp only [hoverEntries6, List.map_cons, List.map_nil, List.mem_cons, List.not_mem_nil, or_false, reduceCtorEq,
      Call.object.injEq, false_or]
    rintro n me sh e n' sh' e' (⟨rfl, rfl, -⟩ | ⟨rfl, rfl, -⟩) (⟨rfl, h, -⟩ | ⟨rfl, h, -⟩) <;> first | rfl | simp at h
  · have h0 : (⟨real (9 : ℤ), real (9 : ℤ), real (9 : ℤ)⟩ : V3 ℝ) = ⟨9, 9, 9⟩ := by simp [real]
    have h1 : (⟨real (0 : ℤ), real (5 : ℤ), real (0 : ℤ)⟩ : V3 ℝ) = ⟨0, 5, 0⟩ := by simp [real]
    have h2 : splat (real 1) = ⟨1, 1, 1⟩ := by simp [splat, real]
    have h3 : (⟨real (4 : ℤ), real (2 : ℤ), real (1 : ℤ)⟩ : V3 ℝ) = ⟨4, 2, 1⟩ := by simp [real]
    have h4 : (⟨real (0 : ℤ), real (5 : ℤ), real (0 : ℤ)⟩ : V3 ℝ) = ⟨0, 5, 0⟩ := by simp [real]
    simp only [hoverEntries6, List.map_cons, List.map_nil, h0, h1, h2, h3, h4]
    exact .lamp (.lamp (.sky (Or.inl rfl) .nil))
  · refine ⟨"room", "i", "s", "c", "default", "", "", "default", ⟨-1, -1, "", 10, 1⟩, none, 0x12345678, ?_, by simp, ?_, ?_, rfl, ?_⟩
    · simp [hoverEntries6]
    · have : (hoverDrawn6 m.one).camera = ⟨⟨real (0 : ℤ), real (0 : ℤ), real (-5 : ℤ)⟩, ⟨real (0 : ℤ), real (0 : ℤ), real (0 : ℤ)⟩,
          ⟨real (0 : ℤ), real (1 : ℤ), real (0 : ℤ)⟩, real 30, real (1 / 10000), real 10000, real 10, real 0, (512, 512)⟩ := by
        simp [hoverDrawn6, real]
        rfl
      rw [this]
      simp [hoverEntries6, hoverDrawn6]
    · simp [hoverEntries6, hoverDrawn6]
    · simp [hoverEntries6, hoverDrawn6]

/-- A glass ball above a floor, under one lamp of the same total intensity and an even sky. -/
def hoverFile7 : List (String × Js) :=
  [("scene", .obj [("name", .str "room"), ("integrator", .str "i"), ("sampler", .str "s"), ("camera", .str "c"),
     ("sdf_mode", .bool true)]),
   ("object", .obj [("name", .str "o1"), ("mesh", .str "ball"), ("material_shader", .str "clear")]),
   ("object", .obj [("name", .str "o2"), ("mesh", .str "floor"), ("material_shader", .str "dull")]),
   ("mesh", .obj [("type", .str "sdf_sphere"), ("name", .str "ball")]),
   ("mesh", .obj [("type", .str "sdf_plane"), ("name", .str "floor"), ("center", .arr [.int 0, .int (-3), .int 0])]),
   ("shader", .obj [("type", .str "simple_material"), ("name", .str "clear"), ("bsdf", .str "b1")]),
   ("shader", .obj [("type", .str "simple_material"), ("name", .str "dull"), ("bsdf", .str "b2")]),
   ("bsdf", .obj [("type", .str "dielectric"), ("name", .str "b1")]),
   ("bsdf", .obj [("type", .str "diffuse"), ("name", .str "b2")]),
   ("emitter", .obj [("type", .str "point"), ("name", .str "lamp"), ("position", .arr [.int 0, .int 5, .int 0]),
     ("intensity", .arr [.int 13, .int 11, .int 10])]),
   ("emitter", .obj [("type", .str "environment"), ("name", .str "sky")]),
   ("camera", .obj [("name", .str "c"),
     ("lookat", .arr [.int 0, .int 0, .int (-5), .int 0, .int 0, .int 0, .int 0, .int 1, .int 0])]),
   ("sampler", .obj [("name", .str "s")]),
   ("integrator", .obj [("type", .str "path"), ("name", .str "i")])]

/-- Its declarations. -/
def hoverEntries7 {F T : Type} (fl : Rat → F) (m : Xf F T) : List (Entry F T) :=
  [(m.one, .scene "room" "i" "s" "c" "default" "" "" true),
   (m.one, .object "o1" "ball" "clear" "null"),
   (m.one, .object "o2" "floor" "dull" "null"),
   (m.one, .mesh "ball" "sdf_sphere" (.sphere (splat (fl 0)) (fl 1) (fl 0) ⟨"null", "null", false⟩)),
   (m.one, .mesh "floor" "sdf_plane" (.plane ⟨fl (0 : ℤ), fl (-3 : ℤ), fl (0 : ℤ)⟩ ⟨fl 0, fl 1, fl 0⟩ (fl 0) ⟨"null", "null", false⟩)),
   (m.one, .shader "clear" "simple_material" (.simple "b1")),
   (m.one, .shader "dull" "simple_material" (.simple "b2")),
   (m.one, .bsdf "b1" "dielectric" (.dielectric (fl (3 / 2)) (fl 1))),
   (m.one, .bsdf "b2" "diffuse" (.diffuse (splat (fl (8 / 10))))),
   (m.one, .emitter "lamp" "point" (.point ⟨fl (13 : ℤ), fl (11 : ℤ), fl (10 : ℤ)⟩ ⟨fl (0 : ℤ), fl (5 : ℤ), fl (0 : ℤ)⟩)),
   (m.one, .emitter "sky" "environment" (.environment (splat (fl 1)) "")),
   (m.one, .camera "c" "perspective" ⟨⟨fl (0 : ℤ), fl (0 : ℤ), fl (-5 : ℤ)⟩, ⟨fl (0 : ℤ), fl (0 : ℤ), fl (0 : ℤ)⟩, ⟨fl (0 : ℤ), fl (1 : ℤ), fl (0 : ℤ)⟩, fl 30, fl (1 / 10000), fl 10000, fl 10, fl 0, (512, 512)⟩),
   (m.one, .sampler "s" "independent" 8 0x12345678),
   (m.one, .integrator "i" "path" "default" ⟨-1, -1, "", 10, 1⟩ none)]

theorem hover_fits7 {F T : Type} (fl : Rat → F) (m : Xf F T) : AllFit (hoverEntries7 fl m) := by
  rw [allFit_iff]
  refine ⟨?_, ?_, ?_⟩
  · simp [hoverEntries7, Alone, Call.key, Call.api, Call.type, takenNames, integratorTypes]
  · simp [hoverEntries7, Apart, Call.key, Call.api]
  · intro A p B e hp
    cases A with
    | nil =>
      simp only [hoverEntries7, List.nil_append, List.cons.injEq] at e
      rw [← e.1] at hp
      simp [Call.api] at hp
    | cons a A =>
      simp only [hoverEntries7, List.cons_append, List.cons.injEq] at e
      exact ⟨a, List.mem_cons_self, by rw [← e.1]; rfl⟩

theorem hover_whole7 {F T : Type} (fl : Rat → F) (m : Xf F T) : Whole ((hoverEntries7 fl m).map (·.2)) := by
  constructor
  · exact ⟨_, List.mem_cons_self, rfl⟩
  · simp [hoverEntries7, Declared, Call.key]
    rintro _ _ _ _ _ _ _ - rfl rfl rfl - - -
    simp
  · simp [hoverEntries7, Declared, Call.key]
    rintro _ _ _ _ (⟨-, rfl, -, rfl⟩ | ⟨-, rfl, -, rfl⟩) <;> simp
  · simp [hoverEntries7, Declared, Call.key, Call.uses, MeshP.uses, BoundaryP.media]
  · simp [hoverEntries7]

/-- The file is carried out. -/
theorem hover_runs7 {F T : Type} (fl : Rat → F) (m : Xf F T) : ∃ s, runFile fl m (.obj hoverFile7) = some (.rendered s) := by
  refine (rendered_iff fl m hoverFile7).2 ⟨?_, hover_fits7 fl m⟩
  simp only [hoverFile7, List.forall_mem_cons]
  exact ⟨rfl, rfl, rfl, rfl, rfl, rfl, rfl, rfl, rfl, rfl, rfl, rfl, rfl, rfl, by simp⟩

/-- What it shows. -/
noncomputable def hoverDrawn7 {T : Type} (one : T) : Drawn T where
  things := Sdf.hovering
  lamps := [(⟨13, 11, 10⟩, ⟨0, 5, 0⟩)]
  skies := [⟨1, 1, 1⟩]
  camera := ⟨⟨0, 0, -5⟩, 0, ⟨0, 1, 0⟩, 30, 1 / 10000, 10000, 10, 0, (512, 512)⟩
  placed := one
  view := "path"
  bounces := 10
  samples := 8

theorem hover_shows7 {T : Type} (m : Xf ℝ T) : Shows (hoverEntries7 real m) (hoverDrawn7 m.one) := by
  constructor
  · refine .cons ?_ (.cons ?_ .nil)
    · refine ⟨"o1", "ball", "clear", "null", .sphere (splat (real 0)) (real 1) (real 0) ⟨"null", "null", false⟩, "b1",
        .dielectric (real (3 / 2)) (real 1), rfl, Or.inl rfl, ?_, ?_, ?_, ?_, ?_⟩
      · simp [hoverEntries7, MeshP.type]
      · have h0 : splat (real 0) = 0 := by simp [splat, real]; rfl
        have h1 : real 1 = 1 := by simp [real]
        rw [h0, h1]
        exact .sphere ⟨rfl, rfl, rfl⟩
      · simp [hoverEntries7]
      · simp [hoverEntries7, BsdfP.type]
      · have h0 : real (3 / 2) = 3 / 2 := by simp [real]
        have h1 : real 1 = 1 := by simp [real]
        rw [h0, h1]
        exact .glass
    · refine ⟨"o2", "floor", "dull", "null", .plane ⟨real (0 : ℤ), real (-3 : ℤ), real (0 : ℤ)⟩ ⟨real 0, real 1, real 0⟩ (real 0)
        ⟨"null", "null", false⟩, "b2", .diffuse (splat (real (8 / 10))), rfl, Or.inl rfl, ?_, ?_, ?_, ?_, ?_⟩
      · simp [hoverEntries7, MeshP.type]
      · have h0 : (⟨real (0 : ℤ), real (-3 : ℤ), real (0 : ℤ)⟩ : V3 ℝ) = ⟨0, -3, 0⟩ := by simp [real]
        have h1 : (⟨real 0, real 1, real 0⟩ : V3 ℝ) = ⟨0, 1, 0⟩ := by simp [real]
        rw [h0, h1]
        exact .plane ⟨rfl, rfl, rfl⟩
      · simp [hoverEntries7]
      · simp [hoverEntries7, BsdfP.type]
      · have h0 : splat (real (8 / 10)) = ⟨4 / 5, 4 / 5, 4 / 5⟩ := by simp only [splat, real]; norm_num
        rw [h0]
        exact .diffuse
  · simp only [hoverEntries7, List.map_cons, List.map_nil, List.mem_cons, List.not_mem_nil, or_false, reduceCtorEq,
      Call.object.injEq, false_or]
    rintro n me sh e n' sh' e' (⟨rfl, rfl, -⟩ | ⟨rfl, rfl, -⟩) (⟨rfl, h, -⟩ | ⟨rfl, h, -⟩) <;> first | rfl | simp at h
  · have h0 : (⟨real (13 : ℤ), real (11 : ℤ), real (10 : ℤ)⟩ : V3 ℝ) = ⟨13, 11, 10⟩ := by simp [real]
    have h1 : (⟨real (0 : ℤ), real (5 : ℤ), real (0 : ℤ)⟩ : V3 ℝ) = ⟨0, 5, 0⟩ := by simp [real]
    have h2 : splat (real 1) = ⟨1, 1, 1⟩ := by simp [splat, real]
    simp only [hoverEntries7, List.map_cons, List.map_nil, h0, h1, h2]
    exact .lamp (.sky (Or.inl rfl) .nil)
  · refine ⟨"room", "i", "s", "c", "default", "", "", "default", ⟨-1, -1, "", 10, 1⟩, none, 0x12345678, ?_, by simp, ?_, ?_, rfl, ?_⟩
    · simp [hoverEntries7]
    · have : (hoverDrawn7 m.one).camera = ⟨⟨real (0 : ℤ), real (0 : ℤ), real (-5 : ℤ)⟩, ⟨real (0 : ℤ), real (0 : ℤ), real (0 : ℤ)⟩,
          ⟨real (0 : ℤ), real (1 : ℤ), real (0 : ℤ)⟩, real 30, real (1 / 10000), real 10000, real 10, real 0, (512, 512)⟩ := by
        simp [hoverDrawn7, real]
        rfl
      rw [this]
      simp [hoverEntries7, hoverDrawn7]
    · simp [hoverEntries7, hoverDrawn7]
    · simp [hoverEntries7, hoverDrawn7]

theorem hover_good6 {T : Type} (one : T) : (hoverDrawn6 one).Good 1 1 9 1 := by
  have hconst : ∀ (c : ℝ) (k : Fin 3), (⟨c, c, c⟩ : V3 ℝ).get k = c := by
    intro c k; fin_cases k <;> rfl
  constructor
  · exact Sdf.hovering_wellFormed
  · simp only [hoverDrawn6, Sdf.hovering, List.forall_mem_cons, hconst]
    refine ⟨⟨⟨?_, ?_, ?_⟩, ?_⟩, ⟨⟨?_, ?_, ?_⟩, ?_⟩, by simp⟩ <;> norm_num
  · simp only [hoverDrawn6, List.forall_mem_cons]
    refine ⟨⟨?_, ?_, ?_⟩, by simp⟩ <;> norm_num
  · simp [hoverDrawn6, hconst]
  · simp only [hoverDrawn6, List.forall_mem_cons, hconst]
    refine ⟨⟨⟨?_, ?_, ?_⟩, ?_⟩, ⟨⟨?_, ?_, ?_⟩, fun k => ?_⟩, by simp⟩ <;> first | (norm_num; done) | (fin_cases k <;> norm_num [V3.get])
  · intro l hl t ht q hq
    have hy : l.2.y = 5 := by
      simp only [hoverDrawn6, List.mem_cons, List.not_mem_nil, or_false] at hl
      rcases hl with rfl | rfl <;> rfl
    simp only [hoverDrawn6, Sdf.hovering, List.mem_cons, List.not_mem_nil, or_false] at ht
    have h1 := Sdf.norm_ge_y (l.2 - q)
    have h2 := le_abs_self (l.2 - q).y
    have h3 : (l.2 - q).y = l.2.y - q.y := rfl
    have he : Sdf.eps = 1 / 1000 := rfl
    unfold Sdf.dist
    rcases ht with rfl | rfl
    · have hq' : (q - 0).norm ≤ 1 := hq
      have h4 := Sdf.norm_ge_y (q - 0)
      have h5 := le_abs_self (q - 0).y
      have h6 : (q - 0).y = q.y - 0 := rfl
      rw [he]
      linarith
    · have hq' : (q - ⟨0, -3, 0⟩).dot ⟨0, 1, 0⟩ = 0 := hq
      have : q.y = -3 := by
        simp only [V3.dot, V3.sub_x, V3.sub_y, V3.sub_z] at hq'
        linarith
      rw [he]
      linarith
  · constructor <;> norm_num [hoverDrawn6, CameraP.persp]
  · norm_num [hoverDrawn6]
  · intro e
    have := congrArg V3.x e
    norm_num [V3.cross, hoverDrawn6] at this

theorem hover_good7 {T : Type} (one : T) : (hoverDrawn7 one).Good 1 1 13 1 := by
  have hconst : ∀ (c : ℝ) (k : Fin 3), (⟨c, c, c⟩ : V3 ℝ).get k = c := by
    intro c k; fin_cases k <;> rfl
  constructor
  · exact Sdf.hovering_wellFormed
  · simp only [hoverDrawn7, Sdf.hovering, List.forall_mem_cons, hconst]
    refine ⟨⟨⟨?_, ?_, ?_⟩, ?_⟩, ⟨⟨?_, ?_, ?_⟩, ?_⟩, by simp⟩ <;> norm_num
  · simp only [hoverDrawn7, List.forall_mem_cons]
    refine ⟨⟨?_, ?_, ?_⟩, by simp⟩ <;> norm_num
  · simp [hoverDrawn7, hconst]
  · simp only [hoverDrawn7, List.forall_mem_cons, hconst]
    refine ⟨⟨⟨?_, ?_, ?_⟩, fun k => ?_⟩, by simp⟩ <;> first | (norm_num; done) | (fin_cases k <;> norm_num [V3.get])
  · intro l hl t ht q hq
    have hy : l.2.y = 5 := by
      simp only [hoverDrawn7, List.mem_cons, List.not_mem_nil, or_false] at hl
      rw [hl]
    simp only [hoverDrawn7, Sdf.hovering, List.mem_cons, List.not_mem_nil, or_false] at ht
    have h1 := Sdf.norm_ge_y (l.2 - q)
    have h2 := le_abs_self (l.2 - q).y
    have h3 : (l.2 - q).y = l.2.y - q.y := rfl
    have he : Sdf.eps = 1 / 1000 := rfl
    unfold Sdf.dist
    rcases ht with rfl | rfl
    · have hq' : (q - 0).norm ≤ 1 := hq
      have h4 := Sdf.norm_ge_y (q - 0)
      have h5 := le_abs_self (q - 0).y
      have h6 : (q - 0).y = q.y - 0 := rfl
      rw [he]
      linarith
    · have hq' : (q - ⟨0, -3, 0⟩).dot ⟨0, 1, 0⟩ = 0 := hq
      have : q.y = -3 := by
        simp only [V3.dot, V3.sub_x, V3.sub_y, V3.sub_z] at hq'
        linarith
      rw [he]
      linarith
  · constructor <;> norm_num [hoverDrawn7, CameraP.persp]
  · norm_num [hoverDrawn7]
  · intro e
    have := congrArg V3.x e
    norm_num [V3.cross, hoverDrawn7] at this

/-- The two files meet the hypotheses of `file_lamp_sum_partial`. -/
example : ∃ s s' d d', runFile real matrices (.obj hoverFile6) = some (.rendered s) ∧
    runFile real matrices (.obj hoverFile7) = some (.rendered s') ∧
    Whole ((entries real matrices hoverFile6).map (·.2)) ∧ Whole ((entries real matrices hoverFile7).map (·.2)) ∧
    Shows (entries real matrices hoverFile6) d ∧ Shows (entries real matrices hoverFile7) d' ∧ d'.Equal d ∧
    d'.lamps.length ≠ d.lamps.length ∧ d.Good 1 1 9 1 ∧ d'.Good 1 1 13 1 ∧ Sdf.Told d.things ∧
    (∃ os es mds, Api.IsOrder s .object os ∧ Api.IsOrder s .emitter es ∧ Api.IsOrder s .media mds) ∧
    ∃ os es mds, Api.IsOrder s' .object os ∧ Api.IsOrder s' .emitter es ∧ Api.IsOrder s' .media mds := by
  obtain ⟨s, hs⟩ := hover_runs6 real matrices
  obtain ⟨s', hs'⟩ := hover_runs7 real matrices
  have orders : ∀ {f : List (String × Js)} {s : St (Call ℝ) (Option (Feign.Xf ℝ))}, runFile real matrices (.obj f) = some (.rendered s) →
      ∃ os es mds, Api.IsOrder s .object os ∧ Api.IsOrder s .emitter es ∧ Api.IsOrder s .media mds := by
    intro f s hs
    have ho := order_exists (s := s) (by
      obtain ⟨-, hx⟩ := (rendered_cases real matrices _ s).1 hs
      obtain ⟨o, hr⟩ := exec_run matrices _ hx
      exact (Api.run_keeps true _ (Api.init_inv _) hr).1)
    obtain ⟨os, h1⟩ := ho .object
    obtain ⟨es, h2⟩ := ho .emitter
    obtain ⟨mds, h3⟩ := ho .media
    exact ⟨os, es, mds, h1, h2, h3⟩
  refine ⟨s, s', hoverDrawn6 matrices.one, hoverDrawn7 matrices.one, hs, hs', hover_whole6 _ _, hover_whole7 _ _, hover_shows6 _,
    hover_shows7 _, ⟨fun _ => Iff.rfl, fun p k => ?_, rfl, rfl⟩, ?_, hover_good6 _, hover_good7 _, Sdf.hovering_told,
    orders hs, orders hs'⟩
  · have := Integrators.shine_merge ⟨9, 9, 9⟩ ⟨4, 2, 1⟩ ⟨0, 5, 0⟩ [] p k
    have e : (⟨9, 9, 9⟩ + ⟨4, 2, 1⟩ : V3 ℝ) = ⟨13, 11, 10⟩ := by ext <;> norm_num
    rw [e] at this
    exact this.symm
  · simp [hoverDrawn6, hoverDrawn7]

/-- `Sdf.lamp_sum` applies to the two scenes. -/
example {T : Type} (m : Xf ℝ T) (box : Option (B3 ℝ)) (k : Fin 3) (n : ℕ)
    (hp : ∀ p, Integrators.shine (hoverDrawn6 m.one).lamps p k = Integrators.shine (hoverDrawn7 m.one).lamps p k) :=
  Sdf.lamp_sum (good_setting (hover_shows6 m) (⟨List.Perm.refl _, rfl⟩ : (hoverDrawn6 m.one).Same (hoverDrawn6 m.one)) zero_le_one
    zero_le_one (hover_good6 m.one)) one_pos
    (good_setting (hover_shows7 m) (⟨List.Perm.refl _, rfl⟩ : (hoverDrawn7 m.one).Same (hoverDrawn7 m.one)) zero_le_one
    zero_le_one (hover_good7 m.one)) one_pos k hp box n

end Feign.Parser
