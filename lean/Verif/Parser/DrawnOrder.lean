import Verif.Parser.DrawnViews
import Verif.Sdf.Order

/-!
# C142: the order of declarations and tables does not matter to what is drawn
-/

set_option linter.unusedSectionVars false
set_option linter.unusedSimpArgs false
set_option linter.unusedVariables false

namespace Feign.Parser

open Api (St)

theorem Drawn.Same.symm {T : Type} {d e : Drawn T} (h : d.Same e) : e.Same d := by
  obtain ⟨h1, h2⟩ := h
  refine ⟨h1.symm, ?_⟩
  rw [← h2]

theorem Drawn.Same.trans {T : Type} {d e f : Drawn T} (h : d.Same e) (h' : e.Same f) : d.Same f := by
  obtain ⟨h1, h2⟩ := h
  obtain ⟨h3, h4⟩ := h'
  refine ⟨h1.trans h3, ?_⟩
  rw [← h4, ← h2]

theorem Drawn.Same.fields {T : Type} {d e : Drawn T} (h : e.Same d) : e.lamps = d.lamps ∧ e.skies = d.skies ∧ e.camera = d.camera ∧
    e.placed = d.placed ∧ e.view = d.view ∧ e.bounces = d.bounces ∧ e.samples = d.samples := by
  obtain ⟨-, h2⟩ := h
  rw [← h2]
  exact ⟨rfl, rfl, rfl, rfl, rfl, rfl, rfl⟩

/-- The same scene with its things in another order is the same room. -/
theorem same_room {T : Type} {d e : Drawn T} (h : e.Same d) (ht : Sdf.Told d.things) {bs bs' : List (B3 ℝ)}
    (hb : (d.things.map (·.1)).mapM Sdf.Shape.boundingBox = some bs) (hb' : (e.things.map (·.1)).mapM Sdf.Shape.boundingBox = some bs') :
    e.room (Sdf.sceneBox bs') = d.room (Sdf.sceneBox bs) := by
  obtain ⟨hl, hs, -⟩ := h.fields
  have := Sdf.order_free_partial h.1.symm ht hb hb' (fun _ => d.skies.foldl (· + ·) 0) d.lamps
  unfold Drawn.room
  rw [hl, hs]
  exact this.symm

/-- **C142** (missing: things that are not told apart, see `Sdf.order_refuted`)**.** Two files are carried out, nothing in them is missing, and their declarations show the same scene up to the order of its
things; they may be the same file. However the renderer goes through its tables in the two runs, it finds scenes with the same camera, the
same integrator and the same numbers of bounces and samples, and its integrators are told the same about every ray, for all random
numbers, provided that the things are told apart. -/
theorem file_order_free_partial (fl : Rat → ℝ) {ms ms' : List (String × Js)} {s s' : St (Call ℝ) (Option (Feign.Xf ℝ))}
    (h : runFile fl matrices (.obj ms) = some (.rendered s)) (h' : runFile fl matrices (.obj ms') = some (.rendered s'))
    (hw : Whole ((entries fl matrices ms).map (·.2))) (hw' : Whole ((entries fl matrices ms').map (·.2)))
    {d d' : Drawn (Option (Feign.Xf ℝ))} (hd : Shows (entries fl matrices ms) d) (hd' : Shows (entries fl matrices ms') d')
    (hsame : d'.Same d) (hwf : ∀ t ∈ d.things, t.1.WellFormed) (ht : Sdf.Told d.things)
    (mul : Option (Feign.Xf ℝ) → Option (Feign.Xf ℝ) → Option (Feign.Xf ℝ)) (one : Option (Feign.Xf ℝ))
    {os es mds os' es' mds' : List Nat} (hos : Api.IsOrder s .object os) (hes : Api.IsOrder s .emitter es)
    (hms : Api.IsOrder s .media mds) (hos' : Api.IsOrder s' .object os') (hes' : Api.IsOrder s' .emitter es')
    (hms' : Api.IsOrder s' .media mds') :
    ∃ a a' e e' bs bs', Api.flush true mul one s os es mds = (.ok, a) ∧ Api.flush true mul one s' os' es' mds' = (.ok, a') ∧
      drawn s a = some e ∧ drawn s' a' = some e' ∧
      (e.things.map (·.1)).mapM Sdf.Shape.boundingBox = some bs ∧ (e'.things.map (·.1)).mapM Sdf.Shape.boundingBox = some bs' ∧
      e'.room (Sdf.sceneBox bs') = e.room (Sdf.sceneBox bs) ∧
      e'.camera = e.camera ∧ e'.placed = e.placed ∧ e'.view = e.view ∧ e'.bounces = e.bounces ∧ e'.samples = e.samples := by
  obtain ⟨a, e, h1, h2, h3⟩ := file_drawn fl matrices h hw hd mul one hos hes hms
  obtain ⟨a', e', h1', h2', h3'⟩ := file_drawn fl matrices h' hw' hd' mul one hos' hes' hms'
  have hee : e'.Same e := (h3'.trans hsame).trans h3.symm
  have hte : Sdf.Told e.things := fun x hx y hy => ht x (h3.1.mem_iff.1 hx) y (h3.1.mem_iff.1 hy)
  have good : ∀ x ∈ e.things.map (·.1), x.WellFormed := by
    intro x hx
    obtain ⟨t, ht, rfl⟩ := List.mem_map.1 hx
    exact hwf t (h3.1.mem_iff.1 ht)
  have good' : ∀ x ∈ e'.things.map (·.1), x.WellFormed := by
    intro x hx
    obtain ⟨t, ht, rfl⟩ := List.mem_map.1 hx
    exact hwf t (h3.1.mem_iff.1 (hee.1.mem_iff.1 ht))
  obtain ⟨bs, hbs⟩ := boxes_exist good
  obtain ⟨bs', hbs'⟩ := boxes_exist good'
  exact ⟨a, a', e, e', bs, bs', h1, h1', h2, h2', hbs, hbs', same_room hee hte hbs hbs', hee.fields.2.2⟩

/-- The ball and the floor in both orders meet the hypotheses of `Sdf.order_free_partial`. -/
example : ∃ ts', Sdf.hovering.Perm ts' ∧ ts' ≠ Sdf.hovering ∧ Sdf.Told Sdf.hovering ∧
    (∃ bs, (Sdf.hovering.map (·.1)).mapM Sdf.Shape.boundingBox = some bs) ∧
    ∃ bs', (ts'.map (·.1)).mapM Sdf.Shape.boundingBox = some bs' := by
  refine ⟨Sdf.hovering.reverse, (List.reverse_perm _).symm, by simp [Sdf.hovering], Sdf.hovering_told, boxes_exist ?_, boxes_exist ?_⟩
  · intro x hx
    obtain ⟨t, ht, rfl⟩ := List.mem_map.1 hx
    exact Sdf.hovering_wellFormed t ht
  · intro x hx
    obtain ⟨t, ht, rfl⟩ := List.mem_map.1 hx
    exact Sdf.hovering_wellFormed t (List.mem_reverse.1 ht)

/-! ### A file with its objects in two orders -/

/-- A glass ball above a floor, under a lamp and an even sky; the ball is the first object. -/
def hoverFile1 : List (String × Js) :=
  [("scene", .obj [("name", .str "room"), ("integrator", .str "i"), ("sampler", .str "s"), ("camera", .str "c"),
     ("sdf_mode", .bool true)]),
   ("object", .obj [("name", .str "o1"), ("mesh", .str "ball"), ("material_shader", .str "clear")]),
   ("object", .obj [("name", .str "o2"), ("mesh", .str "floor"), ("material_shader", .str "dull")]),
   ("mesh", .obj [("type", .str "sdf_sphere"), ("name", .str "ball")]),
   ("mesh", .obj [("type", .str "sdf_plane"), ("name", .str "floor"), ("center", .arr [.int 0, .int (-3), .int 0])]),
   ("shader", .obj [("type", .str "simple_material"), ("name", .str "clear"), ("bsdf", .str "b1")]),
   ("shader", .obj [("type", .str "simple_material"), ("name", .str "dull"), ("bsdf", .str "b2")]),
   ("bsdf", .obj [("type", .str "dielectric"), ("name", .str "b1")]),
   ("bsdf", .obj [("type", .str "diffuse"), ("name", .str "b2")]),
   ("emitter", .obj [("type", .str "point"), ("name", .str "lamp"), ("position", .arr [.int 0, .int 5, .int 0]),
     ("intensity", .arr [.int 9, .int 9, .int 9])]),
   ("emitter", .obj [("type", .str "environment"), ("name", .str "sky")]),
   ("camera", .obj [("name", .str "c"),
     ("lookat", .arr [.int 0, .int 0, .int (-5), .int 0, .int 0, .int 0, .int 0, .int 1, .int 0])]),
   ("sampler", .obj [("name", .str "s")]),
   ("integrator", .obj [("type", .str "path"), ("name", .str "i")])]

/-- Its declarations. -/
def hoverEntries1 {F T : Type} (fl : Rat → F) (m : Xf F T) : List (Entry F T) :=
  [(m.one, .scene "room" "i" "s" "c" "default" "" "" true),
   (m.one, .object "o1" "ball" "clear" "null"),
   (m.one, .object "o2" "floor" "dull" "null"),
   (m.one, .mesh "ball" "sdf_sphere" (.sphere (splat (fl 0)) (fl 1) (fl 0) ⟨"null", "null", false⟩)),
   (m.one, .mesh "floor" "sdf_plane" (.plane ⟨fl (0 : ℤ), fl (-3 : ℤ), fl (0 : ℤ)⟩ ⟨fl 0, fl 1, fl 0⟩ (fl 0) ⟨"null", "null", false⟩)),
   (m.one, .shader "clear" "simple_material" (.simple "b1")),
   (m.one, .shader "dull" "simple_material" (.simple "b2")),
   (m.one, .bsdf "b1" "dielectric" (.dielectric (fl (3 / 2)) (fl 1))),
   (m.one, .bsdf "b2" "diffuse" (.diffuse (splat (fl (8 / 10))))),
   (m.one, .emitter "lamp" "point" (.point ⟨fl (9 : ℤ), fl (9 : ℤ), fl (9 : ℤ)⟩ ⟨fl (0 : ℤ), fl (5 : ℤ), fl (0 : ℤ)⟩)),
   (m.one, .emitter "sky" "environment" (.environment (splat (fl 1)) "")),
   (m.one, .camera "c" "perspective" ⟨⟨fl (0 : ℤ), fl (0 : ℤ), fl (-5 : ℤ)⟩, ⟨fl (0 : ℤ), fl (0 : ℤ), fl (0 : ℤ)⟩, ⟨fl (0 : ℤ), fl (1 : ℤ), fl (0 : ℤ)⟩, fl 30, fl (1 / 10000), fl 10000, fl 10, fl 0, (512, 512)⟩),
   (m.one, .sampler "s" "independent" 8 0x12345678),
   (m.one, .integrator "i" "path" "default" ⟨-1, -1, "", 10, 1⟩ none)]

theorem hover_fits1 {F T : Type} (fl : Rat → F) (m : Xf F T) : AllFit (hoverEntries1 fl m) := by
  rw [allFit_iff]
  refine ⟨?_, ?_, ?_⟩
  · simp [hoverEntries1, Alone, Call.key, Call.api, Call.type, takenNames, integratorTypes]
  · simp [hoverEntries1, Apart, Call.key, Call.api]
  · intro A p B e hp
    cases A with
    | nil =>
      simp only [hoverEntries1, List.nil_append, List.cons.injEq] at e
      rw [← e.1] at hp
      simp [Call.api] at hp
    | cons a A =>
      simp only [hoverEntries1, List.cons_append, List.cons.injEq] at e
      exact ⟨a, List.mem_cons_self, by rw [← e.1]; rfl⟩

theorem hover_whole1 {F T : Type} (fl : Rat → F) (m : Xf F T) : Whole ((hoverEntries1 fl m).map (·.2)) := by
  constructor
  · exact ⟨_, List.mem_cons_self, rfl⟩
  · simp [hoverEntries1, Declared, Call.key]
    rintro _ _ _ _ _ _ _ - rfl rfl rfl - - -
    simp
  · simp [hoverEntries1, Declared, Call.key]
    rintro _ _ _ _ (⟨-, rfl, -, rfl⟩ | ⟨-, rfl, -, rfl⟩) <;> simp
  · simp [hoverEntries1, Declared, Call.key, Call.uses, MeshP.uses, BoundaryP.media]
  · simp [hoverEntries1]

/-- The file is carried out. -/
theorem hover_runs1 {F T : Type} (fl : Rat → F) (m : Xf F T) : ∃ s, runFile fl m (.obj hoverFile1) = some (.rendered s) := by
  refine (rendered_iff fl m hoverFile1).2 ⟨?_, hover_fits1 fl m⟩
  simp only [hoverFile1, List.forall_mem_cons]
  exact ⟨rfl, rfl, rfl, rfl, rfl, rfl, rfl, rfl, rfl, rfl, rfl, rfl, rfl, rfl, by simp⟩

/-- What it shows. -/
noncomputable def hoverDrawn1 {T : Type} (one : T) : Drawn T where
  things := Sdf.hovering
  lamps := [(⟨9, 9, 9⟩, ⟨0, 5, 0⟩)]
  skies := [⟨1, 1, 1⟩]
  camera := ⟨⟨0, 0, -5⟩, 0, ⟨0, 1, 0⟩, 30, 1 / 10000, 10000, 10, 0, (512, 512)⟩
  placed := one
  view := "path"
  bounces := 10
  samples := 8

theorem hover_shows1 {T : Type} (m : Xf ℝ T) : Shows (hoverEntries1 real m) (hoverDrawn1 m.one) := by
  constructor
  · refine .cons ?_ (.cons ?_ .nil)
    · refine ⟨"o1", "ball", "clear", "null", .sphere (splat (real 0)) (real 1) (real 0) ⟨"null", "null", false⟩, "b1",
        .dielectric (real (3 / 2)) (real 1), rfl, Or.inl rfl, ?_, ?_, ?_, ?_, ?_⟩
      · simp [hoverEntries1, MeshP.type]
      · have h0 : splat (real 0) = 0 := by simp [splat, real]; rfl
        have h1 : real 1 = 1 := by simp [real]
        rw [h0, h1]
        exact .sphere ⟨rfl, rfl, rfl⟩
      · simp [hoverEntries1]
      · simp [hoverEntries1, BsdfP.type]
      · have h0 : real (3 / 2) = 3 / 2 := by simp [real]
        have h1 : real 1 = 1 := by simp [real]
        rw [h0, h1]
        exact .glass
    · refine ⟨"o2", "floor", "dull", "null", .plane ⟨real (0 : ℤ), real (-3 : ℤ), real (0 : ℤ)⟩ ⟨real 0, real 1, real 0⟩ (real 0)
        ⟨"null", "null", false⟩, "b2", .diffuse (splat (real (8 / 10))), rfl, Or.inl rfl, ?_, ?_, ?_, ?_, ?_⟩
      · simp [hoverEntries1, MeshP.type]
      · have h0 : (⟨real (0 : ℤ), real (-3 : ℤ), real (0 : ℤ)⟩ : V3 ℝ) = ⟨0, -3, 0⟩ := by simp [real]
        have h1 : (⟨real 0, real 1, real 0⟩ : V3 ℝ) = ⟨0, 1, 0⟩ := by simp [real]
        rw [h0, h1]
        exact .plane ⟨rfl, rfl, rfl⟩
      · simp [hoverEntries1]
      · simp [hoverEntries1, BsdfP.type]
      · have h0 : splat (real (8 / 10)) = ⟨4 / 5, 4 / 5, 4 / 5⟩ := by simp only [splat, real]; norm_num
        rw [h0]
        exact .diffuse
  · simp only [hoverEntries1, List.map_cons, List.map_nil, List.mem_cons, List.not_mem_nil, or_false, reduceCtorEq,
      Call.object.injEq, false_or]
    rintro n me sh e n' sh' e' (⟨rfl, rfl, -⟩ | ⟨rfl, rfl, -⟩) (⟨rfl, h, -⟩ | ⟨rfl, h, -⟩) <;> first | rfl | simp at h
  · have h0 : (⟨real (9 : ℤ), real (9 : ℤ), real (9 : ℤ)⟩ : V3 ℝ) = ⟨9, 9, 9⟩ := by simp [real]
    have h1 : (⟨real (0 : ℤ), real (5 : ℤ), real (0 : ℤ)⟩ : V3 ℝ) = ⟨0, 5, 0⟩ := by simp [real]
    have h2 : splat (real 1) = ⟨1, 1, 1⟩ := by simp [splat, real]
    simp only [hoverEntries1, List.map_cons, List.map_nil, h0, h1, h2]
    exact .lamp (.sky (Or.inl rfl) .nil)
  · refine ⟨"room", "i", "s", "c", "default", "", "", "default", ⟨-1, -1, "", 10, 1⟩, none, 0x12345678, ?_, by simp, ?_, ?_, rfl, ?_⟩
    · simp [hoverEntries1]
    · have : (hoverDrawn1 m.one).camera = ⟨⟨real (0 : ℤ), real (0 : ℤ), real (-5 : ℤ)⟩, ⟨real (0 : ℤ), real (0 : ℤ), real (0 : ℤ)⟩,
          ⟨real (0 : ℤ), real (1 : ℤ), real (0 : ℤ)⟩, real 30, real (1 / 10000), real 10000, real 10, real 0, (512, 512)⟩ := by
        simp [hoverDrawn1, real]
        rfl
      rw [this]
      simp [hoverEntries1, hoverDrawn1]
    · simp [hoverEntries1, hoverDrawn1]
    · simp [hoverEntries1, hoverDrawn1]

/-- A glass ball above a floor, under a lamp and an even sky; the floor is the first object. -/
def hoverFile2 : List (String × Js) :=
  [("scene", .obj [("name", .str "room"), ("integrator", .str "i"), ("sampler", .str "s"), ("camera", .str "c"),
     ("sdf_mode", .bool true)]),
   ("object", .obj [("name", .str "o2"), ("mesh", .str "floor"), ("material_shader", .str "dull")]),
   ("object", .obj [("name", .str "o1"), ("mesh", .str "ball"), ("material_shader", .str "clear")]),
   ("mesh", .obj [("type", .str "sdf_sphere"), ("name", .str "ball")]),
   ("mesh", .obj [("type", .str "sdf_plane"), ("name", .str "floor"), ("center", .arr [.int 0, .int (-3), .int 0])]),
   ("shader", .obj [("type", .str "simple_material"), ("name", .str "clear"), ("bsdf", .str "b1")]),
   ("shader", .obj [("type", .str "simple_material"), ("name", .str "dull"), ("bsdf", .str "b2")]),
   ("bsdf", .obj [("type", .str "dielectric"), ("name", .str "b1")]),
   ("bsdf", .obj [("type", .str "diffuse"), ("name", .str "b2")]),
   ("emitter", .obj [("type", .str "point"), ("name", .str "lamp"), ("position", .arr [.int 0, .int 5, .int 0]),
     ("intensity", .arr [.int 9, .int 9, .int 9])]),
   ("emitter", .obj [("type", .str "environment"), ("name", .str "sky")]),
   ("camera", .obj [("name", .str "c"),
     ("lookat", .arr [.int 0, .int 0, .int (-5), .int 0, .int 0, .int 0, .int 0, .int 1, .int 0])]),
   ("sampler", .obj [("name", .str "s")]),
   ("integrator", .obj [("type", .str "path"), ("name", .str "i")])]

/-- Its declarations. -/
def hoverEntries2 {F T : Type} (fl : Rat → F) (m : Xf F T) : List (Entry F T) :=
  [(m.one, .scene "room" "i" "s" "c" "default" "" "" true),
   (m.one, .object "o2" "floor" "dull" "null"),
   (m.one, .object "o1" "ball" "clear" "null"),
   (m.one, .mesh "ball" "sdf_sphere" (.sphere (splat (fl 0)) (fl 1) (fl 0) ⟨"null", "null", false⟩)),
   (m.one, .mesh "floor" "sdf_plane" (.plane ⟨fl (0 : ℤ), fl (-3 : ℤ), fl (0 : ℤ)⟩ ⟨fl 0, fl 1, fl 0⟩ (fl 0) ⟨"null", "null", false⟩)),
   (m.one, .shader "clear" "simple_material" (.simple "b1")),
   (m.one, .shader "dull" "simple_material" (.simple "b2")),
   (m.one, .bsdf "b1" "dielectric" (.dielectric (fl (3 / 2)) (fl 1))),
   (m.one, .bsdf "b2" "diffuse" (.diffuse (splat (fl (8 / 10))))),
   (m.one, .emitter "lamp" "point" (.point ⟨fl (9 : ℤ), fl (9 : ℤ), fl (9 : ℤ)⟩ ⟨fl (0 : ℤ), fl (5 : ℤ), fl (0 : ℤ)⟩)),
   (m.one, .emitter "sky" "environment" (.environment (splat (fl 1)) "")),
   (m.one, .camera "c" "perspective" ⟨⟨fl (0 : ℤ), fl (0 : ℤ), fl (-5 : ℤ)⟩, ⟨fl (0 : ℤ), fl (0 : ℤ), fl (0 : ℤ)⟩, ⟨fl (0 : ℤ), fl (1 : ℤ), fl (0 : ℤ)⟩, fl 30, fl (1 / 10000), fl 10000, fl 10, fl 0, (512, 512)⟩),
   (m.one, .sampler "s" "independent" 8 0x12345678),
   (m.one, .integrator "i" "path" "default" ⟨-1, -1, "", 10, 1⟩ none)]

theorem hover_fits2 {F T : Type} (fl : Rat → F) (m : Xf F T) : AllFit (hoverEntries2 fl m) := by
  rw [allFit_iff]
  refine ⟨?_, ?_, ?_⟩
  · simp [hoverEntries2, Alone, Call.key, Call.api, Call.type, takenNames, integratorTypes]
  · simp [hoverEntries2, Apart, Call.key, Call.api]
  · intro A p B e hp
    cases A with
    | nil =>
      simp only [hoverEntries2, List.nil_append, List.cons.injEq] at e
      rw [← e.1] at hp
      simp [Call.api] at hp
    | cons a A =>
      simp only [hoverEntries2, List.cons_append, List.cons.injEq] at e
      exact ⟨a, List.mem_cons_self, by rw [← e.1]; rfl⟩

theorem hover_whole2 {F T : Type} (fl : Rat → F) (m : Xf F T) : Whole ((hoverEntries2 fl m).map (·.2)) := by
  constructor
  · exact ⟨_, List.mem_cons_self, rfl⟩
  · simp [hoverEntries2, Declared, Call.key]
    rintro _ _ _ _ _ _ _ - rfl rfl rfl - - -
    simp
  · simp [hoverEntries2, Declared, Call.key]
    rintro _ _ _ _ (⟨-, rfl, -, rfl⟩ | ⟨-, rfl, -, rfl⟩) <;> simp
  · simp [hoverEntries2, Declared, Call.key, Call.uses, MeshP.uses, BoundaryP.media]
  · simp [hoverEntries2]

/-- The file is carried out. -/
theorem hover_runs2 {F T : Type} (fl : Rat → F) (m : Xf F T) : ∃ s, runFile fl m (.obj hoverFile2) = some (.rendered s) := by
  refine (rendered_iff fl m hoverFile2).2 ⟨?_, hover_fits2 fl m⟩
  simp only [hoverFile2, List.forall_mem_cons]
  exact ⟨rfl, rfl, rfl, rfl, rfl, rfl, rfl, rfl, rfl, rfl, rfl, rfl, rfl, rfl, by simp⟩

/-- What it shows. -/
noncomputable def hoverDrawn2 {T : Type} (one : T) : Drawn T where
  things := Sdf.hovering.reverse
  lamps := [(⟨9, 9, 9⟩, ⟨0, 5, 0⟩)]
  skies := [⟨1, 1, 1⟩]
  camera := ⟨⟨0, 0, -5⟩, 0, ⟨0, 1, 0⟩, 30, 1 / 10000, 10000, 10, 0, (512, 512)⟩
  placed := one
  view := "path"
  bounces := 10
  samples := 8

theorem hover_shows2 {T : Type} (m : Xf ℝ T) : Shows (hoverEntries2 real m) (hoverDrawn2 m.one) := by
  constructor
  · refine .cons ?_ (.cons ?_ .nil)
    · refine ⟨"o2", "floor", "dull", "null", .plane ⟨real (0 : ℤ), real (-3 : ℤ), real (0 : ℤ)⟩ ⟨real 0, real 1, real 0⟩ (real 0)
        ⟨"null", "null", false⟩, "b2", .diffuse (splat (real (8 / 10))), rfl, Or.inl rfl, ?_, ?_, ?_, ?_, ?_⟩
      · simp [hoverEntries2, MeshP.type]
      · have h0 : (⟨real (0 : ℤ), real (-3 : ℤ), real (0 : ℤ)⟩ : V3 ℝ) = ⟨0, -3, 0⟩ := by simp [real]
        have h1 : (⟨real 0, real 1, real 0⟩ : V3 ℝ) = ⟨0, 1, 0⟩ := by simp [real]
        rw [h0, h1]
        exact .plane ⟨rfl, rfl, rfl⟩
      · simp [hoverEntries2]
      · simp [hoverEntries2, BsdfP.type]
      · have h0 : splat (real (8 / 10)) = ⟨4 / 5, 4 / 5, 4 / 5⟩ := by simp only [splat, real]; norm_num
        rw [h0]
        exact .diffuse
    · refine ⟨"o1", "ball", "clear", "null", .sphere (splat (real 0)) (real 1) (real 0) ⟨"null", "null", false⟩, "b1",
        .dielectric (real (3 / 2)) (real 1), rfl, Or.inl rfl, ?_, ?_, ?_, ?_, ?_⟩
      · simp [hoverEntries2, MeshP.type]
      · have h0 : splat (real 0) = 0 := by simp [splat, real]; rfl
        have h1 : real 1 = 1 := by simp [real]
        rw [h0, h1]
        exact .sphere ⟨rfl, rfl, rfl⟩
      · simp [hoverEntries2]
      · simp [hoverEntries2, BsdfP.type]
      · have h0 : real (3 / 2) = 3 / 2 := by simp [real]
        have h1 : real 1 = 1 := by simp [real]
        rw [h0, h1]
        exact .glass
  · simp only [hoverEntries2, List.map_cons, List.map_nil, List.mem_cons, List.not_mem_nil, or_false, reduceCtorEq,
      Call.object.injEq, false_or]
    rintro n me sh e n' sh' e' (⟨rfl, rfl, -⟩ | ⟨rfl, rfl, -⟩) (⟨rfl, h, -⟩ | ⟨rfl, h, -⟩) <;> first | rfl | simp at h
  · have h0 : (⟨real (9 : ℤ), real (9 : ℤ), real (9 : ℤ)⟩ : V3 ℝ) = ⟨9, 9, 9⟩ := by simp [real]
    have h1 : (⟨real (0 : ℤ), real (5 : ℤ), real (0 : ℤ)⟩ : V3 ℝ) = ⟨0, 5, 0⟩ := by simp [real]
    have h2 : splat (real 1) = ⟨1, 1, 1⟩ := by simp [splat, real]
    simp only [hoverEntries2, List.map_cons, List.map_nil, h0, h1, h2]
    exact .lamp (.sky (Or.inl rfl) .nil)
  · refine ⟨"room", "i", "s", "c", "default", "", "", "default", ⟨-1, -1, "", 10, 1⟩, none, 0x12345678, ?_, by simp, ?_, ?_, rfl, ?_⟩
    · simp [hoverEntries2]
    · have : (hoverDrawn2 m.one).camera = ⟨⟨real (0 : ℤ), real (0 : ℤ), real (-5 : ℤ)⟩, ⟨real (0 : ℤ), real (0 : ℤ), real (0 : ℤ)⟩,
          ⟨real (0 : ℤ), real (1 : ℤ), real (0 : ℤ)⟩, real 30, real (1 / 10000), real 10000, real 10, real 0, (512, 512)⟩ := by
        simp [hoverDrawn2, real]
        rfl
      rw [this]
      simp [hoverEntries2, hoverDrawn2]
    · simp [hoverEntries2, hoverDrawn2]
    · simp [hoverEntries2, hoverDrawn2]

/-- The two files meet the hypotheses of `file_order_free_partial`, and their things are in different orders. -/
example : ∃ s s' d d', runFile real matrices (.obj hoverFile1) = some (.rendered s) ∧
    runFile real matrices (.obj hoverFile2) = some (.rendered s') ∧
    Whole ((entries real matrices hoverFile1).map (·.2)) ∧ Whole ((entries real matrices hoverFile2).map (·.2)) ∧
    Shows (entries real matrices hoverFile1) d ∧ Shows (entries real matrices hoverFile2) d' ∧ d'.Same d ∧ d'.things ≠ d.things ∧
    (∀ t ∈ d.things, t.1.WellFormed) ∧ Sdf.Told d.things ∧
    (∃ os es mds, Api.IsOrder s .object os ∧ Api.IsOrder s .emitter es ∧ Api.IsOrder s .media mds) ∧
    ∃ os es mds, Api.IsOrder s' .object os ∧ Api.IsOrder s' .emitter es ∧ Api.IsOrder s' .media mds := by
  obtain ⟨s, hs⟩ := hover_runs1 real matrices
  obtain ⟨s', hs'⟩ := hover_runs2 real matrices
  have orders : ∀ {f : List (String × Js)} {s : St (Call ℝ) (Option (Feign.Xf ℝ))}, runFile real matrices (.obj f) = some (.rendered s) →
      ∃ os es mds, Api.IsOrder s .object os ∧ Api.IsOrder s .emitter es ∧ Api.IsOrder s .media mds := by
    intro f s hs
    have ho := order_exists (s := s) (by
      obtain ⟨-, hx⟩ := (rendered_cases real matrices _ s).1 hs
      obtain ⟨o, hr⟩ := exec_run matrices _ hx
      exact (Api.run_keeps true _ (Api.init_inv _) hr).1)
    obtain ⟨os, h1⟩ := ho .object
    obtain ⟨es, h2⟩ := ho .emitter
    obtain ⟨mds, h3⟩ := ho .media
    exact ⟨os, es, mds, h1, h2, h3⟩
  refine ⟨s, s', hoverDrawn1 matrices.one, hoverDrawn2 matrices.one, hs, hs', hover_whole1 _ _, hover_whole2 _ _, hover_shows1 _,
    hover_shows2 _, ⟨List.reverse_perm _, rfl⟩, ?_, Sdf.hovering_wellFormed, Sdf.hovering_told, orders hs, orders hs'⟩
  simp [hoverDrawn1, hoverDrawn2, Sdf.hovering]

end Feign.Parser
