import Verif.Parser.DrawnSeen

/-!
# C135: transforms of objects, and a file
-/

set_option linter.unusedSectionVars false
set_option linter.unusedSimpArgs false
set_option linter.unusedVariables false

namespace Feign.Parser

open Api (Key Kind St Asm Ptr)

/-- **C135 (transforms written in a file).** Two files that are carried out and whose declarations agree except for the transforms
show the same scenes. -/
theorem transforms_ignored {T : Type} (fl : Rat → ℝ) (m : Xf ℝ T) {ms ms' : List (String × Js)} {s s' : St (Call ℝ) T}
    (h : runFile fl m (.obj ms) = some (.rendered s)) (h' : runFile fl m (.obj ms') = some (.rendered s'))
    (he : (entries fl m ms).map (·.2) = (entries fl m ms').map (·.2)) (d : Drawn T) :
    Shows (entries fl m ms) d ↔ Shows (entries fl m ms') d := by
  have key : ∀ {ms ms' : List (String × Js)} {s s' : St (Call ℝ) T},
      runFile fl m (.obj ms) = some (.rendered s) → runFile fl m (.obj ms') = some (.rendered s') →
      (entries fl m ms).map (·.2) = (entries fl m ms').map (·.2) → Shows (entries fl m ms) d → Shows (entries fl m ms') d := by
    intro ms ms' s s' h h' he hd
    obtain ⟨g1, g2, g3, name, i, sa, cam, med, kw, ds, filter, p, ph, seed, hsc, hmed, hcam, hint, hbo, hsa⟩ := hd
    have o1 := ((rendered_iff fl m ms).1 ⟨s, h⟩).1
    have o2 := ((rendered_iff fl m ms').1 ⟨s', h'⟩).1
    have hc : Call.camera cam "perspective" d.camera ∈ (entries fl m ms').map (·.2) := he ▸ List.mem_map_of_mem hcam
    obtain ⟨⟨x, c⟩, hx, hxc⟩ := List.mem_map.1 hc
    obtain rfl : c = .camera cam "perspective" d.camera := hxc
    have e1 := camera_entry fl m o1 hcam
    have e2 := camera_entry fl m o2 hx
    rw [e2, ← e1] at hx
    rw [he] at g1 g2 g3 hsc hint hsa
    exact ⟨g1, g2, g3, name, i, sa, cam, med, kw, ds, filter, p, ph, seed, hsc, hmed, hx, hint, hbo, hsa⟩
  exact ⟨key h h' he, key h' h he.symm⟩

/-! ### A file -/

/-- A glass ball on a floor, under a lamp and an even sky. The object of the ball has the transforms `tr`, the
integrator the type `v`. -/
def roomFile (v : String) (tr : List (String × Js)) : List (String × Js) :=
  [("scene", .obj [("name", .str "room"), ("integrator", .str "i"), ("sampler", .str "s"), ("camera", .str "c"),
     ("sdf_mode", .bool true)]),
   ("object", .obj ([("name", .str "o1"), ("mesh", .str "ball"), ("material_shader", .str "clear")] ++ tr)),
   ("object", .obj [("name", .str "o2"), ("mesh", .str "floor"), ("material_shader", .str "dull")]),
   ("mesh", .obj [("type", .str "sdf_sphere"), ("name", .str "ball")]),
   ("mesh", .obj [("type", .str "sdf_plane"), ("name", .str "floor"), ("center", .arr [.int 0, .int (-1), .int 0])]),
   ("shader", .obj [("type", .str "simple_material"), ("name", .str "clear"), ("bsdf", .str "b1")]),
   ("shader", .obj [("type", .str "simple_material"), ("name", .str "dull"), ("bsdf", .str "b2")]),
   ("bsdf", .obj [("type", .str "dielectric"), ("name", .str "b1")]),
   ("bsdf", .obj [("type", .str "diffuse"), ("name", .str "b2")]),
   ("emitter", .obj [("type", .str "point"), ("name", .str "lamp"), ("position", .arr [.int 0, .int 5, .int 0]),
     ("intensity", .arr [.int 9, .int 9, .int 9])]),
   ("emitter", .obj [("type", .str "environment"), ("name", .str "sky")]),
   ("camera", .obj [("name", .str "c"),
     ("lookat", .arr [.int 0, .int 0, .int (-5), .int 0, .int 0, .int 0, .int 0, .int 1, .int 0])]),
   ("sampler", .obj [("name", .str "s")]),
   ("integrator", .obj [("type", .str v), ("name", .str "i")])]

/-- Five units to the right. -/
def moved : List (String × Js) := [("translate", .arr [.int 5, .int 0, .int 0])]

/-- Its declarations. -/
def roomEntries {F T : Type} (fl : Rat → F) (m : Xf F T) (v : String) (x : T) : List (Entry F T) :=
  [(m.one, .scene "room" "i" "s" "c" "default" "" "" true),
   (x, .object "o1" "ball" "clear" "null"),
   (m.one, .object "o2" "floor" "dull" "null"),
   (m.one, .mesh "ball" "sdf_sphere" (.sphere (splat (fl 0)) (fl 1) (fl 0) ⟨"null", "null", false⟩)),
   (m.one, .mesh "floor" "sdf_plane" (.plane ⟨fl (0 : ℤ), fl (-1 : ℤ), fl (0 : ℤ)⟩ ⟨fl 0, fl 1, fl 0⟩ (fl 0) ⟨"null", "null", false⟩)),
   (m.one, .shader "clear" "simple_material" (.simple "b1")),
   (m.one, .shader "dull" "simple_material" (.simple "b2")),
   (m.one, .bsdf "b1" "dielectric" (.dielectric (fl (3 / 2)) (fl 1))),
   (m.one, .bsdf "b2" "diffuse" (.diffuse (splat (fl (8 / 10))))),
   (m.one, .emitter "lamp" "point" (.point ⟨fl (9 : ℤ), fl (9 : ℤ), fl (9 : ℤ)⟩ ⟨fl (0 : ℤ), fl (5 : ℤ), fl (0 : ℤ)⟩)),
   (m.one, .emitter "sky" "environment" (.environment (splat (fl 1)) "")),
   (m.one, .camera "c" "perspective" ⟨⟨fl (0 : ℤ), fl (0 : ℤ), fl (-5 : ℤ)⟩, ⟨fl (0 : ℤ), fl (0 : ℤ), fl (0 : ℤ)⟩, ⟨fl (0 : ℤ), fl (1 : ℤ), fl (0 : ℤ)⟩, fl 30, fl (1 / 10000), fl 10000, fl 10, fl 0, (512, 512)⟩),
   (m.one, .sampler "s" "independent" 8 0x12345678),
   (m.one, .integrator "i" v "default" ⟨-1, -1, "", 10, 1⟩ none)]

/-- Types of integrators the file is used with. -/
def roomViews : List String := ["path", "ao", "normal", "nice_normal", "cosine_term", "barycentric", "whitted"]

theorem room_entries {F T : Type} (fl : Rat → F) (m : Xf F T) {v : String} (hv : v ∈ roomViews) :
    entries fl m (roomFile v moved) = roomEntries fl m v (m.translate ⟨fl (5 : ℤ), fl (0 : ℤ), fl (0 : ℤ)⟩ m.one) := by
  simp only [roomViews, List.mem_cons, List.not_mem_nil, or_false] at hv
  rcases hv with rfl | rfl | rfl | rfl | rfl | rfl | rfl <;> rfl

theorem room_fits {F T : Type} (fl : Rat → F) (m : Xf F T) {v : String} (hv : v ∈ roomViews) (x : T) : AllFit (roomEntries fl m v x) := by
  have hvi : v ∈ integratorTypes := by
    simp only [roomViews, List.mem_cons, List.not_mem_nil, or_false] at hv
    rcases hv with rfl | rfl | rfl | rfl | rfl | rfl | rfl <;> simp [integratorTypes]
  rw [allFit_iff]
  refine ⟨?_, ?_, ?_⟩
  · simp [roomEntries, Alone, Call.key, Call.api, Call.type, takenNames, hvi]
  · simp [roomEntries, Apart, Call.key, Call.api]
  · intro A p B e hp
    cases A with
    | nil =>
      simp only [roomEntries, List.nil_append, List.cons.injEq] at e
      rw [← e.1] at hp
      simp [Call.api] at hp
    | cons a A =>
      simp only [roomEntries, List.cons_append, List.cons.injEq] at e
      exact ⟨a, List.mem_cons_self, by rw [← e.1]; rfl⟩

theorem room_whole {F T : Type} (fl : Rat → F) (m : Xf F T) (v : String) (x : T) : Whole ((roomEntries fl m v x).map (·.2)) := by
  constructor
  · exact ⟨_, List.mem_cons_self, rfl⟩
  · simp [roomEntries, Declared, Call.key]
    rintro _ _ _ _ _ _ _ - rfl rfl rfl - - -
    simp
  · simp [roomEntries, Declared, Call.key]
    rintro _ _ _ _ (⟨-, rfl, -, rfl⟩ | ⟨-, rfl, -, rfl⟩) <;> simp
  · simp [roomEntries, Declared, Call.key, Call.uses, MeshP.uses, BoundaryP.media]
  · simp [roomEntries]

/-- The file is carried out. -/
theorem room_runs {F T : Type} (fl : Rat → F) (m : Xf F T) {v : String} (hv : v ∈ roomViews) :
    ∃ s, runFile fl m (.obj (roomFile v moved)) = some (.rendered s) := by
  refine (rendered_iff fl m (roomFile v moved)).2 ⟨?_, by rw [room_entries fl m hv]; exact room_fits fl m hv _⟩
  simp only [roomFile, moved, List.forall_mem_cons]
  refine ⟨rfl, rfl, rfl, rfl, rfl, rfl, rfl, rfl, rfl, rfl, rfl, rfl, rfl, ?_, by simp⟩
  simp only [roomViews, List.mem_cons, List.not_mem_nil, or_false] at hv
  rcases hv with rfl | rfl | rfl | rfl | rfl | rfl | rfl <;> rfl

/-- What it shows. -/
noncomputable def roomDrawn {T : Type} (v : String) (one : T) : Drawn T where
  things := [(.sphere 0 1, ⟨.glass, ⟨1, 1, 1⟩, 3 / 2, 1, fun _ => 0⟩),
    (.plane ⟨0, -1, 0⟩ ⟨0, 1, 0⟩, ⟨.diffuse, ⟨4 / 5, 4 / 5, 4 / 5⟩, 1, 1, fun _ => 0⟩)]
  lamps := [(⟨9, 9, 9⟩, ⟨0, 5, 0⟩)]
  skies := [⟨1, 1, 1⟩]
  camera := ⟨⟨0, 0, -5⟩, 0, ⟨0, 1, 0⟩, 30, 1 / 10000, 10000, 10, 0, (512, 512)⟩
  placed := one
  view := v
  bounces := 10
  samples := 8

/-- Numbers of a file as real numbers. -/
noncomputable def real : Rat → ℝ := fun q => q

theorem room_shows {T : Type} (m : Xf ℝ T) (v : String) (x : T) : Shows (roomEntries real m v x) (roomDrawn v m.one) := by
  constructor
  · refine .cons ?_ (.cons ?_ .nil)
    · refine ⟨"o1", "ball", "clear", "null", .sphere (splat (real 0)) (real 1) (real 0) ⟨"null", "null", false⟩, "b1",
        .dielectric (real (3 / 2)) (real 1), rfl, Or.inl rfl, ?_, ?_, ?_, ?_, ?_⟩
      · simp [roomEntries, MeshP.type]
      · have h0 : splat (real 0) = 0 := by simp [splat, real]; rfl
        have h1 : real 1 = 1 := by simp [real]
        rw [h0, h1]
        exact .sphere ⟨rfl, rfl, rfl⟩
      · simp [roomEntries]
      · simp [roomEntries, BsdfP.type]
      · have h0 : real (3 / 2) = 3 / 2 := by simp [real]
        have h1 : real 1 = 1 := by simp [real]
        rw [h0, h1]
        exact .glass
    · refine ⟨"o2", "floor", "dull", "null", .plane ⟨real (0 : ℤ), real (-1 : ℤ), real (0 : ℤ)⟩ ⟨real 0, real 1, real 0⟩ (real 0)
        ⟨"null", "null", false⟩, "b2", .diffuse (splat (real (8 / 10))), rfl, Or.inl rfl, ?_, ?_, ?_, ?_, ?_⟩
      · simp [roomEntries, MeshP.type]
      · have h0 : (⟨real (0 : ℤ), real (-1 : ℤ), real (0 : ℤ)⟩ : V3 ℝ) = ⟨0, -1, 0⟩ := by simp [real]
        have h1 : (⟨real 0, real 1, real 0⟩ : V3 ℝ) = ⟨0, 1, 0⟩ := by simp [real]
        rw [h0, h1]
        exact .plane ⟨rfl, rfl, rfl⟩
      · simp [roomEntries]
      · simp [roomEntries, BsdfP.type]
      · have h0 : splat (real (8 / 10)) = ⟨4 / 5, 4 / 5, 4 / 5⟩ := by simp only [splat, real]; norm_num
        rw [h0]
        exact .diffuse
  · simp only [roomEntries, List.map_cons, List.map_nil, List.mem_cons, List.not_mem_nil, or_false, reduceCtorEq,
      Call.object.injEq, false_or]
    rintro n me sh e n' sh' e' (⟨rfl, rfl, -⟩ | ⟨rfl, rfl, -⟩) (⟨rfl, h, -⟩ | ⟨rfl, h, -⟩) <;> first | rfl | simp at h
  · have h0 : (⟨real (9 : ℤ), real (9 : ℤ), real (9 : ℤ)⟩ : V3 ℝ) = ⟨9, 9, 9⟩ := by simp [real]
    have h1 : (⟨real (0 : ℤ), real (5 : ℤ), real (0 : ℤ)⟩ : V3 ℝ) = ⟨0, 5, 0⟩ := by simp [real]
    have h2 : splat (real 1) = ⟨1, 1, 1⟩ := by simp [splat, real]
    simp only [roomEntries, List.map_cons, List.map_nil, h0, h1, h2]
    exact .lamp (.sky (Or.inl rfl) .nil)
  · refine ⟨"room", "i", "s", "c", "default", "", "", "default", ⟨-1, -1, "", 10, 1⟩, none, 0x12345678, ?_, by simp, ?_, ?_, rfl, ?_⟩
    · simp [roomEntries]
    · have : (roomDrawn v m.one).camera = ⟨⟨real (0 : ℤ), real (0 : ℤ), real (-5 : ℤ)⟩, ⟨real (0 : ℤ), real (0 : ℤ), real (0 : ℤ)⟩,
          ⟨real (0 : ℤ), real (1 : ℤ), real (0 : ℤ)⟩, real 30, real (1 / 10000), real 10000, real 10, real 0, (512, 512)⟩ := by
        simp [roomDrawn, real]
        rfl
      rw [this]
      simp [roomEntries, roomDrawn]
    · simp [roomEntries, roomDrawn]
    · simp [roomEntries, roomDrawn]

theorem room_good {T : Type} (v : String) (one : T) : (roomDrawn v one).Good 1 1 9 1 := by
  have hconst : ∀ (c : ℝ) (k : Fin 3), (⟨c, c, c⟩ : V3 ℝ).get k = c := by
    intro c k; fin_cases k <;> rfl
  constructor
  · simp only [roomDrawn, List.forall_mem_cons]
    refine ⟨?_, ?_, by simp⟩
    · show (0 : ℝ) ≤ 1
      norm_num
    · show V3.sqrNorm _ = 1
      simp [V3.sqrNorm]
  · simp only [roomDrawn, List.forall_mem_cons, hconst]
    refine ⟨⟨⟨?_, ?_, ?_⟩, ?_⟩, ⟨⟨?_, ?_, ?_⟩, ?_⟩, by simp⟩ <;> norm_num
  · simp only [roomDrawn, List.forall_mem_cons]
    refine ⟨⟨?_, ?_, ?_⟩, by simp⟩ <;> norm_num
  · simp [roomDrawn, hconst]
  · simp only [roomDrawn, List.forall_mem_cons, hconst]
    refine ⟨⟨⟨?_, ?_, ?_⟩, ?_⟩, by simp⟩ <;> norm_num
  · intro l hl t ht q hq
    simp only [roomDrawn, List.mem_cons, List.not_mem_nil, or_false] at hl ht
    subst hl
    have h1 := Sdf.norm_ge_y ((⟨0, 5, 0⟩ : V3 ℝ) - q)
    have h2 := le_abs_self ((⟨0, 5, 0⟩ : V3 ℝ) - q).y
    have h3 : ((⟨0, 5, 0⟩ : V3 ℝ) - q).y = 5 - q.y := rfl
    have he : Sdf.eps = 1 / 1000 := rfl
    unfold Sdf.dist
    rcases ht with rfl | rfl
    · have hq' : (q - 0).norm ≤ 1 := hq
      have h4 := Sdf.norm_ge_y (q - 0)
      have h5 := le_abs_self (q - 0).y
      have h6 : (q - 0).y = q.y - 0 := rfl
      rw [he]
      linarith
    · have hq' : (q - ⟨0, -1, 0⟩).dot ⟨0, 1, 0⟩ = 0 := hq
      have : q.y = -1 := by
        simp only [V3.dot, V3.sub_x, V3.sub_y, V3.sub_z] at hq'
        linarith
      rw [he]
      linarith
  · constructor <;> norm_num [roomDrawn, CameraP.persp]
  · norm_num [roomDrawn]
  · intro e
    have := congrArg V3.x e
    norm_num [V3.cross, roomDrawn] at this

theorem path_view : "path" ∈ roomViews := by simp [roomViews]

/-- **C135 refuted: moving an object moves its shape.** In the file the object of the unit ball is moved by five units.
However the renderer goes through its tables, the ball it draws is still in the middle. -/
theorem moved_object_refuted {T : Type} (m : Xf ℝ T) : ∃ s, runFile real m (.obj (roomFile "path" moved)) = some (.rendered s) ∧
    (m.translate ⟨5, 0, 0⟩ m.one, .object "o1" "ball" "clear" "null") ∈ entries real m (roomFile "path" moved) ∧
    ∀ (mul : T → T → T) (one : T) {os es mds : List Nat}, Api.IsOrder s .object os → Api.IsOrder s .emitter es →
      Api.IsOrder s .media mds → ∃ a d, Api.flush true mul one s os es mds = (.ok, a) ∧ drawn s a = some d ∧
        (.sphere 0 1, ⟨.glass, ⟨1, 1, 1⟩, 3 / 2, 1, fun _ => 0⟩) ∈ d.things := by
  obtain ⟨s, hs⟩ := room_runs real m path_view
  refine ⟨s, hs, ?_, fun mul one os es mds ho he hm => ?_⟩
  · rw [room_entries real m path_view]
    simp [roomEntries, real]
  · obtain ⟨a, d, h1, h2, h3, -⟩ := file_drawn real m hs (by rw [room_entries real m path_view]; exact room_whole real m _ _)
      (by rw [room_entries real m path_view]; exact room_shows m _ _) mul one ho he hm
    exact ⟨a, d, h1, h2, h3.mem_iff.2 (by simp [roomDrawn])⟩

/-- The tables can be gone through. -/
theorem order_exists {D T : Type} {s : St D T} (hI : Api.Inv s) (k : Kind) : ∃ l, Api.IsOrder s k l := by
  classical
  refine ⟨(List.range s.nodes.length).filter fun p => ∃ n, s.lookup k n = some p, List.nodup_range.filter _, fun p => ?_⟩
  simp only [List.mem_filter, List.mem_range, decide_eq_true_eq]
  refine ⟨fun h => h.2, fun h => ⟨?_, h⟩⟩
  obtain ⟨n, hn⟩ := h
  obtain ⟨nd, hnd, -⟩ := (hI.look _ _ _).1 hn
  exact (List.getElem?_eq_some_iff.1 hnd).1

/-- The file meets all hypotheses of `file_picture`; its glass is white. -/
example : ∃ s d, runFile real matrices (.obj (roomFile "path" moved)) = some (.rendered s) ∧
    Whole ((entries real matrices (roomFile "path" moved)).map (·.2)) ∧ Shows (entries real matrices (roomFile "path" moved)) d ∧ d.view = "path" ∧ d.Good 1 1 9 1 ∧
    ∃ os es mds, Api.IsOrder s .object os ∧ Api.IsOrder s .emitter es ∧ Api.IsOrder s .media mds := by
  obtain ⟨s, hs⟩ := room_runs real matrices path_view
  have ho := order_exists (s := s) (by
    obtain ⟨-, hx⟩ := (rendered_cases real matrices _ s).1 hs
    obtain ⟨o, hr⟩ := exec_run matrices _ hx
    exact (Api.run_keeps true _ (Api.init_inv _) hr).1)
  obtain ⟨os, h1⟩ := ho .object
  obtain ⟨es, h2⟩ := ho .emitter
  obtain ⟨mds, h3⟩ := ho .media
  exact ⟨s, roomDrawn "path" matrices.one, hs, by rw [room_entries _ _ path_view]; exact room_whole _ _ _ _, by rw [room_entries _ _ path_view]; exact room_shows _ _ _,
    rfl, room_good _ _, os, es, mds, h1, h2, h3⟩

/-- With and without moving the ball: `transforms_ignored` applies. -/
example {T : Type} (m : Xf ℝ T) : ∃ s s', runFile real m (.obj (roomFile "path" moved)) = some (.rendered s) ∧
    runFile real m (.obj (roomFile "path" [])) = some (.rendered s') ∧
    (entries real m (roomFile "path" moved)).map (·.2) = (entries real m (roomFile "path" [])).map (·.2) := by
  obtain ⟨s, hs⟩ := room_runs real m path_view
  obtain ⟨s', hs'⟩ := (rendered_iff real m (roomFile "path" [])).2 ⟨by
    simp only [roomFile, moved, List.forall_mem_cons]
    exact ⟨rfl, rfl, rfl, rfl, rfl, rfl, rfl, rfl, rfl, rfl, rfl, rfl, rfl, rfl, by simp⟩, by
    rw [show entries real m (roomFile "path" []) = roomEntries real m "path" m.one from rfl]
    exact room_fits real m path_view _⟩
  exact ⟨s, s', hs, hs', rfl⟩

open Sdf in
/-- A ray into the ball hits something in the scene of the file, and `drawn_light` applies. -/
example {T : Type} (v : String) (one : T) : ∃ a, hitOf (evals ((roomDrawn v one).things.map (·.1))) none (⟨0, 0, -1⟩, ⟨0, 0, 1⟩) = some a := by
  have hw : ∀ s ∈ (roomDrawn v one).things.map (·.1), s.WellFormed := by
    intro s hs
    obtain ⟨t, ht, rfl⟩ := List.mem_map.1 hs
    exact (room_good v one).shapes t ht
  set ss := (roomDrawn v one).things.map (·.1) with hss
  set r : Feign.Ray ℝ := ⟨⟨0, 0, -1⟩, ⟨0, 0, 1⟩, Ext.fin eps, ⊤⟩ with hr
  obtain ⟨o, ho, hsd⟩ := march_sound (evals ss) (solids ss) (evals_conservative ss hw) r (by simp [hr, V3.sqrNorm]) ⊤ 2000 eps
  have he : eps = 1 / 1000 := rfl
  have hlen : 0 < (evals ss).length := by simp [hss, roomDrawn, evals]
  have hin : r.point eps ∈ solids ss 0 := by
    show ((⟨0, 0, -1⟩ : V3 ℝ) + (⟨0, 0, 1⟩ : V3 ℝ).smul eps - 0).norm ≤ 1
    have : ((⟨0, 0, -1⟩ : V3 ℝ) + (⟨0, 0, 1⟩ : V3 ℝ).smul eps - 0) = ⟨0, 0, -1 + eps⟩ := by ext <;> simp
    rw [this, V3.norm_eq]
    simp only [V3.sqrNorm]
    rw [he]
    refine Real.sqrt_le_one.2 ?_
    norm_num
  cases o with
  | hit h => exact ⟨h, by unfold hitOf intersect; rw [← hr, ho]⟩
  | passed d => exact absurd hsd.2.1 (by simp)
  | nothing => rw [show evals ss = [] from hsd] at hlen; simp at hlen
  | exhausted d =>
    obtain ⟨h1, h2⟩ := hsd
    exact absurd hin (h2 eps le_rfl (by rw [he] at h1 ⊢; norm_num at h1; linarith) 0 hlen)

/-- `drawn_light` and `drawn_camera` for the file. -/
example {T : Type} (v : String) (m : Xf ℝ T) (box : Option (B3 ℝ)) :=
  drawn_light (room_shows m v m.one) (⟨List.Perm.refl _, rfl⟩ : (roomDrawn v m.one).Same (roomDrawn v m.one)) zero_le_one zero_le_one one_pos
    (room_good v m.one) box

example {T : Type} (v : String) (one : T) := drawn_camera (room_good v one) rfl

end Feign.Parser
