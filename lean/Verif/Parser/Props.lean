import Verif.Parser.Rows

/-!
# C52: scene description files

The parser against the format table of `Verif/Parser/Spec.lean`.
-/

set_option linter.unusedSectionVars false
set_option linter.unusedSimpArgs false

namespace Feign.Parser

variable {F : Type} (fl : Rat → F)

/-! ### One section, one call -/

/-- **C52 (sections with a single call).** A section described by a row of the table whose fields are of the
right kind makes exactly one API call: the one named after the section, each parameter being the field's
value, or the default if the field is missing. -/
theorem section_call (r : Row F) (hr : r ∈ rows fl) (v : Js) (hm : Meets fl r v) :
    ∃ c, sectionOf fl r.sec v = ⟨[c], .ok ()⟩ ∧ Says fl r v c := by
  obtain ⟨i, hi⟩ := List.mem_iff_getElem?.1 hr
  have hsec : ∀ s r', (rows fl)[i]? = some r' → r'.sec = s → r.sec = s := by
    intro s r' h1 h2
    rw [hi] at h1
    cases h1
    exact h2
  match i, hi, hsec with
  | 0, hi, hsec => rw [hsec _ _ rfl rfl]; exact row_scene fl v r hi hm
  | 1, hi, hsec => rw [hsec _ _ rfl rfl]; exact row_media fl v r hi hm
  | 2, hi, hsec => rw [hsec _ _ rfl rfl]; exact row_media_density_sphere fl v r hi hm
  | 3, hi, hsec => rw [hsec _ _ rfl rfl]; exact row_accel_light_naive fl v r hi hm
  | 4, hi, hsec => rw [hsec _ _ rfl rfl]; exact row_accel_light_spatial fl v r hi hm
  | 5, hi, hsec => rw [hsec _ _ rfl rfl]; exact row_integrator_photon fl v r hi hm
  | 6, hi, hsec => rw [hsec _ _ rfl rfl]; exact row_camera_perspective fl v r hi hm
  | 7, hi, hsec => rw [hsec _ _ rfl rfl]; exact row_mesh_triangle_mesh fl v r hi hm
  | 8, hi, hsec => rw [hsec _ _ rfl rfl]; exact row_mesh_sdf_sphere fl v r hi hm
  | 9, hi, hsec => rw [hsec _ _ rfl rfl]; exact row_mesh_sdf_plane fl v r hi hm
  | 10, hi, hsec => rw [hsec _ _ rfl rfl]; exact row_mesh_sdf_cylinder fl v r hi hm
  | 11, hi, hsec => rw [hsec _ _ rfl rfl]; exact row_mesh_sdf_cone fl v r hi hm
  | 12, hi, hsec => rw [hsec _ _ rfl rfl]; exact row_bsdf_diffuse fl v r hi hm
  | 13, hi, hsec => rw [hsec _ _ rfl rfl]; exact row_bsdf_mirror fl v r hi hm
  | 14, hi, hsec => rw [hsec _ _ rfl rfl]; exact row_bsdf_dielectric fl v r hi hm
  | 15, hi, hsec => rw [hsec _ _ rfl rfl]; exact row_bsdf_phong fl v r hi hm
  | 16, hi, hsec => rw [hsec _ _ rfl rfl]; exact row_bsdf_blinn fl v r hi hm
  | 17, hi, hsec => rw [hsec _ _ rfl rfl]; exact row_shader_interp_verts_to_sphere fl v r hi hm
  | 18, hi, hsec => rw [hsec _ _ rfl rfl]; exact row_shader_simple_material fl v r hi hm
  | n + 19, hi, _ => simp [rows] at hi

/-- A media section leaves absorption at one and scattering at zero: the format has no field for them. -/
theorem media_optics_fixed (v : Js) (c : Call F) (h : sectionOf fl "media" v = ⟨[c], .ok ()⟩) :
    c.args.lookup "abs" = some (.v ⟨fl 1, fl 1, fl 1⟩) ∧ c.args.lookup "scat" = some (.v ⟨fl 0, fl 0, fl 0⟩) := by
  have ho : (sectionOf fl "media" v).out = .ok () := by rw [h]
  have key : ∀ {α : Type} (get : Js → Tr F α) (k : String) (d : α),
      (∀ j a, (get j).out = .ok a → get j = Tr.ret a) → ∀ a, (fld v k get d).out = .ok a → fld v k get d = Tr.ret a := by
    intro α get k d hg a ha
    cases v with
    | obj ms =>
      simp only [fld, find_obj, Tr.ret_bind] at ha ⊢
      cases hl : ms.lookup k with
      | none => rw [hl] at ha; simp only [Tr.ret] at ha; cases ha; rfl
      | some j => rw [hl] at ha; exact hg j a ha
    | _ => cases ha
  have hstr : ∀ j a, (getStr (F := F) j).out = .ok a → getStr j = Tr.ret (F := F) a := by
    intro j a h
    cases j <;> simp only [getStr, Tr.ret, Tr.stop] at h <;> cases h
    rfl
  simp only [sectionOf, mediaSec, reduceIte, String.reduceEq] at h ho
  obtain ⟨x0, h0, ho⟩ := Tr.bind_out_ok.1 ho
  obtain ⟨x1, h1, ho⟩ := Tr.bind_out_ok.1 ho
  obtain ⟨x2, h2, ho⟩ := Tr.bind_out_ok.1 ho
  obtain ⟨x3, h3, ho⟩ := Tr.bind_out_ok.1 ho
  obtain ⟨x4, h4, ho⟩ := Tr.bind_out_ok.1 ho
  obtain ⟨x5, h5, ho⟩ := Tr.bind_out_ok.1 ho
  rw [key _ _ _ hstr _ h0, key _ _ _ hstr _ h1, key _ _ _ hstr _ h2, key _ _ _ hstr _ h3, key _ _ _ hstr _ h4,
    key _ _ _ hstr _ h5] at h
  simp only [Tr.ret_bind, Tr.emit] at h
  cases h
  exact ⟨rfl, rfl⟩

/-- **C52 (samplers).** Count and seed; the seed is taken modulo `2^32`. -/
theorem sampler_call (v : Js) (hm : Meets fl samplerRow v) (seed : Int)
    (hs : valOf fl seedField v = some (.i seed)) :
    ∃ c, sectionOf fl "sampler" v = ⟨[c], .ok ()⟩ ∧ Says fl samplerRow v c ∧
      ∃ s, c.args.lookup "seed" = some (.i s) ∧ 0 ≤ s ∧ s < 2 ^ 32 ∧ (2 ^ 32 ∣ s - seed) := by
  have hf := hm.1
  simp only [samplerRow, List.forall_mem_cons] at hf
  obtain ⟨h0, h1, h2, -⟩ := hf
  obtain ⟨x0, e0, w0⟩ := fld_str fl h0
  obtain ⟨x1, e1, w1⟩ := fld_str fl h1
  obtain ⟨x2, e2, w2⟩ := fld_int fl h2
  obtain ⟨x3, e3, w3⟩ := fld_int fl (k := "seed") (d := 0x12345678) (p := "seed") (v := v)
    (by rw [show fInt "seed" 0x12345678 "seed" = seedField from rfl, hs]; rfl)
  obtain rfl : x3 = seed := by
    rw [show fInt "seed" 0x12345678 "seed" = (seedField : Field F) from rfl, hs] at w3
    cases w3
    rfl
  obtain rfl : x1 = "independent" := type_eq fl rfl hm (List.mem_cons_of_mem _ List.mem_cons_self) rfl w1
  refine ⟨_, by
    simp only [sectionOf, samplerSec, e0, e1, e2, e3, Tr.ret_bind, reduceIte, String.reduceEq]
    rfl, ⟨rfl, ?_⟩, ((x3 % 2 ^ 32).toNat : Int), by simp [Call.args, List.lookup], by omega, by omega, ?_⟩
  · simp only [samplerRow, List.forall_mem_cons, w0, w1, w2]
    simp [Call.args, List.lookup, fStr, fInt]
  · omega

/-- **C52 (integrators).** Any type other than the photon mapper's is passed on with the common fields. -/
theorem integrator_call (t : String) (ht : t ≠ "photon") (v : Js) (hm : Meets fl (integratorRow t) v) :
    ∃ c, sectionOf fl "integrator" v = ⟨[c], .ok ()⟩ ∧ Says fl (integratorRow t) v c := by
  have hf := hm.1
  simp only [integratorRow, integratorFields, List.forall_mem_cons] at hf
  obtain ⟨h0, h1, h2, h3, h4, h5, h6, -⟩ := hf
  obtain ⟨x0, e0, w0⟩ := fld_str fl h0
  obtain ⟨x1, e1, w1⟩ := fld_str fl h1
  obtain ⟨x2, e2, w2⟩ := fld_str fl h2
  obtain ⟨x3, e3, w3⟩ := fld_int fl h3
  obtain ⟨x4, e4, w4⟩ := fld_int fl h4
  obtain ⟨x5, e5, w5⟩ := fld_int fl h5
  obtain ⟨x6, e6, w6⟩ := fld_str fl h6
  obtain rfl : x1 = t := type_eq fl rfl hm (List.mem_cons_of_mem _ List.mem_cons_self) rfl w1
  refine ⟨_, by
    simp only [sectionOf, integratorSec, e0, e1, e2, e3, e4, e5, e6, Tr.ret_bind, reduceIte, String.reduceEq,
      if_neg ht]
    rfl, rfl, ?_⟩
  simp only [integratorRow, integratorFields, List.forall_mem_cons, w0, w1, w2, w3, w4, w5, w6]
  simp [Call.args, List.lookup, fStr, fInt]

/-- **C52 (grids).** The media fields of a grid must be of the right kind and have no effect. -/
theorem grid_call (v : Js) (hm : Meets fl gridRow v) (hu : ∀ f ∈ unusedGrid, (valOf fl f v).isSome = true) :
    ∃ c, sectionOf fl "mesh" v = ⟨[c], .ok ()⟩ ∧ Says fl gridRow v c := by
  have hf := hm.1
  simp only [gridRow, List.forall_mem_cons] at hf
  simp only [unusedGrid, List.forall_mem_cons] at hu
  obtain ⟨h0, h1, h2, h3, h4, -⟩ := hf
  obtain ⟨u0, u1, u2, -⟩ := hu
  obtain ⟨x0, e0, w0⟩ := fld_str fl h0
  obtain ⟨x1, e1, w1⟩ := fld_str fl h1
  obtain ⟨x2, e2, w2⟩ := fld_str fl h2
  obtain ⟨x3, e3, w3⟩ := fld_str fl h3
  obtain ⟨x4, e4, w4⟩ := fld_int2 fl h4
  obtain ⟨y0, f0, -⟩ := fld_flag fl u0
  obtain ⟨y1, f1, -⟩ := fld_str fl u1
  obtain ⟨y2, f2, -⟩ := fld_str fl u2
  obtain rfl : x1 = "grid" := type_eq fl rfl hm (List.mem_cons_of_mem _ List.mem_cons_self) rfl w1
  refine ⟨_, by
    simp only [sectionOf, meshSec, meshOf, e0, e1, e2, e3, e4, f0, f1, f2, Tr.ret_bind, reduceIte,
      String.reduceEq]
    rfl, rfl, ?_⟩
  simp only [gridRow, List.forall_mem_cons, w0, w1, w2, w3, w4]
  simp [Call.args, MeshP.args, List.lookup, fStr]

/-- **C52 (boxes).** The "interp" field of a box must be a number and has no effect. -/
theorem box_call (v : Js) (hm : Meets fl (boxRow fl) v) (hu : ∀ f ∈ unusedBox fl, (valOf fl f v).isSome = true) :
    ∃ c, sectionOf fl "mesh" v = ⟨[c], .ok ()⟩ ∧ Says fl (boxRow fl) v c := by
  have hf := hm.1
  simp only [boxRow, meshFields, List.cons_append, List.nil_append, List.forall_mem_cons] at hf
  simp only [unusedBox, List.forall_mem_cons] at hu
  obtain ⟨h0, h1, h2, h3, h4, h5, h6, -⟩ := hf
  obtain ⟨x0, e0, w0⟩ := fld_str fl h0
  obtain ⟨x1, e1, w1⟩ := fld_str fl h1
  obtain ⟨x2, e2, w2⟩ := fld_flag fl h2
  obtain ⟨x3, e3, w3⟩ := fld_str fl h3
  obtain ⟨x4, e4, w4⟩ := fld_str fl h4
  obtain ⟨x5, e5, w5⟩ := fld_vec fl h5
  obtain ⟨x6, e6, w6⟩ := fld_vec fl h6
  obtain ⟨y0, f0, -⟩ := fld_num fl hu.1
  obtain rfl : x1 = "sdf_box" := type_eq fl rfl hm (List.mem_cons_of_mem _ List.mem_cons_self) rfl w1
  refine ⟨_, by
    simp only [sectionOf, meshSec, meshOf, splat, e0, e1, e2, e3, e4, e5, e6, f0, Tr.ret_bind, reduceIte,
      String.reduceEq]
    rfl, rfl, ?_⟩
  simp only [boxRow, meshFields, List.cons_append, List.nil_append, List.forall_mem_cons, w0, w1, w2, w3, w4,
    w5, w6]
  simp [Call.args, MeshP.args, BoundaryP.args, List.lookup, fStr, fVec, fFlag]

/-- Non-vacuity: a camera with some of its fields. -/
example (fl : Rat → F) : ∃ c, sectionOf fl "camera" (.obj [("fov", .int 45), ("name", .str "cam"),
      ("lookat", .arr [.int 0, .int 0, .real (1 / 2), .int 1, .int 2, .int 3, .int 0, .int 1, .int 0])])
    = ⟨[c], .ok ()⟩ ∧ c.args.lookup "fov" = some (.f (fl 45)) ∧
      c.args.lookup "target" = some (.v ⟨fl 1, fl 2, fl 3⟩) ∧ c.args.lookup "width" = some (.i 512) := by
  obtain ⟨c, h1, h2, h3⟩ := section_call fl ((rows fl)[6]'(by simp [rows])) (List.getElem_mem _) (.obj [("fov", .int 45),
    ("name", .str "cam"),
    ("lookat", .arr [.int 0, .int 0, .real (1 / 2), .int 1, .int 2, .int 3, .int 0, .int 1, .int 0])])
    ⟨by simp [rows, valOf, fStr, fNum, fInt, decode, number, List.lookup],
     by simp [rows, valOf, fStr, fNum, fInt, decode, List.lookup],
     by
      intro k hk ms hms
      cases hms
      simp only [rows, List.getElem_cons_succ, List.getElem_cons_zero, List.mem_cons, List.not_mem_nil,
        or_false] at hk
      rcases hk with rfl | rfl | rfl <;> rfl⟩
  refine ⟨c, h1, ?_, ?_, ?_⟩
  · have := h3 (fNum fl "fov" 30 "fov") (by simp [rows])
    simpa [valOf, fNum, List.lookup, decode, number] using this
  · have := h3 ⟨"lookat", .vec 3, .v ⟨fl 0, fl 0, fl 0⟩, "target"⟩ (by simp [rows])
    simpa [valOf, List.lookup, decode, number] using this
  · have := h3 (fInt "width" 512 "width") (by simp [rows])
    simpa [valOf, fInt, List.lookup, decode, number] using this

/-! ### Textures -/

/-- **C52 (textures, partial).** A texture section means what it says if it has either both of the fields
"proxy" and "scale" or neither. -/
theorem texture_call_partial (ms : List (String × Js)) (hm : Meets fl (textureRow fl) (.obj ms))
    (hp : (ms.lookup "proxy").isSome = (ms.lookup "scale").isSome) :
    ∃ c, sectionOf fl "texture" (.obj ms) = ⟨[c], .ok ()⟩ ∧ Says fl (textureRow fl) (.obj ms) c := by
  have hf := hm.1
  simp only [textureRow, List.forall_mem_cons] at hf
  obtain ⟨h0, h1, h2, h3, -⟩ := hf
  obtain ⟨x0, e0, w0⟩ := fld_str fl h0
  obtain ⟨x1, e1, w1⟩ := fld_str fl h1
  obtain ⟨x2, e2, w2⟩ := fld_str fl h2
  obtain ⟨x3, e3, w3⟩ := fld_vec fl h3
  obtain rfl : x1 = "image" := type_eq fl rfl hm (List.mem_cons_of_mem _ List.mem_cons_self) rfl w1
  have hsc : textureScale fl (.obj ms) = Tr.ret x3 := by
    rw [← e3]
    simp only [textureScale, fld, member, find_obj, Tr.ret_bind]
    cases h4 : ms.lookup "proxy" <;> cases h5 : ms.lookup "scale" <;> simp [h4, h5] at hp ⊢
    rfl
  refine ⟨_, by
    simp only [sectionOf, textureSec, e0, e1, e2, hsc, Tr.ret_bind, reduceIte, String.reduceEq]
    rfl, rfl, ?_⟩
  simp only [textureRow, List.forall_mem_cons, w0, w1, w2, w3]
  simp [Call.args, List.lookup, fStr, fVec]

/-- **C52 is false of the code for textures, first case**: a "scale" without the unrelated field "proxy" is
ignored. -/
theorem texture_scale_ignored (ms : List (String × Js)) (hp : ms.lookup "proxy" = none)
    (hm : Meets fl (textureRow fl) (.obj ms)) :
    ∃ c, sectionOf fl "texture" (.obj ms) = ⟨[c], .ok ()⟩ ∧
      c.args.lookup "scale" = some (.v ⟨fl 1, fl 1, fl 1⟩) := by
  have hf := hm.1
  simp only [textureRow, List.forall_mem_cons] at hf
  obtain ⟨h0, h1, h2, -, -⟩ := hf
  obtain ⟨x0, e0, w0⟩ := fld_str fl h0
  obtain ⟨x1, e1, w1⟩ := fld_str fl h1
  obtain ⟨x2, e2, w2⟩ := fld_str fl h2
  obtain rfl : x1 = "image" := type_eq fl rfl hm (List.mem_cons_of_mem _ List.mem_cons_self) rfl w1
  refine ⟨_, by
    simp only [sectionOf, textureSec, textureScale, find_obj, hp, e0, e1, e2, Tr.ret_bind, reduceIte,
      String.reduceEq]
    rfl, ?_⟩
  simp [Call.args, List.lookup, splat]

/-- **Second case**: with "proxy" but without "scale" the parser reads a member that is not there. -/
theorem texture_proxy_ub (ms : List (String × Js)) (hp : (ms.lookup "proxy").isSome = true)
    (hs : ms.lookup "scale" = none) (hm : Meets fl (textureRow fl) (.obj ms)) :
    sectionOf fl "texture" (.obj ms) = ⟨[], .error .ub⟩ := by
  have hf := hm.1
  simp only [textureRow, List.forall_mem_cons] at hf
  obtain ⟨h0, h1, h2, -, -⟩ := hf
  obtain ⟨x0, e0, w0⟩ := fld_str fl h0
  obtain ⟨x1, e1, w1⟩ := fld_str fl h1
  obtain ⟨x2, e2, w2⟩ := fld_str fl h2
  obtain rfl : x1 = "image" := type_eq fl rfl hm (List.mem_cons_of_mem _ List.mem_cons_self) rfl w1
  obtain ⟨j, hj⟩ := Option.isSome_iff_exists.1 hp
  simp only [sectionOf, textureSec, textureScale, member, find_obj, hj, hs, e0, e1, e2, Tr.ret_bind,
    Tr.stop_bind, reduceIte, String.reduceEq]
  rfl

/-- The table's row for textures, as C52 states it. -/
def TextureRowHolds (fl : Rat → F) : Prop :=
  ∀ v, Meets fl (textureRow fl) v → ∃ c, sectionOf fl "texture" v = ⟨[c], .ok ()⟩ ∧ Says fl (textureRow fl) v c

theorem texture_call_refuted (hfl : fl 1 ≠ fl 2) : ¬ TextureRowHolds fl := by
  intro h
  have hm : Meets fl (textureRow fl) (.obj [("scale", .arr [.int 2, .int 2, .int 2])]) :=
    ⟨by simp [textureRow, valOf, fStr, fVec, decode, number, List.lookup],
     by simp [textureRow, valOf, fStr, fVec, decode, List.lookup], by simp [textureRow]⟩
  obtain ⟨c, h1, h2⟩ := h _ hm
  obtain ⟨c', h3, h4⟩ := texture_scale_ignored fl _ (by simp [List.lookup]) hm
  rw [h1] at h3
  cases h3
  have := h2.2 (fVec fl "scale" 1 1 1 "scale") (by simp [textureRow])
  rw [show (fVec fl "scale" 1 1 1 "scale").param = "scale" from rfl, h4] at this
  simp [valOf, fVec, List.lookup, decode, number] at this
  exact hfl this

end Feign.Parser
