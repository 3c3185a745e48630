import Verif.Parser.Lemmas

/-!
# Scene files: one lemma per row of the format

`rows` describes each section; each lemma shows that the parser makes exactly the described call.
-/

set_option linter.unusedSectionVars false
set_option linter.unusedSimpArgs false
set_option linter.unusedVariables false

namespace Feign.Parser

variable {F : Type} (fl : Rat → F)

theorem row_scene (v : Js) (r : Row F) (hr : (rows fl)[0]? = some r) (hm : Meets fl r v) :
    ∃ c, sectionOf fl "scene" v = ⟨[c], .ok ()⟩ ∧ Says fl r v c := by
  simp only [rows, List.getElem?_cons_succ, List.getElem?_cons_zero, Option.some.injEq] at hr
  subst hr
  have hf := hm.1
  simp only [integratorFields, meshFields, List.cons_append, List.nil_append, List.forall_mem_cons] at hf
  obtain ⟨h0, h1, h2, h3, h4, h5, h6, h7, -⟩ := hf
  obtain ⟨x0, e0, w0⟩ := fld_str fl h0
  obtain ⟨x1, e1, w1⟩ := fld_str fl h1
  obtain ⟨x2, e2, w2⟩ := fld_str fl h2
  obtain ⟨x3, e3, w3⟩ := fld_str fl h3
  obtain ⟨x4, e4, w4⟩ := fld_str fl h4
  obtain ⟨x5, e5, w5⟩ := fld_str fl h5
  obtain ⟨x6, e6, w6⟩ := fld_str fl h6
  obtain ⟨x7, e7, w7⟩ := fld_flag fl h7
  refine ⟨_, by
    simp only [sectionOf, sceneSec, splat, e0, e1, e2, e3, e4, e5, e6, e7, Tr.ret_bind, reduceIte,
      String.reduceEq]
    rfl, rfl, ?_⟩
  simp only [integratorFields, meshFields, List.cons_append, List.nil_append, List.forall_mem_cons,
    w0, w1, w2, w3, w4, w5, w6, w7]
  simp [Call.args, MeshP.args, BoundaryP.args, BsdfP.args, ShaderP.args, EmitterP.args, List.lookup, fStr,
    fInt, fNum, fVec, fFlag]

theorem row_media (v : Js) (r : Row F) (hr : (rows fl)[1]? = some r) (hm : Meets fl r v) :
    ∃ c, sectionOf fl "media" v = ⟨[c], .ok ()⟩ ∧ Says fl r v c := by
  simp only [rows, List.getElem?_cons_succ, List.getElem?_cons_zero, Option.some.injEq] at hr
  subst hr
  have hf := hm.1
  simp only [integratorFields, meshFields, List.cons_append, List.nil_append, List.forall_mem_cons] at hf
  obtain ⟨h0, h1, h2, h3, h4, h5, -⟩ := hf
  obtain ⟨x0, e0, w0⟩ := fld_str fl h0
  obtain ⟨x1, e1, w1⟩ := fld_str fl h1
  obtain ⟨x2, e2, w2⟩ := fld_str fl h2
  obtain ⟨x3, e3, w3⟩ := fld_str fl h3
  obtain ⟨x4, e4, w4⟩ := fld_str fl h4
  obtain ⟨x5, e5, w5⟩ := fld_str fl h5
  refine ⟨_, by
    simp only [sectionOf, mediaSec, splat, e0, e1, e2, e3, e4, e5, Tr.ret_bind, reduceIte,
      String.reduceEq]
    rfl, rfl, ?_⟩
  simp only [integratorFields, meshFields, List.cons_append, List.nil_append, List.forall_mem_cons,
    w0, w1, w2, w3, w4, w5]
  simp [Call.args, MeshP.args, BoundaryP.args, BsdfP.args, ShaderP.args, EmitterP.args, List.lookup, fStr,
    fInt, fNum, fVec, fFlag]

theorem row_media_density_sphere (v : Js) (r : Row F) (hr : (rows fl)[2]? = some r) (hm : Meets fl r v) :
    ∃ c, sectionOf fl "media_density" v = ⟨[c], .ok ()⟩ ∧ Says fl r v c := by
  simp only [rows, List.getElem?_cons_succ, List.getElem?_cons_zero, Option.some.injEq] at hr
  subst hr
  have hf := hm.1
  simp only [integratorFields, meshFields, List.cons_append, List.nil_append, List.forall_mem_cons] at hf
  obtain ⟨h0, h1, h2, h3, -⟩ := hf
  obtain ⟨x0, e0, w0⟩ := fld_str fl h0
  obtain ⟨x1, e1, w1⟩ := fld_str fl h1
  obtain ⟨x2, e2, w2⟩ := fld_num fl h2
  obtain ⟨x3, e3, w3⟩ := fld_num fl h3
  obtain rfl : x1 = "sphere" := type_eq fl rfl hm (List.mem_cons_of_mem _ List.mem_cons_self) rfl w1
  refine ⟨_, by
    simp only [sectionOf, densitySec, splat, e0, e1, e2, e3, Tr.ret_bind, reduceIte,
      String.reduceEq]
    rfl, rfl, ?_⟩
  simp only [integratorFields, meshFields, List.cons_append, List.nil_append, List.forall_mem_cons,
    w0, w1, w2, w3]
  simp [Call.args, MeshP.args, BoundaryP.args, BsdfP.args, ShaderP.args, EmitterP.args, List.lookup, fStr,
    fInt, fNum, fVec, fFlag]

theorem row_accel_light_naive (v : Js) (r : Row F) (hr : (rows fl)[3]? = some r) (hm : Meets fl r v) :
    ∃ c, sectionOf fl "accel" v = ⟨[c], .ok ()⟩ ∧ Says fl r v c := by
  simp only [rows, List.getElem?_cons_succ, List.getElem?_cons_zero, Option.some.injEq] at hr
  subst hr
  have hf := hm.1
  simp only [integratorFields, meshFields, List.cons_append, List.nil_append, List.forall_mem_cons] at hf
  obtain ⟨h0, h1, -⟩ := hf
  obtain ⟨x0, e0, w0⟩ := fld_str fl h0
  obtain ⟨x1, e1, w1⟩ := fld_str fl h1
  obtain rfl : x1 = "light_naive" := type_eq fl rfl hm (List.mem_cons_of_mem _ List.mem_cons_self) rfl w1
  refine ⟨_, by
    simp only [sectionOf, accelSec, splat, e0, e1, Tr.ret_bind, reduceIte,
      String.reduceEq]
    rfl, rfl, ?_⟩
  simp only [integratorFields, meshFields, List.cons_append, List.nil_append, List.forall_mem_cons,
    w0, w1]
  simp [Call.args, MeshP.args, BoundaryP.args, BsdfP.args, ShaderP.args, EmitterP.args, List.lookup, fStr,
    fInt, fNum, fVec, fFlag]

theorem row_accel_light_spatial (v : Js) (r : Row F) (hr : (rows fl)[4]? = some r) (hm : Meets fl r v) :
    ∃ c, sectionOf fl "accel" v = ⟨[c], .ok ()⟩ ∧ Says fl r v c := by
  simp only [rows, List.getElem?_cons_succ, List.getElem?_cons_zero, Option.some.injEq] at hr
  subst hr
  have hf := hm.1
  simp only [integratorFields, meshFields, List.cons_append, List.nil_append, List.forall_mem_cons] at hf
  obtain ⟨h0, h1, h2, h3, h4, -⟩ := hf
  obtain ⟨x0, e0, w0⟩ := fld_str fl h0
  obtain ⟨x1, e1, w1⟩ := fld_str fl h1
  obtain ⟨x2, e2, w2⟩ := fld_int fl h2
  obtain ⟨x3, e3, w3⟩ := fld_int fl h3
  obtain ⟨x4, e4, w4⟩ := fld_int fl h4
  obtain rfl : x1 = "light_spatial" := type_eq fl rfl hm (List.mem_cons_of_mem _ List.mem_cons_self) rfl w1
  refine ⟨_, by
    simp only [sectionOf, accelSec, splat, e0, e1, e2, e3, e4, Tr.ret_bind, reduceIte,
      String.reduceEq]
    rfl, rfl, ?_⟩
  simp only [integratorFields, meshFields, List.cons_append, List.nil_append, List.forall_mem_cons,
    w0, w1, w2, w3, w4]
  simp [Call.args, MeshP.args, BoundaryP.args, BsdfP.args, ShaderP.args, EmitterP.args, List.lookup, fStr,
    fInt, fNum, fVec, fFlag]

theorem row_integrator_photon (v : Js) (r : Row F) (hr : (rows fl)[5]? = some r) (hm : Meets fl r v) :
    ∃ c, sectionOf fl "integrator" v = ⟨[c], .ok ()⟩ ∧ Says fl r v c := by
  simp only [rows, List.getElem?_cons_succ, List.getElem?_cons_zero, Option.some.injEq] at hr
  subst hr
  have hf := hm.1
  simp only [integratorFields, meshFields, List.cons_append, List.nil_append, List.forall_mem_cons] at hf
  obtain ⟨h0, h1, h2, h3, h4, h5, h6, h7, -⟩ := hf
  obtain ⟨x0, e0, w0⟩ := fld_str fl h0
  obtain ⟨x1, e1, w1⟩ := fld_str fl h1
  obtain ⟨x2, e2, w2⟩ := fld_str fl h2
  obtain ⟨x3, e3, w3⟩ := fld_int fl h3
  obtain ⟨x4, e4, w4⟩ := fld_int fl h4
  obtain ⟨x5, e5, w5⟩ := fld_int fl h5
  obtain ⟨x6, e6, w6⟩ := fld_str fl h6
  obtain ⟨x7, e7, w7⟩ := fld_int fl h7
  obtain rfl : x1 = "photon" := type_eq fl rfl hm (List.mem_cons_of_mem _ List.mem_cons_self) rfl w1
  refine ⟨_, by
    simp only [sectionOf, integratorSec, splat, e0, e1, e2, e3, e4, e5, e6, e7, Tr.ret_bind, reduceIte,
      String.reduceEq]
    rfl, rfl, ?_⟩
  simp only [integratorFields, meshFields, List.cons_append, List.nil_append, List.forall_mem_cons,
    w0, w1, w2, w3, w4, w5, w6, w7]
  simp [Call.args, MeshP.args, BoundaryP.args, BsdfP.args, ShaderP.args, EmitterP.args, List.lookup, fStr,
    fInt, fNum, fVec, fFlag]

theorem row_camera_perspective (v : Js) (r : Row F) (hr : (rows fl)[6]? = some r) (hm : Meets fl r v) :
    ∃ c, sectionOf fl "camera" v = ⟨[c], .ok ()⟩ ∧ Says fl r v c := by
  simp only [rows, List.getElem?_cons_succ, List.getElem?_cons_zero, Option.some.injEq] at hr
  subst hr
  have hf := hm.1
  simp only [integratorFields, meshFields, List.cons_append, List.nil_append, List.forall_mem_cons] at hf
  obtain ⟨h0, h1, h2, h3, h4, h5, h6, h7, h8, hl0, hl1, hl2, -⟩ := hf
  obtain ⟨x0, e0, w0⟩ := fld_str fl h0
  obtain ⟨x1, e1, w1⟩ := fld_str fl h1
  obtain ⟨x2, e2, w2⟩ := fld_num fl h2
  obtain ⟨x3, e3, w3⟩ := fld_num fl h3
  obtain ⟨x4, e4, w4⟩ := fld_num fl h4
  obtain ⟨x5, e5, w5⟩ := fld_num fl h5
  obtain ⟨x6, e6, w6⟩ := fld_num fl h6
  obtain ⟨x7, e7, w7⟩ := fld_int fl h7
  obtain ⟨x8, e8, w8⟩ := fld_int fl h8
  obtain ⟨y0, y1, y2, el, wl0, wl1, wl2⟩ := fld_lookat fl hl0 hl1 hl2
  obtain ⟨ms, rfl⟩ : ∃ ms, v = .obj ms := by
    cases v <;> first | exact ⟨_, rfl⟩ | simp [valOf] at h0
  have r0 : reject (.obj ms) "origin" = Tr.ret (F := F) () := reject_none rfl (hm.2.2 _ (by simp) ms rfl)
  have r1 : reject (.obj ms) "target" = Tr.ret (F := F) () := reject_none rfl (hm.2.2 _ (by simp) ms rfl)
  have r2 : reject (.obj ms) "up" = Tr.ret (F := F) () := reject_none rfl (hm.2.2 _ (by simp) ms rfl)
  obtain rfl : x1 = "perspective" := type_eq fl rfl hm (List.mem_cons_of_mem _ List.mem_cons_self) rfl w1
  refine ⟨_, by
    simp only [sectionOf, cameraSec, splat, e0, e1, e2, e3, e4, e5, e6, e7, e8, el, r0, r1, r2, Tr.ret_bind, reduceIte,
      String.reduceEq]
    rfl, rfl, ?_⟩
  simp only [integratorFields, meshFields, List.cons_append, List.nil_append, List.forall_mem_cons,
    w0, w1, w2, w3, w4, w5, w6, w7, w8, wl0, wl1, wl2]
  simp [Call.args, MeshP.args, BoundaryP.args, BsdfP.args, ShaderP.args, EmitterP.args, List.lookup, fStr,
    fInt, fNum, fVec, fFlag]

theorem row_mesh_triangle_mesh (v : Js) (r : Row F) (hr : (rows fl)[7]? = some r) (hm : Meets fl r v) :
    ∃ c, sectionOf fl "mesh" v = ⟨[c], .ok ()⟩ ∧ Says fl r v c := by
  simp only [rows, List.getElem?_cons_succ, List.getElem?_cons_zero, Option.some.injEq] at hr
  subst hr
  have hf := hm.1
  simp only [integratorFields, meshFields, List.cons_append, List.nil_append, List.forall_mem_cons] at hf
  obtain ⟨h0, h1, h2, h3, h4, h5, h6, h7, -⟩ := hf
  obtain ⟨x0, e0, w0⟩ := fld_str fl h0
  obtain ⟨x1, e1, w1⟩ := fld_str fl h1
  obtain ⟨x2, e2, w2⟩ := fld_flag fl h2
  obtain ⟨x3, e3, w3⟩ := fld_str fl h3
  obtain ⟨x4, e4, w4⟩ := fld_str fl h4
  obtain ⟨x5, e5, w5⟩ := fld_str fl h5
  obtain ⟨x6, e6, w6⟩ := fld_str fl h6
  obtain ⟨x7, e7, w7⟩ := fld_flag fl h7
  obtain rfl : x1 = "triangle_mesh" := type_eq fl rfl hm (List.mem_cons_of_mem _ List.mem_cons_self) rfl w1
  refine ⟨_, by
    simp only [sectionOf, meshSec, meshOf, splat, e0, e1, e2, e3, e4, e5, e6, e7, Tr.ret_bind, reduceIte,
      String.reduceEq]
    rfl, rfl, ?_⟩
  simp only [integratorFields, meshFields, List.cons_append, List.nil_append, List.forall_mem_cons,
    w0, w1, w2, w3, w4, w5, w6, w7]
  simp [Call.args, MeshP.args, BoundaryP.args, BsdfP.args, ShaderP.args, EmitterP.args, List.lookup, fStr,
    fInt, fNum, fVec, fFlag]

theorem row_mesh_sdf_sphere (v : Js) (r : Row F) (hr : (rows fl)[8]? = some r) (hm : Meets fl r v) :
    ∃ c, sectionOf fl "mesh" v = ⟨[c], .ok ()⟩ ∧ Says fl r v c := by
  simp only [rows, List.getElem?_cons_succ, List.getElem?_cons_zero, Option.some.injEq] at hr
  subst hr
  have hf := hm.1
  simp only [integratorFields, meshFields, List.cons_append, List.nil_append, List.forall_mem_cons] at hf
  obtain ⟨h0, h1, h2, h3, h4, h5, h6, h7, -⟩ := hf
  obtain ⟨x0, e0, w0⟩ := fld_str fl h0
  obtain ⟨x1, e1, w1⟩ := fld_str fl h1
  obtain ⟨x2, e2, w2⟩ := fld_flag fl h2
  obtain ⟨x3, e3, w3⟩ := fld_str fl h3
  obtain ⟨x4, e4, w4⟩ := fld_str fl h4
  obtain ⟨x5, e5, w5⟩ := fld_vec fl h5
  obtain ⟨x6, e6, w6⟩ := fld_num fl h6
  obtain ⟨x7, e7, w7⟩ := fld_num fl h7
  obtain rfl : x1 = "sdf_sphere" := type_eq fl rfl hm (List.mem_cons_of_mem _ List.mem_cons_self) rfl w1
  refine ⟨_, by
    simp only [sectionOf, meshSec, meshOf, splat, e0, e1, e2, e3, e4, e5, e6, e7, Tr.ret_bind, reduceIte,
      String.reduceEq]
    rfl, rfl, ?_⟩
  simp only [integratorFields, meshFields, List.cons_append, List.nil_append, List.forall_mem_cons,
    w0, w1, w2, w3, w4, w5, w6, w7]
  simp [Call.args, MeshP.args, BoundaryP.args, BsdfP.args, ShaderP.args, EmitterP.args, List.lookup, fStr,
    fInt, fNum, fVec, fFlag]

theorem row_mesh_sdf_plane (v : Js) (r : Row F) (hr : (rows fl)[9]? = some r) (hm : Meets fl r v) :
    ∃ c, sectionOf fl "mesh" v = ⟨[c], .ok ()⟩ ∧ Says fl r v c := by
  simp only [rows, List.getElem?_cons_succ, List.getElem?_cons_zero, Option.some.injEq] at hr
  subst hr
  have hf := hm.1
  simp only [integratorFields, meshFields, List.cons_append, List.nil_append, List.forall_mem_cons] at hf
  obtain ⟨h0, h1, h2, h3, h4, h5, h6, h7, -⟩ := hf
  obtain ⟨x0, e0, w0⟩ := fld_str fl h0
  obtain ⟨x1, e1, w1⟩ := fld_str fl h1
  obtain ⟨x2, e2, w2⟩ := fld_flag fl h2
  obtain ⟨x3, e3, w3⟩ := fld_str fl h3
  obtain ⟨x4, e4, w4⟩ := fld_str fl h4
  obtain ⟨x5, e5, w5⟩ := fld_vec fl h5
  obtain ⟨x6, e6, w6⟩ := fld_vec fl h6
  obtain ⟨x7, e7, w7⟩ := fld_num fl h7
  obtain rfl : x1 = "sdf_plane" := type_eq fl rfl hm (List.mem_cons_of_mem _ List.mem_cons_self) rfl w1
  refine ⟨_, by
    simp only [sectionOf, meshSec, meshOf, splat, e0, e1, e2, e3, e4, e5, e6, e7, Tr.ret_bind, reduceIte,
      String.reduceEq]
    rfl, rfl, ?_⟩
  simp only [integratorFields, meshFields, List.cons_append, List.nil_append, List.forall_mem_cons,
    w0, w1, w2, w3, w4, w5, w6, w7]
  simp [Call.args, MeshP.args, BoundaryP.args, BsdfP.args, ShaderP.args, EmitterP.args, List.lookup, fStr,
    fInt, fNum, fVec, fFlag]

theorem row_mesh_sdf_cylinder (v : Js) (r : Row F) (hr : (rows fl)[10]? = some r) (hm : Meets fl r v) :
    ∃ c, sectionOf fl "mesh" v = ⟨[c], .ok ()⟩ ∧ Says fl r v c := by
  simp only [rows, List.getElem?_cons_succ, List.getElem?_cons_zero, Option.some.injEq] at hr
  subst hr
  have hf := hm.1
  simp only [integratorFields, meshFields, List.cons_append, List.nil_append, List.forall_mem_cons] at hf
  obtain ⟨h0, h1, h2, h3, h4, h5, h6, h7, -⟩ := hf
  obtain ⟨x0, e0, w0⟩ := fld_str fl h0
  obtain ⟨x1, e1, w1⟩ := fld_str fl h1
  obtain ⟨x2, e2, w2⟩ := fld_flag fl h2
  obtain ⟨x3, e3, w3⟩ := fld_str fl h3
  obtain ⟨x4, e4, w4⟩ := fld_str fl h4
  obtain ⟨x5, e5, w5⟩ := fld_vec fl h5
  obtain ⟨x6, e6, w6⟩ := fld_vec fl h6
  obtain ⟨x7, e7, w7⟩ := fld_num fl h7
  obtain rfl : x1 = "sdf_cylinder" := type_eq fl rfl hm (List.mem_cons_of_mem _ List.mem_cons_self) rfl w1
  refine ⟨_, by
    simp only [sectionOf, meshSec, meshOf, splat, e0, e1, e2, e3, e4, e5, e6, e7, Tr.ret_bind, reduceIte,
      String.reduceEq]
    rfl, rfl, ?_⟩
  simp only [integratorFields, meshFields, List.cons_append, List.nil_append, List.forall_mem_cons,
    w0, w1, w2, w3, w4, w5, w6, w7]
  simp [Call.args, MeshP.args, BoundaryP.args, BsdfP.args, ShaderP.args, EmitterP.args, List.lookup, fStr,
    fInt, fNum, fVec, fFlag]

theorem row_mesh_sdf_cone (v : Js) (r : Row F) (hr : (rows fl)[11]? = some r) (hm : Meets fl r v) :
    ∃ c, sectionOf fl "mesh" v = ⟨[c], .ok ()⟩ ∧ Says fl r v c := by
  simp only [rows, List.getElem?_cons_succ, List.getElem?_cons_zero, Option.some.injEq] at hr
  subst hr
  have hf := hm.1
  simp only [integratorFields, meshFields, List.cons_append, List.nil_append, List.forall_mem_cons] at hf
  obtain ⟨h0, h1, h2, h3, h4, h5, h6, h7, h8, -⟩ := hf
  obtain ⟨x0, e0, w0⟩ := fld_str fl h0
  obtain ⟨x1, e1, w1⟩ := fld_str fl h1
  obtain ⟨x2, e2, w2⟩ := fld_flag fl h2
  obtain ⟨x3, e3, w3⟩ := fld_str fl h3
  obtain ⟨x4, e4, w4⟩ := fld_str fl h4
  obtain ⟨x5, e5, w5⟩ := fld_vec fl h5
  obtain ⟨x6, e6, w6⟩ := fld_vec fl h6
  obtain ⟨x7, e7, w7⟩ := fld_num fl h7
  obtain ⟨x8, e8, w8⟩ := fld_num fl h8
  obtain rfl : x1 = "sdf_cone" := type_eq fl rfl hm (List.mem_cons_of_mem _ List.mem_cons_self) rfl w1
  refine ⟨_, by
    simp only [sectionOf, meshSec, meshOf, splat, e0, e1, e2, e3, e4, e5, e6, e7, e8, Tr.ret_bind, reduceIte,
      String.reduceEq]
    rfl, rfl, ?_⟩
  simp only [integratorFields, meshFields, List.cons_append, List.nil_append, List.forall_mem_cons,
    w0, w1, w2, w3, w4, w5, w6, w7, w8]
  simp [Call.args, MeshP.args, BoundaryP.args, BsdfP.args, ShaderP.args, EmitterP.args, List.lookup, fStr,
    fInt, fNum, fVec, fFlag]

theorem row_bsdf_diffuse (v : Js) (r : Row F) (hr : (rows fl)[12]? = some r) (hm : Meets fl r v) :
    ∃ c, sectionOf fl "bsdf" v = ⟨[c], .ok ()⟩ ∧ Says fl r v c := by
  simp only [rows, List.getElem?_cons_succ, List.getElem?_cons_zero, Option.some.injEq] at hr
  subst hr
  have hf := hm.1
  simp only [integratorFields, meshFields, List.cons_append, List.nil_append, List.forall_mem_cons] at hf
  obtain ⟨h0, h1, h2, -⟩ := hf
  obtain ⟨x0, e0, w0⟩ := fld_str fl h0
  obtain ⟨x1, e1, w1⟩ := fld_str fl h1
  obtain ⟨x2, e2, w2⟩ := fld_vec fl h2
  obtain rfl : x1 = "diffuse" := type_eq fl rfl hm (List.mem_cons_of_mem _ List.mem_cons_self) rfl w1
  refine ⟨_, by
    simp only [sectionOf, bsdfSec, bsdfOf, splat, e0, e1, e2, Tr.ret_bind, reduceIte,
      String.reduceEq]
    rfl, rfl, ?_⟩
  simp only [integratorFields, meshFields, List.cons_append, List.nil_append, List.forall_mem_cons,
    w0, w1, w2]
  simp [Call.args, MeshP.args, BoundaryP.args, BsdfP.args, ShaderP.args, EmitterP.args, List.lookup, fStr,
    fInt, fNum, fVec, fFlag]

theorem row_bsdf_mirror (v : Js) (r : Row F) (hr : (rows fl)[13]? = some r) (hm : Meets fl r v) :
    ∃ c, sectionOf fl "bsdf" v = ⟨[c], .ok ()⟩ ∧ Says fl r v c := by
  simp only [rows, List.getElem?_cons_succ, List.getElem?_cons_zero, Option.some.injEq] at hr
  subst hr
  have hf := hm.1
  simp only [integratorFields, meshFields, List.cons_append, List.nil_append, List.forall_mem_cons] at hf
  obtain ⟨h0, h1, h2, -⟩ := hf
  obtain ⟨x0, e0, w0⟩ := fld_str fl h0
  obtain ⟨x1, e1, w1⟩ := fld_str fl h1
  obtain ⟨x2, e2, w2⟩ := fld_vec fl h2
  obtain rfl : x1 = "mirror" := type_eq fl rfl hm (List.mem_cons_of_mem _ List.mem_cons_self) rfl w1
  refine ⟨_, by
    simp only [sectionOf, bsdfSec, bsdfOf, splat, e0, e1, e2, Tr.ret_bind, reduceIte,
      String.reduceEq]
    rfl, rfl, ?_⟩
  simp only [integratorFields, meshFields, List.cons_append, List.nil_append, List.forall_mem_cons,
    w0, w1, w2]
  simp [Call.args, MeshP.args, BoundaryP.args, BsdfP.args, ShaderP.args, EmitterP.args, List.lookup, fStr,
    fInt, fNum, fVec, fFlag]

theorem row_bsdf_dielectric (v : Js) (r : Row F) (hr : (rows fl)[14]? = some r) (hm : Meets fl r v) :
    ∃ c, sectionOf fl "bsdf" v = ⟨[c], .ok ()⟩ ∧ Says fl r v c := by
  simp only [rows, List.getElem?_cons_succ, List.getElem?_cons_zero, Option.some.injEq] at hr
  subst hr
  have hf := hm.1
  simp only [integratorFields, meshFields, List.cons_append, List.nil_append, List.forall_mem_cons] at hf
  obtain ⟨h0, h1, h2, h3, -⟩ := hf
  obtain ⟨x0, e0, w0⟩ := fld_str fl h0
  obtain ⟨x1, e1, w1⟩ := fld_str fl h1
  obtain ⟨x2, e2, w2⟩ := fld_num fl h2
  obtain ⟨x3, e3, w3⟩ := fld_num fl h3
  obtain rfl : x1 = "dielectric" := type_eq fl rfl hm (List.mem_cons_of_mem _ List.mem_cons_self) rfl w1
  refine ⟨_, by
    simp only [sectionOf, bsdfSec, bsdfOf, splat, e0, e1, e2, e3, Tr.ret_bind, reduceIte,
      String.reduceEq]
    rfl, rfl, ?_⟩
  simp only [integratorFields, meshFields, List.cons_append, List.nil_append, List.forall_mem_cons,
    w0, w1, w2, w3]
  simp [Call.args, MeshP.args, BoundaryP.args, BsdfP.args, ShaderP.args, EmitterP.args, List.lookup, fStr,
    fInt, fNum, fVec, fFlag]

theorem row_bsdf_phong (v : Js) (r : Row F) (hr : (rows fl)[15]? = some r) (hm : Meets fl r v) :
    ∃ c, sectionOf fl "bsdf" v = ⟨[c], .ok ()⟩ ∧ Says fl r v c := by
  simp only [rows, List.getElem?_cons_succ, List.getElem?_cons_zero, Option.some.injEq] at hr
  subst hr
  have hf := hm.1
  simp only [integratorFields, meshFields, List.cons_append, List.nil_append, List.forall_mem_cons] at hf
  obtain ⟨h0, h1, h2, h3, h4, -⟩ := hf
  obtain ⟨x0, e0, w0⟩ := fld_str fl h0
  obtain ⟨x1, e1, w1⟩ := fld_str fl h1
  obtain ⟨x2, e2, w2⟩ := fld_vec fl h2
  obtain ⟨x3, e3, w3⟩ := fld_num fl h3
  obtain ⟨x4, e4, w4⟩ := fld_num fl h4
  obtain rfl : x1 = "phong" := type_eq fl rfl hm (List.mem_cons_of_mem _ List.mem_cons_self) rfl w1
  refine ⟨_, by
    simp only [sectionOf, bsdfSec, bsdfOf, splat, e0, e1, e2, e3, e4, Tr.ret_bind, reduceIte,
      String.reduceEq]
    rfl, rfl, ?_⟩
  simp only [integratorFields, meshFields, List.cons_append, List.nil_append, List.forall_mem_cons,
    w0, w1, w2, w3, w4]
  simp [Call.args, MeshP.args, BoundaryP.args, BsdfP.args, ShaderP.args, EmitterP.args, List.lookup, fStr,
    fInt, fNum, fVec, fFlag]

theorem row_bsdf_blinn (v : Js) (r : Row F) (hr : (rows fl)[16]? = some r) (hm : Meets fl r v) :
    ∃ c, sectionOf fl "bsdf" v = ⟨[c], .ok ()⟩ ∧ Says fl r v c := by
  simp only [rows, List.getElem?_cons_succ, List.getElem?_cons_zero, Option.some.injEq] at hr
  subst hr
  have hf := hm.1
  simp only [integratorFields, meshFields, List.cons_append, List.nil_append, List.forall_mem_cons] at hf
  obtain ⟨h0, h1, h2, h3, h4, -⟩ := hf
  obtain ⟨x0, e0, w0⟩ := fld_str fl h0
  obtain ⟨x1, e1, w1⟩ := fld_str fl h1
  obtain ⟨x2, e2, w2⟩ := fld_vec fl h2
  obtain ⟨x3, e3, w3⟩ := fld_vec fl h3
  obtain ⟨x4, e4, w4⟩ := fld_num fl h4
  obtain rfl : x1 = "blinn" := type_eq fl rfl hm (List.mem_cons_of_mem _ List.mem_cons_self) rfl w1
  refine ⟨_, by
    simp only [sectionOf, bsdfSec, bsdfOf, splat, e0, e1, e2, e3, e4, Tr.ret_bind, reduceIte,
      String.reduceEq]
    rfl, rfl, ?_⟩
  simp only [integratorFields, meshFields, List.cons_append, List.nil_append, List.forall_mem_cons,
    w0, w1, w2, w3, w4]
  simp [Call.args, MeshP.args, BoundaryP.args, BsdfP.args, ShaderP.args, EmitterP.args, List.lookup, fStr,
    fInt, fNum, fVec, fFlag]

theorem row_shader_interp_verts_to_sphere (v : Js) (r : Row F) (hr : (rows fl)[17]? = some r) (hm : Meets fl r v) :
    ∃ c, sectionOf fl "shader" v = ⟨[c], .ok ()⟩ ∧ Says fl r v c := by
  simp only [rows, List.getElem?_cons_succ, List.getElem?_cons_zero, Option.some.injEq] at hr
  subst hr
  have hf := hm.1
  simp only [integratorFields, meshFields, List.cons_append, List.nil_append, List.forall_mem_cons] at hf
  obtain ⟨h0, h1, h2, h3, -⟩ := hf
  obtain ⟨x0, e0, w0⟩ := fld_str fl h0
  obtain ⟨x1, e1, w1⟩ := fld_str fl h1
  obtain ⟨x2, e2, w2⟩ := fld_num fl h2
  obtain ⟨x3, e3, w3⟩ := fld_num fl h3
  obtain rfl : x1 = "interp_verts_to_sphere" := type_eq fl rfl hm (List.mem_cons_of_mem _ List.mem_cons_self) rfl w1
  refine ⟨_, by
    simp only [sectionOf, shaderSec, shaderOf, splat, e0, e1, e2, e3, Tr.ret_bind, reduceIte,
      String.reduceEq]
    rfl, rfl, ?_⟩
  simp only [integratorFields, meshFields, List.cons_append, List.nil_append, List.forall_mem_cons,
    w0, w1, w2, w3]
  simp [Call.args, MeshP.args, BoundaryP.args, BsdfP.args, ShaderP.args, EmitterP.args, List.lookup, fStr,
    fInt, fNum, fVec, fFlag]

theorem row_shader_simple_material (v : Js) (r : Row F) (hr : (rows fl)[18]? = some r) (hm : Meets fl r v) :
    ∃ c, sectionOf fl "shader" v = ⟨[c], .ok ()⟩ ∧ Says fl r v c := by
  simp only [rows, List.getElem?_cons_succ, List.getElem?_cons_zero, Option.some.injEq] at hr
  subst hr
  have hf := hm.1
  simp only [integratorFields, meshFields, List.cons_append, List.nil_append, List.forall_mem_cons] at hf
  obtain ⟨h0, h1, h2, -⟩ := hf
  obtain ⟨x0, e0, w0⟩ := fld_str fl h0
  obtain ⟨x1, e1, w1⟩ := fld_str fl h1
  obtain ⟨x2, e2, w2⟩ := fld_str fl h2
  obtain rfl : x1 = "simple_material" := type_eq fl rfl hm (List.mem_cons_of_mem _ List.mem_cons_self) rfl w1
  refine ⟨_, by
    simp only [sectionOf, shaderSec, shaderOf, splat, e0, e1, e2, Tr.ret_bind, reduceIte,
      String.reduceEq]
    rfl, rfl, ?_⟩
  simp only [integratorFields, meshFields, List.cons_append, List.nil_append, List.forall_mem_cons,
    w0, w1, w2]
  simp [Call.args, MeshP.args, BoundaryP.args, BsdfP.args, ShaderP.args, EmitterP.args, List.lookup, fStr,
    fInt, fNum, fVec, fFlag]

theorem row_emitter_point (ms : List (String × Js)) (tr : List (Call F)) (he : emitterMembers fl ms = ⟨tr, .ok ()⟩)
    (r : Row F) (hr : (emitterRows fl)[0]? = some r) (hm : Meets fl r (.obj ms)) :
    ∃ c, sectionOf fl "emitter" (.obj ms) = ⟨[.clearTransform] ++ tr ++ [c, .clearTransform], .ok ()⟩ ∧
      Says fl r (.obj ms) c := by
  simp only [emitterRows, List.getElem?_cons_succ, List.getElem?_cons_zero, Option.some.injEq] at hr
  subst hr
  have hf := hm.1
  simp only [integratorFields, meshFields, List.cons_append, List.nil_append, List.forall_mem_cons] at hf
  obtain ⟨h0, h1, h2, h3, -⟩ := hf
  obtain ⟨x0, e0, w0⟩ := fld_str fl h0
  obtain ⟨x1, e1, w1⟩ := fld_str fl h1
  obtain ⟨x2, e2, w2⟩ := fld_vec fl h2
  obtain ⟨x3, e3, w3⟩ := fld_vec fl h3
  obtain rfl : x1 = "point" := type_eq fl rfl hm (List.mem_cons_of_mem _ List.mem_cons_self) rfl w1
  refine ⟨_, by
    simp only [sectionOf, emitterSec, emitterOf, splat, e0, e1, e2, e3, members, he, Tr.bind_mk_ok, Tr.emit_bind, Tr.ret_bind, reduceIte,
      String.reduceEq]
    rfl, rfl, ?_⟩
  simp only [integratorFields, meshFields, List.cons_append, List.nil_append, List.forall_mem_cons,
    w0, w1, w2, w3]
  simp [Call.args, MeshP.args, BoundaryP.args, BsdfP.args, ShaderP.args, EmitterP.args, List.lookup, fStr,
    fInt, fNum, fVec, fFlag]

theorem row_emitter_mesh (ms : List (String × Js)) (tr : List (Call F)) (he : emitterMembers fl ms = ⟨tr, .ok ()⟩)
    (r : Row F) (hr : (emitterRows fl)[1]? = some r) (hm : Meets fl r (.obj ms)) :
    ∃ c, sectionOf fl "emitter" (.obj ms) = ⟨[.clearTransform] ++ tr ++ [c, .clearTransform], .ok ()⟩ ∧
      Says fl r (.obj ms) c := by
  simp only [emitterRows, List.getElem?_cons_succ, List.getElem?_cons_zero, Option.some.injEq] at hr
  subst hr
  have hf := hm.1
  simp only [integratorFields, meshFields, List.cons_append, List.nil_append, List.forall_mem_cons] at hf
  obtain ⟨h0, h1, h2, -⟩ := hf
  obtain ⟨x0, e0, w0⟩ := fld_str fl h0
  obtain ⟨x1, e1, w1⟩ := fld_str fl h1
  obtain ⟨x2, e2, w2⟩ := fld_vec fl h2
  obtain rfl : x1 = "mesh" := type_eq fl rfl hm (List.mem_cons_of_mem _ List.mem_cons_self) rfl w1
  refine ⟨_, by
    simp only [sectionOf, emitterSec, emitterOf, splat, e0, e1, e2, members, he, Tr.bind_mk_ok, Tr.emit_bind, Tr.ret_bind, reduceIte,
      String.reduceEq]
    rfl, rfl, ?_⟩
  simp only [integratorFields, meshFields, List.cons_append, List.nil_append, List.forall_mem_cons,
    w0, w1, w2]
  simp [Call.args, MeshP.args, BoundaryP.args, BsdfP.args, ShaderP.args, EmitterP.args, List.lookup, fStr,
    fInt, fNum, fVec, fFlag]

theorem row_emitter_environment (ms : List (String × Js)) (tr : List (Call F)) (he : emitterMembers fl ms = ⟨tr, .ok ()⟩)
    (r : Row F) (hr : (emitterRows fl)[2]? = some r) (hm : Meets fl r (.obj ms)) :
    ∃ c, sectionOf fl "emitter" (.obj ms) = ⟨[.clearTransform] ++ tr ++ [c, .clearTransform], .ok ()⟩ ∧
      Says fl r (.obj ms) c := by
  simp only [emitterRows, List.getElem?_cons_succ, List.getElem?_cons_zero, Option.some.injEq] at hr
  subst hr
  have hf := hm.1
  simp only [integratorFields, meshFields, List.cons_append, List.nil_append, List.forall_mem_cons] at hf
  obtain ⟨h0, h1, h2, h3, -⟩ := hf
  obtain ⟨x0, e0, w0⟩ := fld_str fl h0
  obtain ⟨x1, e1, w1⟩ := fld_str fl h1
  obtain ⟨x2, e2, w2⟩ := fld_vec fl h2
  obtain ⟨x3, e3, w3⟩ := fld_str fl h3
  obtain rfl : x1 = "environment" := type_eq fl rfl hm (List.mem_cons_of_mem _ List.mem_cons_self) rfl w1
  refine ⟨_, by
    simp only [sectionOf, emitterSec, emitterOf, splat, e0, e1, e2, e3, members, he, Tr.bind_mk_ok, Tr.emit_bind, Tr.ret_bind, reduceIte,
      String.reduceEq]
    rfl, rfl, ?_⟩
  simp only [integratorFields, meshFields, List.cons_append, List.nil_append, List.forall_mem_cons,
    w0, w1, w2, w3]
  simp [Call.args, MeshP.args, BoundaryP.args, BsdfP.args, ShaderP.args, EmitterP.args, List.lookup, fStr,
    fInt, fNum, fVec, fFlag]

theorem row_emitter_directional (ms : List (String × Js)) (tr : List (Call F)) (he : emitterMembers fl ms = ⟨tr, .ok ()⟩)
    (r : Row F) (hr : (emitterRows fl)[3]? = some r) (hm : Meets fl r (.obj ms)) :
    ∃ c, sectionOf fl "emitter" (.obj ms) = ⟨[.clearTransform] ++ tr ++ [c, .clearTransform], .ok ()⟩ ∧
      Says fl r (.obj ms) c := by
  simp only [emitterRows, List.getElem?_cons_succ, List.getElem?_cons_zero, Option.some.injEq] at hr
  subst hr
  have hf := hm.1
  simp only [integratorFields, meshFields, List.cons_append, List.nil_append, List.forall_mem_cons] at hf
  obtain ⟨h0, h1, h2, h3, -⟩ := hf
  obtain ⟨x0, e0, w0⟩ := fld_str fl h0
  obtain ⟨x1, e1, w1⟩ := fld_str fl h1
  obtain ⟨x2, e2, w2⟩ := fld_vec fl h2
  obtain ⟨x3, e3, w3⟩ := fld_vec fl h3
  obtain rfl : x1 = "directional" := type_eq fl rfl hm (List.mem_cons_of_mem _ List.mem_cons_self) rfl w1
  refine ⟨_, by
    simp only [sectionOf, emitterSec, emitterOf, splat, e0, e1, e2, e3, members, he, Tr.bind_mk_ok, Tr.emit_bind, Tr.ret_bind, reduceIte,
      String.reduceEq]
    rfl, rfl, ?_⟩
  simp only [integratorFields, meshFields, List.cons_append, List.nil_append, List.forall_mem_cons,
    w0, w1, w2, w3]
  simp [Call.args, MeshP.args, BoundaryP.args, BsdfP.args, ShaderP.args, EmitterP.args, List.lookup, fStr,
    fInt, fNum, fVec, fFlag]

theorem row_emitter_directional_mesh (ms : List (String × Js)) (tr : List (Call F)) (he : emitterMembers fl ms = ⟨tr, .ok ()⟩)
    (r : Row F) (hr : (emitterRows fl)[4]? = some r) (hm : Meets fl r (.obj ms)) :
    ∃ c, sectionOf fl "emitter" (.obj ms) = ⟨[.clearTransform] ++ tr ++ [c, .clearTransform], .ok ()⟩ ∧
      Says fl r (.obj ms) c := by
  simp only [emitterRows, List.getElem?_cons_succ, List.getElem?_cons_zero, Option.some.injEq] at hr
  subst hr
  have hf := hm.1
  simp only [integratorFields, meshFields, List.cons_append, List.nil_append, List.forall_mem_cons] at hf
  obtain ⟨h0, h1, h2, h3, -⟩ := hf
  obtain ⟨x0, e0, w0⟩ := fld_str fl h0
  obtain ⟨x1, e1, w1⟩ := fld_str fl h1
  obtain ⟨x2, e2, w2⟩ := fld_vec fl h2
  obtain ⟨x3, e3, w3⟩ := fld_vec fl h3
  obtain rfl : x1 = "directional_mesh" := type_eq fl rfl hm (List.mem_cons_of_mem _ List.mem_cons_self) rfl w1
  refine ⟨_, by
    simp only [sectionOf, emitterSec, emitterOf, splat, e0, e1, e2, e3, members, he, Tr.bind_mk_ok, Tr.emit_bind, Tr.ret_bind, reduceIte,
      String.reduceEq]
    rfl, rfl, ?_⟩
  simp only [integratorFields, meshFields, List.cons_append, List.nil_append, List.forall_mem_cons,
    w0, w1, w2, w3]
  simp [Call.args, MeshP.args, BoundaryP.args, BsdfP.args, ShaderP.args, EmitterP.args, List.lookup, fStr,
    fInt, fNum, fVec, fFlag]

theorem row_emitter_spot (ms : List (String × Js)) (tr : List (Call F)) (he : emitterMembers fl ms = ⟨tr, .ok ()⟩)
    (r : Row F) (hr : (emitterRows fl)[5]? = some r) (hm : Meets fl r (.obj ms)) :
    ∃ c, sectionOf fl "emitter" (.obj ms) = ⟨[.clearTransform] ++ tr ++ [c, .clearTransform], .ok ()⟩ ∧
      Says fl r (.obj ms) c := by
  simp only [emitterRows, List.getElem?_cons_succ, List.getElem?_cons_zero, Option.some.injEq] at hr
  subst hr
  have hf := hm.1
  simp only [integratorFields, meshFields, List.cons_append, List.nil_append, List.forall_mem_cons] at hf
  obtain ⟨h0, h1, h2, h3, h4, h5, -⟩ := hf
  obtain ⟨x0, e0, w0⟩ := fld_str fl h0
  obtain ⟨x1, e1, w1⟩ := fld_str fl h1
  obtain ⟨x2, e2, w2⟩ := fld_vec fl h2
  obtain ⟨x3, e3, w3⟩ := fld_vec fl h3
  obtain ⟨x4, e4, w4⟩ := fld_vec fl h4
  obtain ⟨x5, e5, w5⟩ := fld_num fl h5
  obtain rfl : x1 = "spot" := type_eq fl rfl hm (List.mem_cons_of_mem _ List.mem_cons_self) rfl w1
  refine ⟨_, by
    simp only [sectionOf, emitterSec, emitterOf, splat, e0, e1, e2, e3, e4, e5, members, he, Tr.bind_mk_ok, Tr.emit_bind, Tr.ret_bind, reduceIte,
      String.reduceEq]
    rfl, rfl, ?_⟩
  simp only [integratorFields, meshFields, List.cons_append, List.nil_append, List.forall_mem_cons,
    w0, w1, w2, w3, w4, w5]
  simp [Call.args, MeshP.args, BoundaryP.args, BsdfP.args, ShaderP.args, EmitterP.args, List.lookup, fStr,
    fInt, fNum, fVec, fFlag]

end Feign.Parser
