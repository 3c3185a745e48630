import Verif.Shaders.SphereLemmas
import Mathlib.Tactic.NormNum
import Mathlib.Tactic.Positivity

/-!
# C89: the sphere shader moves a mesh towards the sphere around its centroid
-/

set_option linter.unusedSectionVars false
set_option linter.unusedSimpArgs false

namespace Feign.Shaders

open Flt Shapes

/-- C89 fails for every mesh a scene can contain: centroid and bounding box are computed after the shader has run
(`objmesh.cpp:317-341`), so it works with the centroid zero and an empty box. However often the mesh is preprocessed, for
whatever files and parameters, no vertex has a finite coordinate afterwards. -/
theorem sphere_shader_refuted (s : SphereShader) (calls : List (Mesh ℝ × Bool)) (last : Mesh ℝ × Bool) (st : ObjState)
    (h : preProcessAll (some s) .fresh (calls ++ [last]) = .ok st) :
    st.vs.length = last.1.vs.length ∧ ∀ v ∈ st.vs, ¬ v.x.IsFin ∧ ¬ v.y.IsFin ∧ ¬ v.z.IsFin := by
  have key : ∀ (calls : List (Mesh ℝ × Bool)) (st0 : ObjState), Broken s st0 →
      preProcessAll (some s) st0 (calls ++ [last]) = .ok st →
      st.vs.length = last.1.vs.length ∧ ∀ v ∈ st.vs, AllBad v := by
    intro calls
    induction calls with
    | nil =>
      intro st0 hb h
      obtain ⟨file, req⟩ := last
      simp only [List.nil_append, preProcessAll, Res.bind_eq_ok] at h
      obtain ⟨st1, h1, h⟩ := h
      injection h with h
      subst h
      exact ⟨(preProcess_bad hb h1).1, (preProcess_bad hb h1).2.1⟩
    | cons c cs ih =>
      intro st0 hb h
      obtain ⟨file, req⟩ := c
      simp only [List.cons_append, preProcessAll, Res.bind_eq_ok] at h
      obtain ⟨st1, h1, h⟩ := h
      exact ih st1 (.inl (preProcess_bad hb h1).2.2) h
  obtain ⟨h1, h2⟩ := key calls .fresh (fresh_broken s) h
  exact ⟨h1, fun v hv => ⟨(bad_iff _).1 (h2 v hv).1, (bad_iff _).1 (h2 v hv).2.1, (bad_iff _).1 (h2 v hv).2.2⟩⟩

/-- The mesh has the vertices `pos 0, …, pos (nv - 1)`, `nn` normals, the faces `fs`, the centroid `c` and a finite box. -/
structure Ready (st : ObjState) (nv nn : ℕ) (pos : ℕ → V3 ℝ) (fs : List Face) (c lo hi : V3 ℝ) : Prop where
  vs : st.vs = tab nv pos
  ns : st.ns.length = nn
  tris : st.tris = fs
  center : st.center = FV.ofReal c
  boxMin : st.boxMin = FV.ofReal lo
  boxMax : st.boxMax = FV.ofReal hi

/-- Side of the box the shader takes: the strictly shortest one, otherwise the last. -/
noncomputable def chosenSide (e : V3 ℝ) : ℝ :=
  if |e.x| < |e.y| ∧ |e.x| < |e.z| then e.x else if |e.y| < |e.x| ∧ |e.y| < |e.z| then e.y else e.z

theorem chosenSide_spec (e : V3 ℝ) :
    (FV.ofReal e).get (FV.minAbsIndex (FV.ofReal e)) = .fin (chosenSide e) := by
  unfold FV.minAbsIndex chosenSide
  have hl : ∀ a b : ℝ, ((Flt.fin a).abs.lt (Flt.fin b).abs) ↔ |a| < |b| := fun _ _ => Iff.rfl
  simp only [FV.ofReal, hl]
  by_cases h1 : |e.x| < |e.y| ∧ |e.x| < |e.z|
  · rw [if_pos h1, if_pos h1]; rfl
  · rw [if_neg h1, if_neg h1]
    by_cases h2 : |e.y| < |e.x| ∧ |e.y| < |e.z|
    · rw [if_pos h2, if_pos h2]; rfl
    · rw [if_neg h2, if_neg h2]; rfl

/-- C89, for a mesh whose centroid and box are known: every vertex moves `interp` of the way to its projection onto the
sphere around the centroid, and the normal with number `j` becomes the unit vector along the sum of the unit normals of
the faces that use it. (`_partial`: no mesh of a scene is in that state; no vertex at the centroid.) -/
theorem sphere_shader_partial (s : SphereShader) (st : ObjState) (nv nn : ℕ) (pos : ℕ → V3 ℝ) (fs : List Face)
    (c lo hi : V3 ℝ) (h : Ready st nv nn pos fs c lo hi) (hc : ∀ i < nv, pos i ≠ c)
    (hf : ∀ f ∈ fs, InRange nv nn f) :
    ∃ st', evaluate s st = .ok st' ∧
      st'.vs = tab nv (fun i => toSphere c (chosenSide (hi - lo) * s.prop) s.interp (pos i)) ∧
      st'.ns = tab nn (fun j => direction
        (normalSum (fun i => toSphere c (chosenSide (hi - lo) * s.prop) s.interp (pos i)) fs j)) ∧
      st'.tris = fs := by
  have hr : sphereRadius s st = .fin (chosenSide (hi - lo) * s.prop) := by
    simp only [sphereRadius, h.boxMax, h.boxMin, FV.ofReal_sub, chosenSide_spec, fin_mul]
  have hv : st.vs.map (movePoint st.center (sphereRadius s st) (.fin s.interp)) =
      tab nv (fun i => toSphere c (chosenSide (hi - lo) * s.prop) s.interp (pos i)) := by
    rw [h.vs, h.center, hr, tab, tab, List.map_map]
    apply List.map_congr_left
    intro i hi'
    exact movePoint_ofReal c _ _ _ (hc i (List.mem_range.1 hi'))
  have hz : List.replicate st.ns.length (⟨.fin 0, .fin 0, .fin 0⟩ : V3 Flt) = tab nn fun _ => 0 := by
    rw [h.ns]
    apply List.ext_getElem?
    intro j
    by_cases hj : j < nn
    · rw [tab_get _ _ _ hj, List.getElem?_replicate, if_pos hj]
      rfl
    · rw [List.getElem?_eq_none (by simpa using hj), List.getElem?_eq_none (by simpa [tab] using hj)]
  refine ⟨{ st with
      vs := tab nv (fun i => toSphere c (chosenSide (hi - lo) * s.prop) s.interp (pos i))
      ns := tab nn (fun j => direction
        (normalSum (fun i => toSphere c (chosenSide (hi - lo) * s.prop) s.interp (pos i)) fs j)) },
    ?_, rfl, rfl, h.tris⟩
  have ht := h.tris
  obtain ⟨vs0, ns0, tris0, c0, b0, b1⟩ := st
  simp only at ht
  subst ht
  simp only [evaluate, hv, hz, accumulate_tab nv nn _ _ hf, Res.bind_ok, Res.pure_eq]
  congr 2
  rw [tab, tab, List.map_map]
  apply List.map_congr_left
  intro j _
  simp only [Function.comp, unitOrUp_ofReal]
  congr 2
  ext <;> simp

/-- C89. Where the vertices go: all the way they are on the sphere, none of the way they stay, and on the way they are
between the two. -/
theorem toSphere_ends (c : V3 ℝ) (r : ℝ) (p : V3 ℝ) (h : p ≠ c) :
    (toSphere c r 1 p - c).sqrNorm = r * r ∧ toSphere c r 0 p = p ∧
      ∀ t, (toSphere c r t p - p) = (toSphere c r 1 p - p).smul t := by
  have h' : p - c ≠ 0 := by
    intro hc
    apply h
    have hx := congrArg V3.x hc
    have hy := congrArg V3.y hc
    have hz := congrArg V3.z hc
    simp only [V3.sub_x, V3.sub_y, V3.sub_z, V3.zero_x, V3.zero_y, V3.zero_z] at hx hy hz
    ext <;> linarith
  refine ⟨?_, ?_, fun t => ?_⟩
  · have hn := ne_of_gt (V3.norm_pos _ h')
    have hq := V3.norm_sq (p - c)
    have e : toSphere c r 1 p - c = (p - c).smul (r / (p - c).norm) := by
      unfold toSphere onSphere
      ext <;> simp
    rw [e]
    generalize (p - c).norm = n at *
    have : ((p - c).smul (r / n)).sqrNorm = (p - c).sqrNorm * ((r / n) * (r / n)) := by
      simp only [V3.sqrNorm, V3.smul_x, V3.smul_y, V3.smul_z]
      ring
    rw [this, ← hq]
    field_simp
  · unfold toSphere
    ext <;> simp
  · unfold toSphere
    ext <;> simp <;> ring

/-- C89. All new normals have length one. -/
theorem sphere_normals_unit (n : V3 ℝ) : (direction n).sqrNorm = 1 := direction_unit n

/-- C89 asks for the shortest side of the box. If two sides are equally short, the third is taken. -/
theorem shortest_side_refuted : ∃ e : V3 ℝ, |e.x| < |chosenSide e| ∧ |e.y| < |chosenSide e| := by
  refine ⟨⟨1, 1, 5⟩, ?_⟩
  have : chosenSide ⟨1, 1, 5⟩ = 5 := by norm_num [chosenSide]
  rw [this]
  norm_num

/-- If no two sides are equally short, or the last is among the shortest, the shortest is taken. -/
theorem shortest_side_partial (e : V3 ℝ)
    (h : (|e.z| ≤ |e.x| ∧ |e.z| ≤ |e.y|) ∨ |e.x| ≠ |e.y|) :
    |chosenSide e| ≤ |e.x| ∧ |chosenSide e| ≤ |e.y| ∧ |chosenSide e| ≤ |e.z| := by
  unfold chosenSide
  split
  · rename_i h1; exact ⟨le_rfl, h1.1.le, h1.2.le⟩
  · rename_i h1
    split
    · rename_i h2; exact ⟨h2.1.le, le_rfl, h2.2.le⟩
    · rename_i h2
      rcases h with h | h
      · exact ⟨h.1, h.2, le_rfl⟩
      · rcases lt_or_gt_of_ne h with hlt | hlt
        · have : |e.z| ≤ |e.x| := not_lt.1 fun hc => h1 ⟨hlt, hc⟩
          exact ⟨this, this.trans hlt.le, le_rfl⟩
        · have : |e.z| ≤ |e.y| := not_lt.1 fun hc => h2 ⟨hlt, hc⟩
          exact ⟨this.trans hlt.le, this, le_rfl⟩

/-- A normal index that is out of range is written through. -/
theorem normal_index_refuted (s : SphereShader) (st : ObjState) (f : Face) (fs : List Face) (ht : st.tris = f :: fs)
    (hv : ∀ k, f.v k < st.vs.length) (hn : st.ns.length ≤ f.n 0) : (evaluate s st).isUb = true := by
  have hread : ∀ (l : List (V3 Flt)) i, i < l.length → ∃ p, readAt l i = .ok p := by
    intro l i hi
    exact ⟨l[i], by simp [readAt, List.getElem?_eq_getElem hi]⟩
  have hm : ∀ k, f.v k < (st.vs.map (movePoint st.center (sphereRadius s st) (.fin s.interp))).length := by
    simpa using hv
  obtain ⟨p0, h0⟩ := hread _ _ (hm 0)
  obtain ⟨p1, h1⟩ := hread _ _ (hm 1)
  obtain ⟨p2, h2⟩ := hread _ _ (hm 2)
  have ha : ∀ n, addAt (List.replicate st.ns.length ⟨.fin 0, .fin 0, .fin 0⟩) (f.n 0) n = .ub "index out of range" := by
    intro n
    simp only [addAt, List.getElem?_eq_none (show (List.replicate st.ns.length _).length ≤ f.n 0 by simpa using hn)]
  simp only [evaluate, ht, accumulate, h0, h1, h2, Res.bind_ok, ha, Res.bind_ub]
  rfl

theorem foldl_add_ofReal (vs : List (V3 ℝ)) (a : V3 ℝ) :
    (vs.map FV.ofReal).foldl FV.add (FV.ofReal a) = FV.ofReal (vs.foldl (· + ·) a) := by
  induction vs generalizing a with
  | nil => rfl
  | cons v vs ih => exact ih (a + v)

theorem minV_ofReal (a b : V3 ℝ) : FV.minV (FV.ofReal a) (FV.ofReal b) = FV.ofReal (a.minV b) := by
  have hl : ∀ x y : ℝ, (Flt.fin x).lt (.fin y) ↔ x < y := fun _ _ => Iff.rfl
  simp only [FV.minV, FV.ofReal, V3.minV, V3.mk.injEq, hl]
  refine ⟨?_, ?_, ?_⟩ <;> split <;> rfl

theorem maxV_ofReal (a b : V3 ℝ) : FV.maxV (FV.ofReal a) (FV.ofReal b) = FV.ofReal (a.maxV b) := by
  have hl : ∀ x y : ℝ, (Flt.fin x).lt (.fin y) ↔ x < y := fun _ _ => Iff.rfl
  simp only [FV.maxV, FV.ofReal, V3.maxV, V3.mk.injEq, hl, gt_iff_lt]
  refine ⟨?_, ?_, ?_⟩ <;> split <;> rfl

theorem foldl_box (vs : List (V3 ℝ)) (b : B3 ℝ) :
    (vs.map FV.ofReal).foldl FV.minV (FV.ofReal b.min) = FV.ofReal (vs.foldl B3.expand b).min ∧
    (vs.map FV.ofReal).foldl FV.maxV (FV.ofReal b.max) = FV.ofReal (vs.foldl B3.expand b).max := by
  induction vs generalizing b with
  | nil => exact ⟨rfl, rfl⟩
  | cons v vs ih =>
    simp only [List.map_cons, List.foldl_cons, minV_ofReal, maxV_ofReal]
    exact ih (b.expand v)

/-- Without the shader the mesh is kept as read, and its centroid and (for the mesh of a light) its box are known
afterwards; C65 says which these are. -/
theorem preProcess_plain (st : ObjState) (file : Mesh ℝ) (hne : file.vs ≠ []) :
    ∃ st' c b, preProcess none st file true = .ok st' ∧ file.centroid = some c ∧ file.box = some b ∧
      st'.vs = file.vs.map FV.ofReal ∧ st'.ns = file.ns.map FV.ofReal ∧ st'.tris = file.tris ∧
      st'.center = FV.ofReal c ∧ st'.boxMin = FV.ofReal b.min ∧ st'.boxMax = FV.ofReal b.max := by
  obtain ⟨vs, ns, uvs, tris⟩ := file
  cases vs with
  | nil => exact (hne rfl).elim
  | cons v vs =>
    have hlen : ((v :: vs).length : ℝ) ≠ 0 := by
      simp only [List.length_cons]
      positivity
    have hb := foldl_box vs ⟨v, v⟩
    refine ⟨_, ⟨((v :: vs).foldl (· + ·) ⟨0, 0, 0⟩ : V3 ℝ).x / (v :: vs).length,
        ((v :: vs).foldl (· + ·) ⟨0, 0, 0⟩ : V3 ℝ).y / (v :: vs).length,
        ((v :: vs).foldl (· + ·) ⟨0, 0, 0⟩ : V3 ℝ).z / (v :: vs).length⟩, vs.foldl B3.expand ⟨v, v⟩, rfl, ?_, rfl, rfl,
        rfl, rfl, ?_, hb.1, hb.2⟩
    · simp only [Mesh.centroid]
      rw [if_neg (by simp)]
    · show computeCentroid ((v :: vs).map FV.ofReal) = _
      have := foldl_add_ofReal (v :: vs) ⟨0, 0, 0⟩
      unfold computeCentroid
      rw [show (⟨Flt.fin 0, Flt.fin 0, Flt.fin 0⟩ : V3 Flt) = FV.ofReal ⟨0, 0, 0⟩ from rfl, this, List.length_map]
      simp only [FV.ofReal, fin_div _ _ hlen]

/-- One triangle with its own normal. -/
def oneFace : Face := ⟨fun k => k, fun _ => 0, fun k => k⟩

def oneMesh : Mesh ℝ := ⟨[⟨1, 0, 0⟩, ⟨0, 1, 0⟩, ⟨0, 0, 1⟩], [⟨0, 1, 0⟩], [], [oneFace]⟩

/-- Preprocessing of a triangle returns, so that `sphere_shader_refuted` is about something. -/
example (s : SphereShader) : ∃ st, preProcessAll (some s) .fresh ([] ++ [(oneMesh, false)]) = .ok st :=
  ⟨_, rfl⟩

/-- The hypotheses of `sphere_shader_partial` are met by the triangle, with its centroid at a third and the unit box. -/
example : ∃ st pos c lo hi, Ready st 3 1 pos [oneFace] c lo hi ∧ (∀ i < 3, pos i ≠ c) ∧
    (∀ f ∈ [oneFace], InRange 3 1 f) ∧ chosenSide (hi - lo) * (1 / 2) = 1 / 2 := by
  let pos : ℕ → V3 ℝ := fun i => if i = 0 then ⟨1, 0, 0⟩ else if i = 1 then ⟨0, 1, 0⟩ else ⟨0, 0, 1⟩
  refine ⟨⟨tab 3 pos, [up], [oneFace], FV.ofReal ⟨1 / 3, 1 / 3, 1 / 3⟩, FV.ofReal ⟨0, 0, 0⟩, FV.ofReal ⟨1, 1, 1⟩⟩, pos,
    ⟨1 / 3, 1 / 3, 1 / 3⟩, ⟨0, 0, 0⟩, ⟨1, 1, 1⟩, ⟨rfl, rfl, rfl, rfl, rfl, rfl⟩, ?_, ?_, ?_⟩
  · intro i _ hc
    have hx := congrArg V3.x hc
    have hy := congrArg V3.y hc
    simp only [pos] at hx hy
    split at hx
    · norm_num at hx
    · split at hx
      · norm_num at hx
      · norm_num at hx
  · intro f hf
    rw [List.mem_singleton.1 hf]
    intro k
    exact ⟨k.2, by simp [oneFace]⟩
  · norm_num [chosenSide]

end Feign.Shaders
