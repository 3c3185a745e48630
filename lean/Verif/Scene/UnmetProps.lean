import Verif.Scene.HitsProps
import Verif.Shapes.MeshProps

/-!
# C127: objects that a ray does not meet do not change what it meets (meshes)
-/

set_option linter.unusedSectionVars false

namespace Feign

namespace Shapes
variable {K : Type} [Field K] [LinearOrder K] [IsStrictOrderedRing K]

private theorem test_unique {p0 p1 p2 : V3 K} {r : Ray K} {g h : TriHit K}
    (hg : triTest p0 p1 p2 r = some g) (hh : triTest p0 p1 p2 r = some h) : g = h := by
  rw [hg] at hh
  exact Option.some.inj hh

private theorem hitsAt_unique {m : Mesh K} {r : Ray K} {i : ℕ} {g h : TriHit K} (hg : m.HitsAt r i g)
    (hh : m.HitsAt r i h) : g = h := by
  obtain ⟨f, p0, p1, p2, a, b, c, d, e⟩ := hg
  obtain ⟨f', q0, q1, q2, a', b', c', d', e'⟩ := hh
  rw [a] at a'
  cases a'
  rw [b] at b'
  rw [c] at c'
  rw [d] at d'
  cases b'
  cases c'
  cases d'
  exact test_unique ((triTest_iff _ _ _ _ _).mpr e) ((triTest_iff _ _ _ _ _).mpr e')

/-- Two meshes in which a ray hits the same faces at the same places give the same answer. -/
private theorem intersect_congr (m m' : Mesh K) (hm : m.WellFormed) (hm' : m'.WellFormed) (r : Ray K)
    (h : ∀ i g, m'.HitsAt r i g ↔ m.HitsAt r i g) : m'.intersect r = m.intersect r := by
  obtain ⟨o, ho, hn, hs⟩ := mesh_closest_hit m hm r
  obtain ⟨o', ho', hn', hs'⟩ := mesh_closest_hit m' hm' r
  rw [ho, ho']
  congr 1
  cases o with
  | none =>
    exact hn'.mpr fun i g hg => hn.mp rfl i g ((h i g).mp hg)
  | some x =>
    obtain ⟨i, g⟩ := x
    obtain ⟨h1, h2⟩ := hs i g rfl
    cases o' with
    | none => exact absurd ((h i g).mpr h1) (hn'.mp rfl i g)
    | some y =>
      obtain ⟨i', g'⟩ := y
      obtain ⟨h3, h4⟩ := hs' i' g' rfl
      obtain ⟨a, b⟩ := h2 i' g' ((h i' g').mp h3)
      obtain ⟨c, d⟩ := h4 i g ((h i g).mpr h1)
      have ht : g'.t = g.t := le_antisymm c a
      have hi : i' = i := le_antisymm (b ht) (d ht.symm)
      subst hi
      rw [hitsAt_unique ((h i' g').mp h3) h1]

/-- **C127, faces.** Faces (and vertices) added to a mesh that the ray does not hit do not change the answer. -/
theorem unmet_faces (m : Mesh K) (vs : List (V3 K)) (fs : List Face) (hm : m.WellFormed)
    (hm' : ({ m with vs := m.vs ++ vs, tris := m.tris ++ fs } : Mesh K).WellFormed) (r : Ray K)
    (hmiss : ∀ i g, m.tris.length ≤ i → ¬ ({ m with vs := m.vs ++ vs, tris := m.tris ++ fs } : Mesh K).HitsAt r i g) :
    ({ m with vs := m.vs ++ vs, tris := m.tris ++ fs } : Mesh K).intersect r = m.intersect r := by
  refine intersect_congr m _ hm hm' r fun i g => ?_
  constructor
  · intro h
    have hi : i < m.tris.length := by
      by_contra hc
      exact hmiss i g (not_lt.mp hc) h
    obtain ⟨f, p0, p1, p2, a, b, c, d, e⟩ := h
    have a' : m.tris[i]? = some f := by rwa [List.getElem?_append_left hi] at a
    have hv := hm f (List.mem_of_getElem? a')
    refine ⟨f, p0, p1, p2, a', ?_, ?_, ?_, e⟩
    · rwa [List.getElem?_append_left (hv 0)] at b
    · rwa [List.getElem?_append_left (hv 1)] at c
    · rwa [List.getElem?_append_left (hv 2)] at d
  · rintro ⟨f, p0, p1, p2, a, b, c, d, e⟩
    have hi : i < m.tris.length := (List.getElem?_eq_some_iff.mp a).1
    have hv := hm f (List.mem_of_getElem? a)
    refine ⟨f, p0, p1, p2, ?_, ?_, ?_, ?_, e⟩
    · rwa [List.getElem?_append_left hi]
    · rwa [List.getElem?_append_left (hv 0)]
    · rwa [List.getElem?_append_left (hv 1)]
    · rwa [List.getElem?_append_left (hv 2)]

/-- A square, and a second one far to the side: a ray down to the first one. -/
example : ∃ (m : Mesh ℚ) (vs : List (V3 ℚ)) (fs : List Face) (r : Ray ℚ), m.WellFormed ∧ fs ≠ [] ∧
    ({ m with vs := m.vs ++ vs, tris := m.tris ++ fs } : Mesh ℚ).WellFormed ∧
    (∃ h, m.intersect r = .ok (some h)) ∧
    ∀ i g, m.tris.length ≤ i → ¬ ({ m with vs := m.vs ++ vs, tris := m.tris ++ fs } : Mesh ℚ).HitsAt r i g := by
  refine ⟨⟨[⟨0, 0, 0⟩, ⟨1, 0, 0⟩, ⟨0, 1, 0⟩], [], [], [⟨![0, 1, 2], ![0, 0, 0], ![0, 0, 0]⟩]⟩,
    [⟨5, 0, 0⟩, ⟨6, 0, 0⟩, ⟨5, 1, 0⟩], [⟨![3, 4, 5], ![0, 0, 0], ![0, 0, 0]⟩],
    ⟨⟨1 / 4, 1 / 4, 1⟩, ⟨0, 0, -1⟩, ⊥, ⊤⟩, ?_, by simp, ?_, ?_, ?_⟩
  · intro f hf k
    simp at hf ⊢
    subst hf
    fin_cases k <;> simp
  · intro f hf k
    simp at hf ⊢
    rcases hf with rfl | rfl <;> fin_cases k <;> simp
  · exact ⟨(0, ⟨1 / 4, 1 / 4, 1⟩), by decide +kernel⟩
  · rintro i g hi ⟨f, p0, p1, p2, a, b, c, d, -, u0, u1, v0, v1, -, -, e⟩
    simp at hi a
    have hi1 : i = 1 := by
      have := (List.getElem?_eq_some_iff.mp a).1
      simp at this
      omega
    subst hi1
    simp at a
    subst a
    simp at b c d
    subst b c d
    have := congrArg V3.x e
    simp [Ray.point] at this
    linarith

end Shapes

namespace Scene
open Shapes
variable {K : Type} [Field K] [LinearOrder K]

/-- The ray meets no triangle of the meshes between its ends. -/
def Unmet (ns : List (Mesh K)) (r : Ray K) : Prop := ∀ m ∈ ns, ∀ f t, Touches m f (r.point t) → ¬ Within r t

private theorem nearest_unique {ms ms' : List (Mesh K)} {r : Ray K} {o o' : Option (Its K)} (h : NearestHit ms r o)
    (h' : NearestHit ms' r o')
    (hs : ∀ f t, Within r t → ((∃ m ∈ ms, Touches m f (r.point t)) ↔ ∃ m ∈ ms', Touches m f (r.point t))) :
    o.map (fun i => (i.t, i.p)) = o'.map fun i => (i.t, i.p) := by
  cases o with
  | none =>
    cases o' with
    | none => rfl
    | some x =>
      obtain ⟨⟨m, hm, ht⟩, -, hw, -⟩ := h'
      obtain ⟨m', hm', ht'⟩ := (hs _ _ hw).mpr ⟨m, List.mem_of_getElem? hm, ht⟩
      obtain ⟨i, hi⟩ := List.mem_iff_getElem?.mp hm'
      exact absurd hw (h i m' _ _ hi ht')
  | some y =>
    obtain ⟨⟨m, hm, ht⟩, hp, hw, hle⟩ := h
    cases o' with
    | none =>
      obtain ⟨m', hm', ht'⟩ := (hs _ _ hw).mp ⟨m, List.mem_of_getElem? hm, ht⟩
      obtain ⟨i, hi⟩ := List.mem_iff_getElem?.mp hm'
      exact absurd hw (h' i m' _ _ hi ht')
    | some x =>
      obtain ⟨⟨m1, hm1, ht1⟩, hp1, hw1, hle1⟩ := h'
      obtain ⟨m', hm', ht'⟩ := (hs _ _ hw).mp ⟨m, List.mem_of_getElem? hm, ht⟩
      obtain ⟨i, hi⟩ := List.mem_iff_getElem?.mp hm'
      obtain ⟨m2, hm2, ht2⟩ := (hs _ _ hw1).mpr ⟨m1, List.mem_of_getElem? hm1, ht1⟩
      obtain ⟨j, hj⟩ := List.mem_iff_getElem?.mp hm2
      have e : y.t = x.t := le_antisymm (hle j m2 _ _ hj ht2 hw1) (hle1 i m' _ _ hi ht' hw)
      simp only [Option.map_some, hp, hp1, e]

/-- **C127, objects.** Objects that the ray does not meet, added before, between and after others: whether the ray hits,
how far away and where does not change, whatever the ray-tracing library picks among equally near triangles. -/
theorem unmet_objects (ms ns : List (Mesh K)) (all : List (Mesh K)) (hperm : all.Perm (ms ++ ns))
    (rtc rtc' : Ray K → Option (RtcHit K)) (r : Ray K) (hmiss : Unmet ns r)
    (H : EmbreeSpec (buildAccel (ms.map Shp.mesh)).geoms rtc r)
    (H' : EmbreeSpec (buildAccel (all.map Shp.mesh)).geoms rtc' r) :
    ∃ o o', (buildAccel (ms.map Shp.mesh)).intersect rtc r = .ok o ∧
      (buildAccel (all.map Shp.mesh)).intersect rtc' r = .ok o' ∧
      o'.map (fun i => (i.t, i.p)) = o.map (fun i => (i.t, i.p)) ∧
      ∀ i, o' = some i → ∃ m ∈ ms, all[i.shape]? = some m := by
  obtain ⟨o, ho, hn⟩ := hits_attributed_partial ms rtc r H
  obtain ⟨o', ho', hn'⟩ := hits_attributed_partial all rtc' r H'
  refine ⟨o, o', ho, ho', (nearest_unique hn hn' fun f t hw => ?_).symm, ?_⟩
  · constructor
    · rintro ⟨m, hm, ht⟩
      exact ⟨m, hperm.mem_iff.mpr (List.mem_append_left _ hm), ht⟩
    · rintro ⟨m, hm, ht⟩
      rcases List.mem_append.mp (hperm.mem_iff.mp hm) with h | h
      · exact ⟨m, h, ht⟩
      · exact absurd hw (hmiss m h f t ht)
  · rintro i rfl
    obtain ⟨⟨m, hm, ht⟩, -, hw, -⟩ := hn'
    rcases List.mem_append.mp (hperm.mem_iff.mp (List.mem_of_getElem? hm)) with h | h
    · exact ⟨m, h, hm⟩
    · exact absurd hw (hmiss m h _ _ ht)

/-- A triangle to the side of the ray is not met. -/
example : Unmet [(⟨[⟨5, 0, 0⟩, ⟨6, 0, 0⟩, ⟨5, 1, 0⟩], [], [], [⟨![0, 1, 2], ![0, 0, 0], ![0, 0, 0]⟩]⟩ : Mesh ℚ)]
    ⟨⟨1 / 4, 1 / 4, 1⟩, ⟨0, 0, -1⟩, ⊥, ⊤⟩ := by
  rintro m hm f t ⟨face, p0, p1, p2, u, v, a, b, c, d, u0, v0, -, e⟩
  simp at hm
  subst hm
  have hf : f = 0 := by
    have := (List.getElem?_eq_some_iff.mp a).1
    simp at this
    exact this
  subst hf
  simp at a
  subst a
  simp at b c d
  subst b c d
  have := congrArg V3.x e
  simp [Ray.point] at this
  linarith

end Scene
end Feign
