import Verif.Api.AreaLights
import Verif.Api.FlushProps

/-!
# C97: an area light shines from the objects that carry it

An object declared with an emitter is a lamp: light is sampled on its surface, and a ray that hits it sees it glow. Objects
without that emitter do not glow with it.
-/

set_option linter.unusedSectionVars false
set_option linter.unusedVariables false
set_option linter.unusedSimpArgs false

namespace Feign.Api
variable {D T : Type}

private theorem prepare_same (s : St D T) (l : Lamps) {o e : Nat} (h : s.emitterOf o = some e) (ha : s.isArea e = true) :
    prepare s l o e = ⟨s.meshOf o, s.meshOf o⟩ := by
  simp [prepare, h, ha, Lamps.set]

private theorem prepare_other (s : St D T) (l : Lamps) {o e : Nat} (h : s.emitterOf o ≠ some e) :
    prepare s l o e = l e := by
  unfold prepare
  cases hq : s.emitterOf o with
  | none => rfl
  | some e' =>
    have : e ≠ e' := by rintro rfl; exact h hq
    dsimp only
    split_ifs
    · simp [Lamps.set, this]
    · rfl

private theorem prepare_others (s : St D T) {e : Nat} : ∀ (os : List Nat) (l : Lamps),
    (∀ o ∈ os, s.emitterOf o ≠ some e) → os.foldl (prepare s) l e = l e
  | [], l, _ => rfl
  | o :: os, l, h => by
    rw [List.foldl_cons, prepare_others s os _ fun o' ho' => h o' (by simp [ho']), prepare_other s l (h o (by simp))]

private theorem attach_table (s : St D T) (e : Nat) : ∀ (es : List Nat) (l : Lamps),
    (es.foldl (attach s) l e).table = (l e).table
  | [], l => rfl
  | e' :: es, l => by
    rw [List.foldl_cons, attach_table s e es]
    unfold attach
    cases (s.node e').bind (·.owner) with
    | none => rfl
    | some o =>
      dsimp only
      split_ifs
      · by_cases h : e = e' <;> simp [Lamps.set, h]
      · rfl

private theorem last_carrier (f : Nat → Option Nat) (e : Nat) : ∀ os : List Nat, (∃ o ∈ os, f o = some e) →
    ∃ l1 o l2, os = l1 ++ o :: l2 ∧ f o = some e ∧ ∀ o' ∈ l2, f o' ≠ some e
  | [], h => by obtain ⟨o, ho, _⟩ := h; simp at ho
  | o :: os, h => by
    by_cases hr : ∃ o' ∈ os, f o' = some e
    · obtain ⟨l1, o', l2, rfl, h1, h2⟩ := last_carrier f e os hr
      exact ⟨o :: l1, o', l2, rfl, h1, h2⟩
    · obtain ⟨o', ho', he⟩ := h
      rcases List.mem_cons.1 ho' with rfl | ho'
      · exact ⟨[], o', os, rfl, he, fun x hx hc => hr ⟨x, hx, hc⟩⟩
      · exact absurd ⟨o', ho', he⟩ hr

/-- **C97, exactly**: of the objects that carry an area light, light is sampled on the surface of the one that comes last
in the iteration order, and only there. -/
theorem lamp_of_last {s : St D T} {os es : List Nat} {e : Nat} (ha : s.isArea e = true) {l1 l2 : List Nat} {o : Nat}
    (hos : os = l1 ++ o :: l2) (he : s.emitterOf o = some e) (hlast : ∀ o' ∈ l2, s.emitterOf o' ≠ some e) :
    lamps s os es e = ⟨s.meshOf o, s.meshOf o⟩ := by
  subst hos
  unfold lamps
  rw [List.foldl_append, List.foldl_cons, prepare_others s l2 _ hlast, prepare_same s _ he ha]

/-- **C97 refuted for lights that no object carries.** Sampling such a light dereferences a null pointer. -/
theorem uncarried_refuted {s : St D T} {os es : List Nat} {e : Nat} (h : ∀ o ∈ os, s.emitterOf o ≠ some e) :
    ((lamps s os es e).sample).isUb = true := by
  have : (lamps s os es e).table = none := by
    unfold lamps
    rw [prepare_others s os _ h, attach_table]
    rfl
  unfold Lamp.sample
  rw [this]
  rfl

/-- **C97, sampling**: light is sampled on all objects that carry it exactly if they all name the same mesh. -/
theorem sampled_everywhere_iff (mul : T → T → T) (one : T) {s : St D T} {os es : List Nat} {a : Asm T}
    (h : assemble mul s os (Asm.init one) = (.ok, a)) {e : Nat} (ha : s.isArea e = true) :
    (∀ o ∈ os, s.emitterOf o = some e → ∃ m, s.meshOf o = some m ∧ (lamps s os es e).sample = .ok (m, m)) ↔
      ∀ o ∈ os, ∀ o' ∈ os, s.emitterOf o = some e → s.emitterOf o' = some e → s.meshOf o = s.meshOf o' := by
  have hok := assemble_ok os h
  constructor
  · intro hall o ho o' ho' he he'
    obtain ⟨m, hm, h1⟩ := hall o ho he
    obtain ⟨m', hm', h2⟩ := hall o' ho' he'
    rw [h1] at h2
    simp only [Res.ok.injEq, Prod.mk.injEq] at h2
    rw [hm, hm', h2.1]
  · intro hall o ho he
    obtain ⟨l1, ol, l2, hos, hel, hlast⟩ := last_carrier s.emitterOf e os ⟨o, ho, he⟩
    obtain ⟨m, hm, _⟩ := hok.defined o ho
    refine ⟨m, hm, ?_⟩
    rw [lamp_of_last ha hos hel hlast, ← hall o ho ol (by rw [hos]; simp) he hel, hm]
    rfl

/-- **C97, the part that holds** (no mesh is named by two objects and no other object carries the light; the full claim
is for every session): light is sampled on the object's shape, hits on that shape glow with the light, and hits on the
shapes of all other objects do not. -/
theorem area_light_partial (mul : T → T → T) (one : T) {s : St D T} {os es : List Nat} (hos : IsOrder s .object os)
    {a : Asm T} (h : assemble mul s os (Asm.init one) = (.ok, a))
    (hdist : ∀ n n' p p', s.lookup .object n = some p → s.lookup .object n' = some p' → s.meshOf p = s.meshOf p' → p = p')
    {e : Nat} (ha : s.isArea e = true) {n : String} {p : Nat} (hp : s.lookup .object n = some p)
    (he : s.emitterOf p = some e)
    (hone : ∀ n' p', s.lookup .object n' = some p' → s.emitterOf p' = some e → p' = p) :
    ∃ m, s.meshOf p = some m ∧ (lamps s os es e).sample = .ok (m, m) ∧ a.glows s m = some e ∧
      ∀ n' p' m', s.lookup .object n' = some p' → p' ≠ p → s.meshOf p' = some m' → a.glows s m' ≠ some e := by
  obtain ⟨m, hm, _, hsh⟩ := instances_resolve_partial mul one hos h hdist hp
  have hmem := (hos.2 p).2 ⟨n, hp⟩
  refine ⟨m, hm, ?_, ?_, ?_⟩
  · obtain ⟨m', hm', h2⟩ := (sampled_everywhere_iff (es := es) mul one h ha).2 (by
      intro o ho o' ho' h1 h2
      obtain ⟨n1, hn1⟩ := (hos.2 o).1 ho
      obtain ⟨n2, hn2⟩ := (hos.2 o').1 ho'
      rw [hone n1 o hn1 h1, hone n2 o' hn2 h2]) p hmem he
    rw [hm, Option.some.injEq] at hm'
    subst hm'
    exact h2
  · unfold Asm.glows
    rw [hsh]
    exact he
  · intro n' p' m' hp' hne hm' hg
    obtain ⟨m2, hm2, _, hsh2⟩ := instances_resolve_partial mul one hos h hdist hp'
    rw [hm', Option.some.injEq] at hm2
    subst hm2
    unfold Asm.glows at hg
    rw [hsh2] at hg
    exact hne (hone n' p' hp' hg)

/-- **C97 refuted for lights that two objects carry.** Both objects glow, but on one of them light is never sampled. -/
theorem two_carriers_refuted (mul : T → T → T) (one : T) {s : St D T} {os es : List Nat} (hos : IsOrder s .object os)
    {a : Asm T} (h : assemble mul s os (Asm.init one) = (.ok, a))
    (hdist : ∀ n n' p p', s.lookup .object n = some p → s.lookup .object n' = some p' → s.meshOf p = s.meshOf p' → p = p')
    {e : Nat} {n n' : String} {p p' : Nat} (hp : s.lookup .object n = some p)
    (hp' : s.lookup .object n' = some p') (hne : p ≠ p') (he : s.emitterOf p = some e) (he' : s.emitterOf p' = some e) :
    ∃ q m, (q = p ∨ q = p') ∧ s.meshOf q = some m ∧ a.glows s m = some e ∧
      ∀ t, (lamps s os es e).sample ≠ .ok (t, m) := by
  obtain ⟨m, hm, _, hsh⟩ := instances_resolve_partial mul one hos h hdist hp
  obtain ⟨m', hm', _, hsh'⟩ := instances_resolve_partial mul one hos h hdist hp'
  by_cases hc : ∃ t, (lamps s os es e).sample = .ok (t, m)
  · refine ⟨p', m', Or.inr rfl, hm', by unfold Asm.glows; rw [hsh']; exact he', ?_⟩
    intro t ht
    obtain ⟨t', ht'⟩ := hc
    rw [ht] at ht'
    simp only [Res.ok.injEq, Prod.mk.injEq] at ht'
    refine hne (hdist n n' p p' hp hp' ?_)
    rw [hm, hm', ht'.2]
  · refine ⟨p, m, Or.inl rfl, hm, by unfold Asm.glows; rw [hsh]; exact he, ?_⟩
    intro t ht
    exact hc ⟨t, ht⟩

/-! ## Sessions -/

/-- Two objects with meshes of their own that carry one light. -/
def twoLamps : List (Call Unit ℕ) :=
  [.scene "s" "i" "sam" "cam" "" () false, .emitter "e" "mesh" "" (), .object "a" "m1" "sh" "e" (-1),
   .object "b" "m2" "sh" "e" (-1), .mesh "m1" "triangle_mesh" "" "" "null" "null" (),
   .mesh "m2" "triangle_mesh" "" "" "null" "null" ()]

/-- One object carrying a light and one without, sharing a mesh. -/
def halfLamp : List (Call Unit ℕ) :=
  [.scene "s" "i" "sam" "cam" "" () false, .emitter "e" "mesh" "" (), .object "a" "m" "sh" "e" (-1),
   .object "b" "m" "sh" "null" (-1), .mesh "m" "triangle_mesh" "" "" "null" "null" ()]

/-- Nodes of `twoLamps`: emitter 3, object a 4, mesh m1 5, object b 7, mesh m2 8. The light is sampled on the mesh of
whichever object comes last; both glow. -/
example : (run true (St.init 1) twoLamps).map (fun r => (r.1.all (· == .ok), r.2.emitterOf 4, r.2.emitterOf 7,
    r.2.isArea 3)) = some (true, some 3, some 3, true) := by decide
example : (run true (St.init 1) twoLamps).map (fun r => (r.2.meshOf 4, r.2.meshOf 7)) = some (some 5, some 8) := by decide
example : (run true (St.init 1) twoLamps).map (fun r => ((lamps r.2 [4, 7] [3] 3), (lamps r.2 [7, 4] [3] 3))) =
    some (⟨some 8, some 8⟩, ⟨some 5, some 5⟩) := by decide
example : (run true (St.init 1) twoLamps).map (fun r =>
    ((assemble (· * ·) r.2 [4, 7] (Asm.init 1)).2.glows r.2 5, (assemble (· * ·) r.2 [4, 7] (Asm.init 1)).2.glows r.2 8)) =
    some (some 3, some 3) := by decide

/-- **C97 refuted for shared meshes.** Object `a` carries the light and `b` does not; they share a mesh. Light is sampled
on the mesh in both iteration orders, but hits on it glow in only one of them. -/
theorem shared_mesh_lamp_refuted : (run true (St.init 1) halfLamp).map (fun r =>
    (r.1.all (· == .ok), (lamps r.2 [4, 7] [3] 3).mesh, (lamps r.2 [7, 4] [3] 3).mesh,
      (assemble (· * ·) r.2 [4, 7] (Asm.init 1)).2.glows r.2 5,
      (assemble (· * ·) r.2 [7, 4] (Asm.init 1)).2.glows r.2 5)) =
    some (true, some 5, some 5, none, some 3) := by decide

/-- A light that no object carries: the session `complete` with an object that names no light. -/
example : (run true (St.init 1)
    ([.scene "s" "i" "sam" "cam" "" () true, .integrator "i" "path" "default" (), .sampler "sam" "independent" (),
      .camera "cam" "perspective" (), .emitter "e" "mesh" "" (), .object "o" "m" "sh" "null" (-1),
      .mesh "m" "sdf_sphere" "" "" "null" "null" (), .shader "sh" "simple_material" "b" "" (), .bsdf "b" "diffuse" ()] :
      List (Call Unit ℕ))).map (fun r => (r.1.all (· == .ok), (flush true (· * ·) 1 r.2 [5] [4] []).1, r.2.lights,
        r.2.emitterOf 5)) = some (true, .ok, [4], none) := by decide

end Feign.Api
