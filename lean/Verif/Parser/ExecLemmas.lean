import Verif.Parser.ExecSpec
import Verif.Parser.TraceProps
import Verif.Api.CommuteProps

/-! # Helper lemmas about running scene files -/

set_option linter.unusedSectionVars false
set_option linter.unusedSimpArgs false
set_option linter.unusedVariables false

namespace Feign.Parser

open Api (Key Kind ADef ANode AScene Desc ref fresh closure reserved Eff eff Inv St)

variable {F T : Type} (fl : Rat → F) (m : Xf F T)

/-! ### Running calls, by names -/

theorem exec_ok : ∀ (cs : List (Call F)) {s s' : St (Call F) T}, Inv s → exec m s cs = some (.ok, s') →
    s.view.accepts (cs.filterMap (toApi m)) = some s'.view
  | [], s, s', _, h => by
    simp only [exec, Option.some.injEq, Prod.mk.injEq, true_and] at h
    subst h; rfl
  | c :: cs, s, s', hI, h => by
    unfold exec at h
    cases ha : toApi m c with
    | none =>
      rw [ha] at h
      simp only [List.filterMap_cons, ha]
      exact exec_ok cs hI h
    | some a =>
      rw [ha] at h
      simp only [List.filterMap_cons, ha]
      obtain ⟨⟨o, s1⟩, hs, h1, h2⟩ := Api.step_view hI a
      simp only [hs] at h
      dsimp only at h1 h2
      cases o <;> simp only [Option.some.injEq, Prod.mk.injEq, reduceCtorEq, false_and] at h
      unfold Api.Desc.accepts
      rw [if_pos h1.symm, ← h2]
      exact exec_ok cs (Api.step_keeps true hI a hs).1 h

theorem ok_exec : ∀ (cs : List (Call F)) {s : St (Call F) T} {a}, Inv s →
    s.view.accepts (cs.filterMap (toApi m)) = some a → ∃ s', exec m s cs = some (.ok, s') ∧ s'.view = a
  | [], s, a, _, h => by
    simp only [List.filterMap_nil, Api.Desc.accepts, Option.some.injEq] at h
    exact ⟨s, rfl, h⟩
  | c :: cs, s, b, hI, h => by
    unfold exec
    cases ha : toApi m c with
    | none =>
      simp only [List.filterMap_cons, ha] at h
      exact ok_exec cs hI h
    | some a =>
      simp only [List.filterMap_cons, ha] at h
      obtain ⟨⟨o, s1⟩, hs, h1, h2⟩ := Api.step_view hI a
      unfold Api.Desc.accepts at h
      split_ifs at h with ho
      dsimp only at h1 h2
      rw [← h1] at ho
      rw [← h2] at h
      subst ho
      simp only [hs]
      exact ok_exec cs (Api.step_keeps true hI a hs).1 h

theorem exec_total : ∀ (cs : List (Call F)) {s : St (Call F) T}, Inv s → (exec m s cs).isSome
  | [], s, _ => rfl
  | c :: cs, s, hI => by
    unfold exec
    cases ha : toApi m c with
    | none => exact exec_total cs hI
    | some a =>
      obtain ⟨⟨o, s1⟩, hs, -⟩ := Api.step_view hI a
      simp only [hs]
      cases o
      · exact exec_total cs (Api.step_keeps true hI a hs).1
      all_goals rfl

theorem accepts_append {D : Type} (a : Desc D T) (l l' : List (Api.Call D T)) :
    a.accepts (l ++ l') = (a.accepts l).bind fun b => b.accepts l' := by
  induction l generalizing a with
  | nil => rfl
  | cons c l ih =>
    show (if (a.step c).1 = .ok then (a.step c).2.accepts (l ++ l') else none) =
      (if (a.step c).1 = .ok then (a.step c).2.accepts l else none).bind fun b => b.accepts l'
    split_ifs
    · exact ih _
    · rfl

/-! ### What the parser's calls look like -/

/-- The type fits the parameter block. -/
def Good : Call F → Prop
  | .density _ t _ _ => t = "sphere"
  | .accel _ t _ => t = "light_naive" ∨ t = "light_spatial"
  | .sampler _ t _ _ => t = "independent"
  | .camera _ t _ => t = "perspective"
  | .mesh _ t p => t = p.type
  | .emitter _ t p => t = p.type
  | .bsdf _ t p => t = p.type
  | .shader _ t p => t = p.type
  | .texture _ t _ _ => t = "image"
  | _ => True

theorem only_bind_ok {α β : Type} {P : Call F → Prop} {t : Tr F α} {f : α → Tr F β} (ht : t.Only P)
    (hf : ∀ a, t.out = .ok a → (f a).Only P) : (t >>= f).Only P := by
  obtain ⟨l, o⟩ := t
  cases o with
  | error e => exact ht
  | ok a =>
    intro c hc
    rcases List.mem_append.1 hc with hc | hc
    · exact ht c hc
    · exact hf a rfl c hc

/-- What a successful reader returns. -/
def Tr.Gives {α : Type} (t : Tr F α) (P : α → Prop) : Prop := ∀ a, t.out = .ok a → P a

theorem Tr.Gives.ret {α : Type} {P : α → Prop} {a : α} (h : P a) : (Tr.ret a : Tr F α).Gives P := by
  intro b hb
  cases hb
  exact h

theorem Tr.Gives.bind {α β : Type} {t : Tr F α} {f : α → Tr F β} {P : β → Prop} (h : ∀ a, (f a).Gives P) :
    (t >>= f).Gives P := by
  intro b hb
  obtain ⟨a, -, h2⟩ := Tr.bind_out_ok.1 hb
  exact h a b h2

theorem Tr.Gives.stop {α : Type} {P : α → Prop} (e : Stop) : (Tr.stop e : Tr F α).Gives P := by
  intro b hb; cases hb

theorem meshOf_type (t : String) (b : BoundaryP) (v : Js) : (meshOf fl t b v).Gives fun p => t = p.type := by
  unfold meshOf
  split_ifs <;> repeat' first
    | exact .ret (by simp [MeshP.type, *])
    | exact .stop _
    | refine .bind fun _ => ?_

theorem emitterOf_type (t : String) (v : Js) : (emitterOf fl t v).Gives fun p => t = p.type := by
  unfold emitterOf
  split_ifs <;> repeat' first
    | exact .ret (by simp [EmitterP.type, *])
    | exact .stop _
    | refine .bind fun _ => ?_

theorem bsdfOf_type (t : String) (v : Js) : (bsdfOf fl t v).Gives fun p => t = p.type := by
  unfold bsdfOf
  split_ifs <;> repeat' first
    | exact .ret (by simp [BsdfP.type, *])
    | exact .stop _
    | refine .bind fun _ => ?_

theorem shaderOf_type (t : String) (v : Js) : (shaderOf fl t v).Gives fun p => t = p.type := by
  unfold shaderOf
  split_ifs <;> repeat' first
    | exact .ret (by simp [ShaderP.type, *])
    | exact .stop _
    | refine .bind fun _ => ?_

/-- No call. -/
theorem only_none {α : Type} {t : Tr F α} (h : t.Only fun _ => False) : t.calls = [] := by
  cases hc : t.calls with
  | nil => rfl
  | cons c l => exact (h c (by rw [hc]; simp)).elim

/-- A section without transforms makes at most one call. -/
def Tr.Single (P : Call F → Prop) (t : Tr F Unit) : Prop :=
  t.out = .ok () → t.calls = [] ∨ ∃ c, t.calls = [c] ∧ P c

theorem Tr.Single.emit {P : Call F → Prop} {c : Call F} (h : P c) : (Tr.emit c).Single P :=
  fun _ => Or.inr ⟨c, rfl, h⟩

theorem Tr.Single.ret {P : Call F → Prop} : (Tr.ret () : Tr F Unit).Single P := fun _ => Or.inl rfl

theorem Tr.Single.stop {P : Call F → Prop} (e : Stop) : (Tr.stop e : Tr F Unit).Single P := by
  intro h; cases h

theorem Tr.Single.bind {α : Type} {P : Call F → Prop} {t : Tr F α} {f : α → Tr F Unit} (ht : t.Only fun _ => False)
    (hf : ∀ a, t.out = .ok a → (f a).Single P) : (t >>= f).Single P := by
  intro ho
  obtain ⟨a, h1, h2⟩ := Tr.bind_out_ok.1 ho
  rw [Tr.bind_calls_ok h1, only_none ht, List.nil_append]
  exact hf a h1 h2

/-- A call that declares something (or sets the accelerator), with fitting type. -/
def Decl (c : Call F) : Prop := c.isTransform = false ∧ c ≠ .flush ∧ Good c

macro "single_tac" : tactic => `(tactic| repeat' first
    | exact Tr.Single.ret
    | exact Tr.Single.stop _
    | refine Tr.Single.bind (only_fld _ _ _ _ _ fun _ => only_getStr _ _) (fun _ _ => ?_)
    | refine Tr.Single.bind (only_fld _ _ _ _ _ fun _ => only_getBool _ _) (fun _ _ => ?_)
    | refine Tr.Single.bind (only_fld _ _ _ _ _ fun _ => only_getInt _ _) (fun _ _ => ?_)
    | refine Tr.Single.bind (only_fld _ _ _ _ _ fun _ => only_getFloat _ _ _) (fun _ _ => ?_)
    | refine Tr.Single.bind (only_fld _ _ _ _ _ fun _ => only_getLookat _ _ _) (fun _ _ => ?_)
    | refine Tr.Single.bind (only_reject _ _ _) (fun _ _ => ?_)
    | refine Tr.Single.emit ?_
    | split)

theorem single_scene (v : Js) : (sceneSec (F := F) v).Single Decl := by
  unfold sceneSec; single_tac; simp [Decl, Call.isTransform, Good]
theorem single_media (v : Js) : (mediaSec fl v).Single Decl := by
  unfold mediaSec; single_tac; simp [Decl, Call.isTransform, Good]
theorem single_density (v : Js) : (densitySec fl v).Single Decl := by
  unfold densitySec; single_tac; simpa [Decl, Call.isTransform, Good]
theorem single_accel (v : Js) : (accelSec (F := F) v).Single Decl := by
  unfold accelSec; single_tac <;> simp [Decl, Call.isTransform, Good, *]
theorem single_integrator (v : Js) : (integratorSec (F := F) v).Single Decl := by
  unfold integratorSec; single_tac <;> simp [Decl, Call.isTransform, Good]
theorem single_sampler (v : Js) : (samplerSec (F := F) v).Single Decl := by
  unfold samplerSec; single_tac; simpa [Decl, Call.isTransform, Good]
theorem single_camera (v : Js) : (cameraSec fl v).Single Decl := by
  unfold cameraSec; single_tac; simpa [Decl, Call.isTransform, Good]
theorem single_mesh (v : Js) : (meshSec fl v).Single Decl := by
  unfold meshSec
  single_tac
  exact .bind (only_meshOf _ _ _ _ _) fun p hp => .emit
      (by simpa [Decl, Call.isTransform, Good] using meshOf_type _ _ _ _ p hp)
theorem single_bsdf (v : Js) : (bsdfSec fl v).Single Decl := by
  unfold bsdfSec
  single_tac
  exact .bind (by unfold bsdfOf; only_tac) fun p hp => .emit
      (by simpa [Decl, Call.isTransform, Good] using bsdfOf_type _ _ _ p hp)
theorem single_shader (v : Js) : (shaderSec fl v).Single Decl := by
  unfold shaderSec
  single_tac
  exact .bind (by unfold shaderOf; only_tac) fun p hp => .emit
      (by simpa [Decl, Call.isTransform, Good] using shaderOf_type _ _ _ p hp)
theorem single_texture (v : Js) : (textureSec fl v).Single Decl := by
  unfold textureSec
  single_tac
  exact .bind (by unfold textureScale; only_tac) fun p hp => .emit (by simpa [Decl, Call.isTransform, Good])

theorem single_section {k : String} (h1 : k ≠ "object") (h2 : k ≠ "emitter") (v : Js) :
    (sectionOf fl k v).Single Decl := by
  unfold sectionOf
  simp only [if_neg h1, if_neg h2]
  repeat' split
  · exact single_scene v
  · exact single_media fl v
  · exact single_density fl v
  · exact single_accel v
  · exact single_integrator v
  · exact single_sampler v
  · exact single_camera fl v
  · exact single_mesh fl v
  · exact single_bsdf fl v
  · exact single_shader fl v
  · exact single_texture fl v
  · exact .stop _

/-- A section that ends well: no call; or a single declaration; or transforms, a declaration and a clear. -/
theorem section_shape (k : String) (v : Js) (ho : (sectionOf fl k v).out = .ok ()) :
    (sectionOf fl k v).calls = [] ∨
    ∃ tr c tr', (sectionOf fl k v).calls = tr ++ c :: tr' ∧ (∀ t ∈ tr, t.isTransform = true) ∧ Decl c ∧
      (tr = [] ∧ tr' = [] ∨ tr' = [.clearTransform] ∧ (c.api = "object" ∨ c.api = "emitter")) := by
  by_cases h1 : k = "object"
  · subst h1
    rcases object_cases fl v with ⟨ms, rfl, hb, hs⟩ | ⟨e, he, hc⟩
    · rw [object_call fl ms hb hs]
      refine Or.inr ⟨[.clearTransform] ++ ownTransforms fl ms, _, [.clearTransform], rfl, ?_, ?_, Or.inr ⟨rfl, Or.inl rfl⟩⟩
      · intro t ht
        rcases List.mem_append.1 ht with ht | ht
        · simp only [List.mem_singleton] at ht; subst ht; rfl
        · exact (moves_ownTransforms fl ms t ht).1
      · simp [Decl, Call.isTransform, Good]
    · rw [he] at ho; cases ho
  · by_cases h2 : k = "emitter"
    · subst h2
      right
      have hk : sectionOf fl "emitter" v = emitterSec fl v := by
        simp [sectionOf]
      rw [hk] at ho ⊢
      unfold emitterSec at ho ⊢
      obtain ⟨a0, h0, ho⟩ := Tr.bind_out_ok.1 ho
      rw [Tr.bind_calls_ok h0, only_none (only_fld _ _ _ _ _ fun _ => only_getStr _ _)]
      obtain ⟨a1, h1, ho⟩ := Tr.bind_out_ok.1 ho
      rw [Tr.bind_calls_ok h1, only_none (only_fld _ _ _ _ _ fun _ => only_getStr _ _)]
      obtain ⟨a2, h2, ho⟩ := Tr.bind_out_ok.1 ho
      rw [Tr.bind_calls_ok h2]
      obtain ⟨a3, h3, ho⟩ := Tr.bind_out_ok.1 ho
      rw [Tr.bind_calls_ok h3, only_none (only_members _ _)]
      obtain ⟨a4, h4, ho⟩ := Tr.bind_out_ok.1 ho
      rw [Tr.bind_calls_ok h4]
      obtain ⟨a5, h5, ho⟩ := Tr.bind_out_ok.1 ho
      rw [Tr.bind_calls_ok h5, only_none (only_emitterOf _ _ _ _)]
      refine ⟨.clearTransform :: (emitterMembers fl a3).calls, .emitter a0 a1 a5, [.clearTransform], ?_, ?_, ?_,
        Or.inr ⟨rfl, Or.inr rfl⟩⟩
      · show [] ++ ([] ++ ([.clearTransform] ++ ([] ++ ((emitterMembers fl a3).calls ++ ([] ++
          [Call.emitter a0 a1 a5, .clearTransform]))))) = _
        simp
      · intro t ht
        rcases List.mem_cons.1 ht with rfl | ht
        · rfl
        · exact (moves_emitterMembers fl a3 t ht).1
      · simpa [Decl, Call.isTransform, Good] using emitterOf_type fl a1 v a5 h5
    · rcases single_section fl h1 h2 v ho with h | ⟨c, h, hc⟩
      · exact Or.inl h
      · exact Or.inr ⟨[], c, [], h, by simp, hc, Or.inl ⟨rfl, rfl⟩⟩

end Feign.Parser
