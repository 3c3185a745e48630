import Verif.Parser.DocProps

/-! # Helper lemmas about whole scene files -/

set_option linter.unusedSectionVars false
set_option linter.unusedSimpArgs false

namespace Feign.Parser

variable {F α β : Type} (fl : Rat → F)

/-- All calls made satisfy `P`. -/
def Tr.Only (P : Call F → Prop) (t : Tr F α) : Prop := ∀ c ∈ t.calls, P c

namespace Tr.Only

variable {P : Call F → Prop}

theorem ret (a : α) : (Tr.ret a : Tr F α).Only P := by simp [Tr.Only, Tr.ret]

theorem stop (e : Stop) : (Tr.stop e : Tr F α).Only P := by simp [Tr.Only, Tr.stop]

theorem emit {c : Call F} (h : P c) : (Tr.emit c).Only P := by simp [Tr.Only, Tr.emit, h]

theorem bind {t : Tr F α} {f : α → Tr F β} (ht : t.Only P) (hf : ∀ a, (f a).Only P) :
    (t >>= f).Only P := by
  obtain ⟨l, o⟩ := t
  cases o with
  | error e => exact ht
  | ok a =>
    intro c hc
    rcases List.mem_append.1 hc with hc | hc
    · exact ht c hc
    · exact hf a c hc

theorem mono {Q : Call F → Prop} {t : Tr F α} (h : t.Only P) (hpq : ∀ c, P c → Q c) : t.Only Q :=
  fun c hc => hpq c (h c hc)

end Tr.Only

theorem only_find (P : Call F → Prop) (v : Js) (k : String) : (find v k).Only P := by
  cases v <;> first | exact Tr.Only.ret _ | exact Tr.Only.stop _

theorem only_elem (P : Call F → Prop) (v : Js) (i : ℕ) : (elem v i).Only P := by
  unfold elem
  split
  · split <;> first | exact Tr.Only.ret _ | exact Tr.Only.stop _
  · exact Tr.Only.stop _

theorem only_getStr (P : Call F → Prop) (v : Js) : (getStr v).Only P := by
  cases v <;> first | exact Tr.Only.ret _ | exact Tr.Only.stop _

theorem only_getBool (P : Call F → Prop) (v : Js) : (getBool v).Only P := by
  cases v <;> first | exact Tr.Only.ret _ | exact Tr.Only.stop _

theorem only_getInt (P : Call F → Prop) (v : Js) : (getInt v).Only P := by
  unfold getInt
  split
  · split <;> first | exact Tr.Only.ret _ | exact Tr.Only.stop _
  · exact Tr.Only.stop _

theorem only_getFloat (P : Call F → Prop) (v : Js) : (getFloat fl v).Only P := by
  cases v <;> first | exact Tr.Only.ret _ | exact Tr.Only.stop _

theorem only_getVec (P : Call F → Prop) (i : ℕ) (v : Js) : (getVec fl i v).Only P :=
  .bind (only_elem _ _ _) fun _ => .bind (only_getFloat _ _ _) fun _ => .bind (only_elem _ _ _) fun _ =>
    .bind (only_getFloat _ _ _) fun _ => .bind (only_elem _ _ _) fun _ => .bind (only_getFloat _ _ _) fun _ => .ret _

theorem only_getInt2 (P : Call F → Prop) (v : Js) : (getInt2 v).Only P :=
  .bind (only_elem _ _ _) fun _ => .bind (only_getInt _ _) fun _ => .bind (only_elem _ _ _) fun _ =>
    .bind (only_getInt _ _) fun _ => .ret _

theorem only_fld (P : Call F → Prop) (v : Js) (k : String) (get : Js → Tr F α) (d : α) (h : ∀ j, (get j).Only P) :
    (fld v k get d).Only P :=
  .bind (only_find _ _ _) fun o => by
    cases o with
    | none => exact .ret _
    | some j => exact h j

theorem only_reject (P : Call F → Prop) (v : Js) (k : String) : (reject v k).Only P :=
  .bind (only_find _ _ _) fun o => by
    cases o with
    | none => exact .ret _
    | some j => exact .stop _

theorem only_getLookat (P : Call F → Prop) (v : Js) : (getLookat fl v).Only P :=
  .bind (only_getVec _ _ _ _) fun _ => .bind (only_getVec _ _ _ _) fun _ => .bind (only_getVec _ _ _ _) fun _ => .ret _

theorem only_member (P : Call F → Prop) (v : Js) (k : String) : (member v k).Only P :=
  .bind (only_find _ _ _) fun o => by
    cases o with
    | none => exact .stop _
    | some j => exact .ret _

theorem only_members (P : Call F → Prop) (v : Js) : (members v).Only P := by
  cases v <;> first | exact Tr.Only.ret _ | exact Tr.Only.stop _

/-- Closes goals about sections that only read fields and make one call. -/
macro "only_tac" : tactic => `(tactic|
  repeat' first
    | exact Tr.Only.ret _
    | exact Tr.Only.stop _
    | exact only_getStr _ _
    | exact only_getBool _ _
    | exact only_getInt _ _
    | exact only_getFloat _ _ _
    | exact only_getVec _ _ _ _
    | exact only_getInt2 _ _
    | exact only_getLookat _ _ _
    | exact only_reject _ _ _
    | exact only_member _ _ _
    | exact only_elem _ _ _
    | exact only_find _ _ _
    | refine only_fld _ _ _ _ _ (fun _ => ?_)
    | refine Tr.Only.bind ?_ (fun _ => ?_)
    | refine Tr.Only.emit ?_
    | split)

/-- A call that is neither a transform, nor an object, nor the final call. -/
def Plain (c : Call F) : Prop := c.isTransform = false ∧ c.api ≠ "object" ∧ c ≠ .flush

theorem plain_scene (v : Js) : (sceneSec (F := F) v).Only Plain := by
  unfold sceneSec; only_tac; simp [Plain, Call.isTransform, Call.api]

theorem plain_media (v : Js) : (mediaSec fl v).Only Plain := by
  unfold mediaSec; only_tac; simp [Plain, Call.isTransform, Call.api]

theorem plain_density (v : Js) : (densitySec fl v).Only Plain := by
  unfold densitySec; only_tac; simp [Plain, Call.isTransform, Call.api]

theorem plain_accel (v : Js) : (accelSec (F := F) v).Only Plain := by
  unfold accelSec; only_tac <;> simp [Plain, Call.isTransform, Call.api]

theorem plain_integrator (v : Js) : (integratorSec (F := F) v).Only Plain := by
  unfold integratorSec; only_tac <;> simp [Plain, Call.isTransform, Call.api]

theorem plain_sampler (v : Js) : (samplerSec (F := F) v).Only Plain := by
  unfold samplerSec; only_tac; simp [Plain, Call.isTransform, Call.api]

theorem plain_camera (v : Js) : (cameraSec fl v).Only Plain := by
  unfold cameraSec; only_tac; simp [Plain, Call.isTransform, Call.api]

theorem only_meshOf (P : Call F → Prop) (t : String) (b : BoundaryP) (v : Js) : (meshOf fl t b v).Only P := by
  unfold meshOf; only_tac

theorem plain_mesh (v : Js) : (meshSec fl v).Only Plain := by
  unfold meshSec
  iterate 5 refine Tr.Only.bind (only_fld _ _ _ _ _ (fun _ => by only_tac)) (fun _ => ?_)
  exact .bind (only_meshOf _ _ _ _ _) fun _ => .emit (by simp [Plain, Call.isTransform, Call.api])

theorem only_emitterOf (P : Call F → Prop) (t : String) (v : Js) : (emitterOf fl t v).Only P := by
  unfold emitterOf; only_tac

theorem plain_bsdf (v : Js) : (bsdfSec fl v).Only Plain := by
  unfold bsdfSec bsdfOf; only_tac; simp [Plain, Call.isTransform, Call.api]

theorem plain_shader (v : Js) : (shaderSec fl v).Only Plain := by
  unfold shaderSec shaderOf; only_tac; simp [Plain, Call.isTransform, Call.api]

theorem plain_texture (v : Js) : (textureSec fl v).Only Plain := by
  unfold textureSec textureScale; only_tac; simp [Plain, Call.isTransform, Call.api]

/-- Every section except objects and lights. -/
theorem plain_section {k : String} (h1 : k ≠ "object") (h2 : k ≠ "emitter") (v : Js) :
    (sectionOf fl k v).Only Plain := by
  unfold sectionOf
  simp only [if_neg h1, if_neg h2]
  repeat' split
  all_goals first
    | exact plain_scene v | exact plain_media fl v | exact plain_density fl v | exact plain_accel v
    | exact plain_integrator v | exact plain_sampler v | exact plain_camera fl v | exact plain_mesh fl v
    | exact plain_bsdf fl v | exact plain_shader fl v | exact plain_texture fl v | exact Tr.Only.stop _

/-! ### Pending transforms -/

/-- The transform commands since the last clear. -/
def pendingFrom (p : List (Call F)) : List (Call F) → List (Call F)
  | [] => p
  | c :: cs => pendingFrom (match c with
    | .clearTransform => []
    | .scale v => p ++ [.scale v]
    | .translate v => p ++ [.translate v]
    | .rotate a v => p ++ [.rotate a v]
    | _ => p) cs

theorem pendingFrom_append (p l l' : List (Call F)) :
    pendingFrom p (l ++ l') = pendingFrom (pendingFrom p l) l' := by
  induction l generalizing p with
  | nil => rfl
  | cons c l ih => exact ih _

theorem pendingFrom_none {l : List (Call F)} (h : ∀ c ∈ l, c.isTransform = false) (p : List (Call F)) :
    pendingFrom p l = p := by
  induction l with
  | nil => rfl
  | cons c l ih =>
    have hc := h c List.mem_cons_self
    have ih := ih fun c hc => h c (List.mem_cons_of_mem _ hc)
    cases c <;> simp [Call.isTransform] at hc <;> exact ih

/-- Transforms other than the clear. -/
def Moves (c : Call F) : Prop := c.isTransform = true ∧ c ≠ .clearTransform

theorem pendingFrom_moves {l : List (Call F)} (h : ∀ c ∈ l, Moves c) (p : List (Call F)) :
    pendingFrom p l = p ++ l := by
  induction l generalizing p with
  | nil => simp [pendingFrom]
  | cons c l ih =>
    obtain ⟨h1, h2⟩ := h c List.mem_cons_self
    have ih := ih fun c hc => h c (List.mem_cons_of_mem _ hc)
    cases c <;> simp [Call.isTransform] at h1 h2 <;> simp [pendingFrom, ih]

theorem moves_own {m : String × Js} {c : Call F} (h : ownTransform fl m = some c) : Moves c := by
  unfold ownTransform at h
  split at h <;> (try split at h) <;> cases h <;> exact ⟨rfl, by simp⟩

theorem moves_ownTransforms (ms : List (String × Js)) : ∀ c ∈ ownTransforms fl ms, Moves c := by
  intro c hc
  obtain ⟨m, -, h⟩ := List.mem_filterMap.1 hc
  exact moves_own fl h

theorem moves_transformOf {k : String} {j : Js} {t : Tr F Unit} (h : transformOf fl k j = some t) :
    t.Only Moves := by
  unfold transformOf at h
  split_ifs at h <;> cases h <;> only_tac <;> exact ⟨rfl, by simp⟩

theorem moves_objectMembers (ms : List (String × Js)) (o : ObjNames) : (objectMembers fl o ms).Only Moves := by
  induction ms generalizing o with
  | nil => exact .ret _
  | cons m ms ih =>
    refine Tr.Only.bind ?_ fun o' => ih o'
    unfold objectMember
    split_ifs
    iterate 4 exact .bind (only_getStr _ _) fun _ => .ret _
    split
    · next t ht => exact .bind (moves_transformOf fl ht) fun _ => .ret _
    · exact .ret _

theorem moves_emitterMembers (ms : List (String × Js)) : (emitterMembers fl ms).Only Moves := by
  induction ms with
  | nil => exact .ret _
  | cons m ms ih =>
    obtain ⟨k, j⟩ := m
    unfold emitterMembers
    split
    · next t ht => exact .bind (moves_transformOf fl ht) fun _ => ih
    · exact ih

/-- The loop over an object's members succeeds only if every member can be read. -/
theorem objectMembers_inv (ms : List (String × Js)) (o o' : ObjNames) (h : (objectMembers fl o ms).out = .ok o') :
    (∀ m ∈ ms, ¬ BadTransform fl m) ∧ NamesAreStrings ms := by
  induction ms generalizing o with
  | nil => exact ⟨by simp, by simp [NamesAreStrings]⟩
  | cons m ms ih =>
    obtain ⟨k, j⟩ := m
    obtain ⟨o1, h1, h2⟩ := Tr.bind_out_ok.1 h
    obtain ⟨i1, i2⟩ := ih o1 h2
    have hstr : ∀ (f : String → ObjNames), (getStr j >>= fun a => Tr.ret (F := F) (f a)).out = .ok o1 → ∃ s, j = .str s := by
      intro f hf
      obtain ⟨a, ha, -⟩ := Tr.bind_out_ok.1 hf
      cases j <;> simp only [getStr, Tr.stop, reduceCtorEq] at ha
      exact ⟨_, rfl⟩
    refine ⟨?_, ?_⟩
    · intro m hm
      rcases List.mem_cons.1 hm with rfl | hm
      · intro hb
        have ht := transformOf_bad fl hb
        have hk := hb.1
        unfold objectMember at h1
        dsimp only at ht hk
        rw [ht] at h1
        simp only [List.mem_cons, List.not_mem_nil, or_false] at hk
        rcases hk with hk | hk | hk <;> rw [hk] at h1 <;>
          simp only [reduceIte, String.reduceEq, Tr.stop_bind] at h1 <;> cases h1
      · exact i1 m hm
    · intro m hm hk
      rcases List.mem_cons.1 hm with rfl | hm
      · unfold objectMember at h1
        dsimp only at hk ⊢
        simp only [List.mem_cons, List.not_mem_nil, or_false] at hk
        rcases hk with hk | hk | hk | hk <;> rw [hk] at h1 <;> simp only [reduceIte, String.reduceEq] at h1 <;>
          exact hstr _ h1
      · exact i2 m hm hk

theorem emitterMembers_inv (ms : List (String × Js)) (h : (emitterMembers fl ms).out = .ok ()) :
    ∀ m ∈ ms, ¬ BadTransform fl m := by
  induction ms with
  | nil => simp
  | cons m ms ih =>
    obtain ⟨k, j⟩ := m
    intro m hm hb
    rcases List.mem_cons.1 hm with rfl | hm
    · have ht := transformOf_bad fl hb
      dsimp only at ht
      simp only [emitterMembers, ht, Tr.stop_bind] at h
      cases h
    · unfold emitterMembers at h
      split at h
      · obtain ⟨_, -, h⟩ := Tr.bind_out_ok.1 h
        exact ih h m hm hb
      · exact ih h m hm hb

/-- An object section: either it is complete, or it stops before declaring anything. -/
theorem object_cases (v : Js) :
    (∃ ms, v = .obj ms ∧ (∀ m ∈ ms, ¬ BadTransform fl m) ∧ NamesAreStrings ms) ∨
    (∃ e, (sectionOf fl "object" v).out = .error e ∧ ∀ c ∈ (sectionOf fl "object" v).calls, c.isTransform = true) := by
  cases v with
  | obj ms =>
    cases ho : (objectMembers fl {} ms).out with
    | ok o' =>
      obtain ⟨h1, h2⟩ := objectMembers_inv fl ms _ _ ho
      exact Or.inl ⟨ms, rfl, h1, h2⟩
    | error e =>
      refine Or.inr ⟨e, ?_, ?_⟩
      · simp only [sectionOf, reduceIte, String.reduceEq, objectSec, members, Tr.ret_bind, Tr.emit_bind]
        generalize hg : objectMembers fl {} ms = g at ho
        obtain ⟨l, o⟩ := g
        cases ho
        rfl
      · simp only [sectionOf, reduceIte, String.reduceEq, objectSec, members, Tr.ret_bind, Tr.emit_bind]
        have hmv := moves_objectMembers fl ms {}
        generalize hg : objectMembers fl {} ms = g at ho hmv
        obtain ⟨l, o⟩ := g
        cases ho
        intro c hc
        rcases List.mem_cons.1 hc with rfl | hc
        · rfl
        · exact (hmv c hc).1
  | _ =>
    refine Or.inr ⟨.ub, rfl, ?_⟩
    intro c hc
    rcases List.mem_cons.1 hc with rfl | hc
    · rfl
    · cases hc

/-- A light section: the calls before the declaration are transforms; if it ends well it ends with a clear;
it declares no object or camera and never makes the final call. -/
theorem emitter_shape (v : Js) :
    (∀ c ∈ (sectionOf fl "emitter" v).calls, c.api ≠ "object" ∧ c.api ≠ "camera" ∧ c ≠ .flush) ∧
    ((sectionOf fl "emitter" v).out = .ok () →
      ∀ p, pendingFrom p (sectionOf fl "emitter" v).calls = []) := by
  have hmv : ∀ c : Call F, Moves c → c.api ≠ "object" ∧ c.api ≠ "camera" ∧ c ≠ .flush := by
    intro c ⟨h1, h2⟩
    cases c <;> simp [Call.isTransform] at h1 <;> simp [Call.api]
  simp only [sectionOf, reduceIte, String.reduceEq]
  constructor
  · show (emitterSec fl v).Only _
    unfold emitterSec
    refine .bind (only_fld _ _ _ _ _ fun _ => only_getStr _ _) fun _ => ?_
    refine .bind (only_fld _ _ _ _ _ fun _ => only_getStr _ _) fun _ => ?_
    refine .bind (.emit (by simp [Call.api])) fun _ => ?_
    refine .bind (only_members _ _) fun _ => ?_
    refine .bind ((moves_emitterMembers fl _).mono hmv) fun _ => ?_
    refine .bind (only_emitterOf _ _ _ _) fun _ => ?_
    exact .bind (.emit (by simp [Call.api])) fun _ => .emit (by simp [Call.api])
  · intro ho p
    unfold emitterSec at ho ⊢
    obtain ⟨a0, h0, ho⟩ := Tr.bind_out_ok.1 ho
    rw [Tr.bind_calls_ok h0]
    obtain ⟨a1, h1, ho⟩ := Tr.bind_out_ok.1 ho
    rw [Tr.bind_calls_ok h1]
    obtain ⟨a2, h2, ho⟩ := Tr.bind_out_ok.1 ho
    rw [Tr.bind_calls_ok h2]
    obtain ⟨a3, h3, ho⟩ := Tr.bind_out_ok.1 ho
    rw [Tr.bind_calls_ok h3]
    obtain ⟨a4, h4, ho⟩ := Tr.bind_out_ok.1 ho
    rw [Tr.bind_calls_ok h4]
    obtain ⟨a5, h5, ho⟩ := Tr.bind_out_ok.1 ho
    rw [Tr.bind_calls_ok h5]
    simp only [pendingFrom_append]
    rfl

end Feign.Parser
