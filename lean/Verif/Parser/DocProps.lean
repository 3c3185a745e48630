import Verif.Parser.Props

/-!
# C52: objects, lights, unsupported input and whole documents
-/

set_option linter.unusedSectionVars false
set_option linter.unusedSimpArgs false

namespace Feign.Parser

variable {F : Type} (fl : Rat → F)

/-! ### Helpers: transforms of a section -/

theorem transformOf_own {k : String} {j : Js} {c : Call F} (h : ownTransform fl (k, j) = some c) :
    transformOf fl (cstr k) j = some (Tr.emit c) ∧ cstr k ∈ ["scale", "translate", "rotate"] := by
  unfold ownTransform at h
  dsimp only at h
  split at h
  · next hk =>
    split at h
    · next x hx =>
      cases h
      obtain ⟨w, hw, e⟩ := getVec_some fl hx
      cases hw
      rw [hk]
      exact ⟨by simp [transformOf, e], by simp⟩
    · cases h
  · next hk =>
    split at h
    · next x hx =>
      cases h
      obtain ⟨w, hw, e⟩ := getVec_some fl hx
      cases hw
      rw [hk]
      exact ⟨by simp [transformOf, e], by simp⟩
    · cases h
  · next xs hk =>
    split at h
    · next a x ha hx =>
      cases h
      obtain ⟨w, hw, e⟩ := getVec_some fl hx
      cases hw
      obtain ⟨ja, ha1, ha2⟩ := Option.bind_eq_some_iff.1 ha
      rw [hk]
      exact ⟨by simp [transformOf, elem, ha1, getFloat_some fl ha2, e], by simp⟩
    · cases h
  · cases h

theorem transformOf_other {k : String} {j : Js} (h : cstr k ∉ ["scale", "translate", "rotate"]) :
    transformOf fl (cstr k) j = none ∧ ownTransform fl (k, j) = none := by
  have h1 : cstr k ≠ "scale" := fun e => h (by simp [e])
  have h2 : cstr k ≠ "translate" := fun e => h (by simp [e])
  have h3 : cstr k ≠ "rotate" := fun e => h (by simp [e])
  refine ⟨by simp [transformOf, h1, h2, h3], ?_⟩
  cases ho : ownTransform fl (k, j) with
  | none => rfl
  | some c => exact absurd (transformOf_own fl ho).2 h

theorem transformOf_bad {m : String × Js} (h : BadTransform fl m) :
    transformOf fl (cstr m.1) m.2 = some (Tr.stop .ub) := by
  obtain ⟨k, j⟩ := m
  obtain ⟨hk, ho⟩ := h
  simp only [List.mem_cons, List.not_mem_nil, or_false] at hk
  have hv : ∀ i, decode fl (.vec i) j = none ∨ ∃ x, decode fl (.vec i) j = some (.v x) := by
    intro i
    cases h : decode fl (.vec i) j with
    | none => exact Or.inl rfl
    | some x => obtain ⟨w, rfl, -⟩ := getVec_some fl h; exact Or.inr ⟨w, rfl⟩
  have hna : (∀ xs, j ≠ .arr xs) → (∀ i, decode fl (.vec i) j = none) ∧ ∀ i, elem (F := F) j i = Tr.stop .ub := by
    intro hn
    cases j
    case arr xs => exact absurd rfl (hn xs)
    all_goals exact ⟨fun _ => rfl, fun _ => rfl⟩
  by_cases ha : ∃ xs, j = .arr xs
  · obtain ⟨xs, rfl⟩ := ha
    rcases hk with hk | hk | hk
    · rcases hv 0 with h | ⟨x, h⟩
      · simp [transformOf, hk, getVec_none fl h]
      · simp [ownTransform, hk, h] at ho
    · rcases hv 0 with h | ⟨x, h⟩
      · simp [transformOf, hk, getVec_none fl h]
      · simp [ownTransform, hk, h] at ho
    · cases h0 : xs[0]? with
      | none => simp [transformOf, hk, elem, h0]
      | some j0 =>
        cases n0 : number fl j0 with
        | none => simp [transformOf, hk, elem, h0, getFloat_none fl n0]
        | some a =>
          rcases hv 1 with h | ⟨x, h⟩
          · simp [transformOf, hk, elem, h0, getFloat_some fl n0, getVec_none fl h]
          · simp [ownTransform, hk, h, h0, n0] at ho
  · obtain ⟨hd, he⟩ := hna fun xs e => ha ⟨xs, e⟩
    rcases hk with hk | hk | hk <;> simp [transformOf, hk, getVec_none fl (hd _), he]

theorem emitterMembers_ok (ms : List (String × Js)) (h : ∀ m ∈ ms, ¬ BadTransform fl m) :
    emitterMembers fl ms = ⟨ownTransforms fl ms, .ok ()⟩ := by
  induction ms with
  | nil => rfl
  | cons m ms ih =>
    obtain ⟨k, j⟩ := m
    have ih := ih fun m hm => h m (List.mem_cons_of_mem _ hm)
    by_cases hk : cstr k ∈ ["scale", "translate", "rotate"]
    · have hb := h (k, j) List.mem_cons_self
      cases ho : ownTransform fl (k, j) with
      | none => exact absurd ⟨hk, ho⟩ hb
      | some c =>
        simp only [emitterMembers, (transformOf_own fl ho).1, Tr.emit_bind, ih]
        simp [ownTransforms, ho]
    · obtain ⟨h1, h2⟩ := transformOf_other fl (j := j) hk
      simp only [emitterMembers, h1, ih]
      simp [ownTransforms, h2]

/-! ### Lights -/

/-- **C52 (lights).** A light section issues its own transforms, in order, between two clears, and one
declaration with the row's parameters. -/
theorem emitter_call (r : Row F) (hr : r ∈ emitterRows fl) (ms : List (String × Js))
    (hb : ∀ m ∈ ms, ¬ BadTransform fl m) (hm : Meets fl r (.obj ms)) :
    ∃ c, sectionOf fl "emitter" (.obj ms) =
        ⟨[.clearTransform] ++ ownTransforms fl ms ++ [c, .clearTransform], .ok ()⟩ ∧ Says fl r (.obj ms) c := by
  obtain ⟨i, hi⟩ := List.mem_iff_getElem?.1 hr
  have he := emitterMembers_ok fl ms hb
  match i, hi with
  | 0, hi => exact row_emitter_point fl ms _ he r hi hm
  | 1, hi => exact row_emitter_mesh fl ms _ he r hi hm
  | 2, hi => exact row_emitter_environment fl ms _ he r hi hm
  | 3, hi => exact row_emitter_directional fl ms _ he r hi hm
  | 4, hi => exact row_emitter_directional_mesh fl ms _ he r hi hm
  | 5, hi => exact row_emitter_spot fl ms _ he r hi hm
  | n + 6, hi => simp [emitterRows] at hi

/-! ### Objects -/

/-- The last member called `k` that is a string, or the default. -/
def lastStr (ms : List (String × Js)) (k d : String) : String :=
  match (ms.filterMap fun m => match m.2 with
      | .str s => if cstr m.1 = k then some (cstr s) else none
      | _ => none).getLast? with
  | some s => s
  | none => d

/-- The members that name other things are strings. -/
def NamesAreStrings (ms : List (String × Js)) : Prop :=
  ∀ m ∈ ms, cstr m.1 ∈ ["name", "mesh", "material_shader", "emitter"] → ∃ s, m.2 = .str s

/-- One step of `lastStr`. -/
def strOr (m : String × Js) (k d : String) : String :=
  match m.2 with
  | .str s => if cstr m.1 = k then cstr s else d
  | _ => d

theorem lastStr_nil (k d : String) : lastStr [] k d = d := rfl

theorem lastStr_cons (m : String × Js) (ms : List (String × Js)) (k d : String) :
    lastStr (m :: ms) k d = lastStr ms k (strOr m k d) := by
  unfold lastStr strOr
  obtain ⟨a, j⟩ := m
  cases j
  case str s =>
    by_cases h : cstr a = k
    · simp only [List.filterMap_cons, h, if_true]
      rw [List.getLast?_cons]
      cases (List.filterMap (fun m : String × Js => match m.2 with
        | .str s => if cstr m.1 = k then some (cstr s) else none
        | _ => none) ms).getLast? <;> rfl
    · simp only [List.filterMap_cons, h, if_false]
  all_goals rfl

theorem objectMembers_ok (ms : List (String × Js)) (o : ObjNames) (hb : ∀ m ∈ ms, ¬ BadTransform fl m)
    (hs : NamesAreStrings ms) :
    objectMembers fl o ms = ⟨ownTransforms fl ms, .ok ⟨lastStr ms "name" o.name, lastStr ms "mesh" o.mesh,
      lastStr ms "material_shader" o.shader, lastStr ms "emitter" o.emitter⟩⟩ := by
  induction ms generalizing o with
  | nil => rfl
  | cons m ms ih =>
    obtain ⟨k, j⟩ := m
    have ih := fun o => ih o (fun m hm => hb m (List.mem_cons_of_mem _ hm))
      (fun m hm => hs m (List.mem_cons_of_mem _ hm))
    simp only [lastStr_cons]
    by_cases hk : cstr k ∈ ["name", "mesh", "material_shader", "emitter"]
    · obtain ⟨s, hj⟩ := hs (k, j) List.mem_cons_self hk
      dsimp only at hj
      subst hj
      have hnt : cstr k ∉ ["scale", "translate", "rotate"] := by
        intro h
        simp only [List.mem_cons, List.not_mem_nil, or_false] at h hk
        rcases hk with hk | hk | hk | hk <;> rw [hk] at h <;> simp at h
      have hot := (transformOf_other fl (j := .str s) hnt).2
      simp only [List.mem_cons, List.not_mem_nil, or_false] at hk
      simp only [objectMembers]
      rcases hk with hk | hk | hk | hk <;>
        simp [hk, objectMember, getStr, ih, ownTransforms, hot, strOr]
    · have hne : ∀ x ∈ ["name", "mesh", "material_shader", "emitter"], cstr k ≠ x :=
        fun x hx e => hk (e ▸ hx)
      simp only [List.mem_cons, List.not_mem_nil, or_false, forall_eq_or_imp, forall_eq] at hne
      obtain ⟨n1, n2, n3, n4⟩ := hne
      have hd : ∀ (x d : String), cstr k ≠ x → strOr (k, j) x d = d := by
        intro x d hx
        cases j <;> simp [strOr, hx]
      rw [hd _ _ n1, hd _ _ n2, hd _ _ n3, hd _ _ n4]
      simp only [objectMembers, objectMember, if_neg n1, if_neg n2, if_neg n3, if_neg n4]
      by_cases ht : cstr k ∈ ["scale", "translate", "rotate"]
      · have hbm := hb (k, j) List.mem_cons_self
        cases ho : ownTransform fl (k, j) with
        | none => exact absurd ⟨ht, ho⟩ hbm
        | some c =>
          simp only [(transformOf_own fl ho).1]
          show (Tr.emit c >>= fun _ => Tr.ret o) >>= _ = _
          rw [Tr.bind_assoc']
          simp only [Tr.emit_bind, Tr.ret_bind, ih]
          simp [ownTransforms, ho]
      · obtain ⟨h1, h2⟩ := transformOf_other fl (j := j) ht
        simp only [h1, Tr.ret_bind, ih]
        simp [ownTransforms, h2]

/-- **C52 (objects).** An object section issues its own transforms, in order, between two clears, and one
object declaration; each name is the last one given, or the default. -/
theorem object_call (ms : List (String × Js)) (hb : ∀ m ∈ ms, ¬ BadTransform fl m) (hs : NamesAreStrings ms) :
    sectionOf fl "object" (.obj ms) = ⟨[.clearTransform] ++ ownTransforms fl ms ++
      [.object (lastStr ms "name" "obj") (lastStr ms "mesh" "default") (lastStr ms "material_shader" "null")
        (lastStr ms "emitter" "null"), .clearTransform], .ok ()⟩ := by
  simp only [sectionOf, reduceIte, String.reduceEq, objectSec, members, Tr.ret_bind, Tr.emit_bind,
    objectMembers_ok fl ms {} hb hs, Tr.bind_mk_ok]
  simp [Tr.emit]

/-- Non-vacuity: an object with two transforms and a name given twice. -/
example (fl : Rat → F) : sectionOf fl "object" (.obj [("name", .str "a"), ("scale", .arr [.int 1, .int 2, .int 3]),
      ("mesh", .str "m"), ("colour", .null), ("rotate", .arr [.int 90, .int 0, .int 1, .int 0]), ("name", .str "b")])
    = ⟨[.clearTransform, .scale ⟨fl 1, fl 2, fl 3⟩, .rotate (fl 90) ⟨fl 0, fl 1, fl 0⟩,
        .object "b" "m" "null" "null", .clearTransform], .ok ()⟩ := by
  have c1 : cstr "name" = "name" := by decide
  have c2 : cstr "scale" = "scale" := by decide
  have c3 : cstr "mesh" = "mesh" := by decide
  have c4 : cstr "colour" = "colour" := by decide
  have c5 : cstr "rotate" = "rotate" := by decide
  have c6 : cstr "a" = "a" := by decide
  have c7 : cstr "b" = "b" := by decide
  have c8 : cstr "m" = "m" := by decide
  have := object_call fl [("name", .str "a"), ("scale", .arr [.int 1, .int 2, .int 3]),
    ("mesh", .str "m"), ("colour", .null), ("rotate", .arr [.int 90, .int 0, .int 1, .int 0]), ("name", .str "b")]
    (by simp [BadTransform, ownTransform, decode, number, c1, c2, c3, c4, c5])
    (by simp [NamesAreStrings, c1, c2, c3, c4, c5])
  rw [this]
  simp [ownTransforms, ownTransform, lastStr, decode, number, c1, c2, c3, c4, c5, c6, c7, c8]

end Feign.Parser
