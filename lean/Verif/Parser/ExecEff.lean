import Verif.Parser.ExecLemmas
import Mathlib.Tactic.Tauto

/-! # Helper lemmas: declarations of a scene file, by names -/

set_option linter.unusedSectionVars false
set_option linter.unusedSimpArgs false
set_option linter.unusedVariables false

namespace Feign.Parser

open Api (Key Kind ADef ANode AScene Desc ref fresh closure reserved Eff eff Inv St)

variable {F T : Type} (fl : Rat → F) (m : Xf F T)

/-! ### Declarations as effects -/

theorem boundary_media (b : BoundaryP) : Api.boundary b.inside b.outside = b.media := by
  unfold Api.boundary BoundaryP.media
  by_cases h : b.inside = "null" ∧ b.outside = "null"
  · rw [if_pos h, if_neg (by tauto)]
  · rw [if_neg h, if_pos (by tauto)]

theorem key_eff {c : Call F} {k : Key} (hg : Good c) (hk : c.key = some k)
    (hi : c.api = "integrator" → c.type ∈ integratorTypes) :
    ∃ a e, toApi m c = some a ∧ eff a = some e ∧ e.target = k ∧ e.names = c.uses ∧
      (∀ x, e.defn x = some (built x c)) ∧ e.owns = c.carried.map (fun n => (Kind.emitter, n)) ∧
      (e.light = true ↔ c.api = "emitter") := by
  cases c
  case mesh n t p =>
    simp only [Call.key, Option.some.injEq] at hk; subst hk
    simp only [Good] at hg; subst hg
    cases p <;>
      simp [toApi, eff, Api.decl?, Api.acc, MeshP.type, MeshP.names, MeshP.uses, Call.uses, built, Call.type, Call.carried,
        Call.api, boundary_media]
  case emitter n t p =>
    simp only [Call.key, Option.some.injEq] at hk; subst hk
    simp only [Good] at hg; subst hg
    cases p <;>
      simp [toApi, eff, Api.decl?, Api.acc, EmitterP.type, EmitterP.texture, Call.uses, built, Call.type, Call.carried,
        Call.api]
  case bsdf n t p =>
    simp only [Call.key, Option.some.injEq] at hk; subst hk
    simp only [Good] at hg; subst hg
    cases p <;>
      simp [toApi, eff, Api.decl?, Api.acc, BsdfP.type, Call.uses, built, Call.type, Call.carried, Call.api]
  case shader n t p =>
    simp only [Good] at hg; subst hg
    cases p <;> simp only [Call.key, Option.some.injEq] at hk <;> subst hk <;>
      simp [toApi, eff, Api.decl?, Api.acc, ShaderP.type, ShaderP.bsdf, Call.uses, built, Call.type, Call.carried,
        Call.api]
  case integrator n t f p ph =>
    simp only [Call.key, Option.some.injEq] at hk; subst hk
    have hi := hi rfl
    simp only [Call.type] at hi
    have hv : Api.acc integratorTypes t = .ok := by unfold Api.acc; rw [if_pos hi]
    unfold integratorTypes at hv
    simp [toApi, eff, Api.decl?, hv, Call.uses, built, Call.type, Call.carried, Call.api]
  case object n me sh e =>
    simp only [Call.key, Option.some.injEq] at hk; subst hk
    by_cases he : e = "null" ∨ e = ""
    · have he' : ¬ (e ≠ "null" ∧ e ≠ "") := by tauto
      simp [toApi, eff, Api.objName, Call.uses, built, Call.type, Call.carried, Call.api, he, he']
    · have he' : e ≠ "null" ∧ e ≠ "" := by tauto
      simp [toApi, eff, Api.objName, Call.uses, built, Call.type, Call.carried, Call.api, he, he']
  all_goals
    simp only [Call.key, Option.some.injEq, reduceCtorEq] at hk <;> subst hk <;>
    simp only [Good] at hg <;> try subst hg
  all_goals
    simp [toApi, eff, Api.decl?, Api.acc, Call.uses, built, Call.type, Call.carried, Call.api]

/-! ### Descriptions, one declaration after the other -/

theorem closure_talks (l : List (Entry F T)) (p : Entry F T) :
    closure (talksOf (l ++ [p])) = closure (talksOf l) ++ closure (p.2.key.toList ++ p.2.uses) := by
  simp [talksOf, Api.closure_append]

theorem definedAs_append (l : List (Entry F T)) (p : Entry F T) (k : Key) :
    definedAs (l ++ [p]) k = (definedAs l k).or (if p.2.key = some k then some (built p.1 p.2) else none) := by
  simp [definedAs, List.findSome?_append]

theorem ownerOf_append (l : List (Entry F T)) (p : Entry F T) (k : Key) :
    ownerOf (l ++ [p]) k =
      (if p.2.carried.map (fun e => (Kind.emitter, e)) = some k then p.2.key else none).or (ownerOf l k) := by
  simp only [ownerOf, List.reverse_append, List.reverse_cons, List.reverse_nil, List.nil_append, List.cons_append,
    List.findSome?_cons]
  cases (if p.2.carried.map (fun e => (Kind.emitter, e)) = some k then p.2.key else none) <;> rfl

theorem definedAs_none {l : List (Entry F T)} {k : Key} : definedAs l k = none ↔ ∀ p ∈ l, p.2.key ≠ some k := by
  simp [definedAs, List.findSome?_eq_none_iff]

theorem talks_key {l : List (Entry F T)} {p : Entry F T} {k : Key} (hp : p ∈ l) (hk : p.2.key = some k) :
    k ∈ closure (talksOf l) := by
  refine Api.mem_closure_self _ _ (List.mem_flatMap.2 ⟨p, hp, ?_⟩)
  simp [hk]

theorem talks_carried {l : List (Entry F T)} {p : Entry F T} {k : Key} (hp : p ∈ l)
    (hk : p.2.carried.map (fun e => (Kind.emitter, e)) = some k) : k ∈ closure (talksOf l) := by
  refine Api.mem_closure_self _ _ (List.mem_flatMap.2 ⟨p, hp, ?_⟩)
  obtain ⟨x, c⟩ := p
  cases c <;> simp only [Call.carried, Option.map_none, reduceCtorEq] at hk
  split_ifs at hk with h
  · cases hk
  · simp only [Option.map_some, Option.some.injEq] at hk
    subst hk
    simp [Call.uses, h]

theorem ownerOf_none {l : List (Entry F T)} {k : Key}
    (h : ∀ p ∈ l, p.2.carried.map (fun e => (Kind.emitter, e)) ≠ some k) : ownerOf l k = none := by
  simp only [ownerOf, List.findSome?_eq_none_iff, List.mem_reverse]
  intro p hp
  rw [if_neg (h p hp)]

theorem describe_clean (x : T) (l : List (Entry F T)) : (describe x l).clean := by
  intro k hr
  simp [describe, hr]

theorem describe_undef (x : T) (l : List (Entry F T)) {k : Key} (hr : reserved k.1 k.2 = false) :
    (describe x l).undef k ↔ (fresh k : ANode (Call F) T).payload = none ∧ ∀ p ∈ l, p.2.key ≠ some k := by
  unfold Api.Desc.undef
  simp only [describe, hr, and_true]
  by_cases hk : k ∈ closure (talksOf l)
  · rw [if_pos hk]
    simp only [Option.some_or, Option.some.injEq, forall_eq', Option.or_eq_none_iff, definedAs_none]
    exact and_comm
  · rw [if_neg hk]
    simp only [Option.none_or, Option.some.injEq, forall_eq']
    exact ⟨fun h => ⟨h, fun p hp e => hk (talks_key hp e)⟩, fun h => h.1⟩

/-- Declaring something new. -/
theorem describe_apply {x : T} {l : List (Entry F T)} {c : Call F} {k : Key} {e : Eff (Call F) T} (hk : c.key = some k)
    (ht : e.target = k) (hn : e.names = c.uses) (hd : ∀ y, e.defn y = some (built y c))
    (ho : e.owns = c.carried.map (fun n => (Kind.emitter, n))) (hl : e.light = true ↔ c.api = "emitter")
    (hs : settings c = none) (hm : modeOf c = none) (ha : accelOf c = none)
    (hnew : ∀ p ∈ l, p.2.key ≠ some k) :
    (describe x l).apply e = describe x (l ++ [(x, c)]) := by
  unfold Api.Desc.apply
  ext1
  · funext q
    simp only [describe]
    have hT : (q ∈ closure (talksOf (l ++ [(x, c)])) ∧ reserved q.1 q.2 = false) ↔
        (q ∈ closure (talksOf l) ∧ reserved q.1 q.2 = false) ∨ e.touches q := by
      unfold Eff.touches
      rw [closure_talks, ht, hn]
      simp only [hk, Option.toList_some, List.cons_append, List.nil_append, List.mem_append]
      tauto
    have hP : ∀ pl : Option (ADef (Call F) T), (definedAs l q).or pl = pl ∨ q ≠ k := by
      intro pl
      by_cases hq : q = k
      · subst hq
        left
        rw [definedAs_none.2 hnew]; rfl
      · exact Or.inr hq
    have hon : ∀ n : ANode (Call F) T, e.on x q n =
        ⟨if k = q then some (built x c) else n.payload,
          if c.carried.map (fun n => (Kind.emitter, n)) = some q then some k else n.owner⟩ := by
      intro n
      unfold Eff.on
      rw [ht, ho, hd]
      by_cases hq : q = k
      · subst hq; simp
      · have : k ≠ q := fun h => hq h.symm
        simp [hq, this]
    have hnode : ∀ pl ow, (definedAs l q = none → pl = none ∨ True) → 
        e.on x q ⟨(definedAs l q).or pl, ow⟩ =
        ⟨(definedAs (l ++ [(x, c)]) q).or pl,
          (if c.carried.map (fun n => (Kind.emitter, n)) = some q then some k else none).or ow⟩ := by
      intro pl ow _
      rw [hon, definedAs_append, hk]
      congr 1
      · by_cases hq : k = q
        · subst hq
          rw [definedAs_none.2 hnew]
          simp
        · simp [hq]
      · split_ifs <;> rfl
    rw [ownerOf_append, hk]
    by_cases h1 : q ∈ closure (talksOf l) ∧ reserved q.1 q.2 = false
    · rw [if_pos h1, if_pos (hT.2 (Or.inl h1))]
      simp only [Option.some_or, Option.map_some]
      rw [hnode _ _ (fun _ => Or.inr trivial)]
    · rw [if_neg h1]
      by_cases h2 : e.touches q
      · rw [if_pos (hT.2 (Or.inr h2)), if_pos h2]
        simp only [Option.none_or, Option.map_some]
        have hdn : definedAs l q = none := by
          rw [definedAs_none]
          intro p hp hpk
          exact h1 ⟨talks_key hp hpk, h2.2⟩
        have hown : ownerOf l q = none := ownerOf_none fun p hp hpk => h1 ⟨talks_carried hp hpk, h2.2⟩
        have := hnode (fresh q).payload none (fun _ => Or.inr trivial)
        rw [hdn, Option.none_or] at this
        rw [hown, ← this]
        congr 1
        have hf : (fresh q : ANode (Call F) T) = ⟨(fresh q : ANode (Call F) T).payload, none⟩ := by
          rw [← Api.fresh_owner (D := Call F) (T := T) q]
        rw [← hf]
      · rw [if_neg h2, if_neg (fun h => (hT.1 h).elim h1 h2)]
        rfl
  · simp [describe, List.findSome?_append, hs]
  · simp only [describe, List.filterMap_append, List.filterMap_cons, List.filterMap_nil]
    by_cases h : e.light = true
    · rw [if_pos h, if_pos (hl.1 h), hk, ht]
    · rw [if_neg h, if_neg (fun h' => h (hl.2 h'))]
      simp
  · simp [describe, ha, List.findSome?_cons]
  · simp [describe, List.findSome?_append, hm]
  · rfl
  · rfl

/-! ### One section -/

theorem describe_cur (x y : T) (l : List (Entry F T)) : ({ describe x l with cur := y } : Desc (Call F) T) = describe y l := rfl

theorem accepts_transforms : ∀ (tr : List (Call F)) (x : T) (l : List (Entry F T)), (∀ t ∈ tr, t.isTransform = true) →
    (describe x l).accepts (tr.filterMap (toApi m)) = some (describe (tr.foldl m.act x) l)
  | [], x, l, _ => rfl
  | t :: tr, x, l, h => by
    have ht := h t List.mem_cons_self
    have ih := accepts_transforms tr (m.act x t) l fun t ht => h t (List.mem_cons_of_mem _ ht)
    have hta : toApi m t = some (.transform fun y => m.act y t) := by
      cases t <;> simp [Call.isTransform] at ht <;> rfl
    simp only [List.filterMap_cons, hta, List.foldl_cons]
    exact ih

/-- Names that are taken are those standing for nothing and those with a definition from the start. -/
theorem taken_iff {c : Call F} {k : Key} (hk : c.key = some k) :
    k ∉ takenNames ↔ reserved k.1 k.2 = false ∧ (fresh k : ANode (Call F) T).payload = none := by
  cases c <;> simp only [Call.key, reduceCtorEq] at hk
  case shader n t p =>
    cases p <;> simp only [Call.key, Option.some.injEq] at hk <;> subst hk
    · simp [takenNames, reserved, fresh, Api.predefined]
    · by_cases hn : n = "default" <;> simp [takenNames, reserved, fresh, Api.predefined, hn]
  case bsdf n t p =>
    simp only [Option.some.injEq] at hk; subst hk
    by_cases hn : n = "default"
    · subst hn; simp [takenNames, reserved, fresh, Api.predefined]
    · simp only [takenNames, reserved, fresh, Api.predefined]
      simp [hn]
  all_goals
    simp only [Option.some.injEq] at hk; subst hk
    simp [takenNames, reserved, fresh, Api.predefined]

theorem scene_isSome (x : T) (l : List (Entry F T)) :
    (describe x l).scene.isSome = true ↔ ∃ p ∈ l, p.2.api = "scene" := by
  simp only [describe, List.findSome?_isSome_iff]
  constructor <;> rintro ⟨p, hp, h⟩ <;> refine ⟨p, hp, ?_⟩ <;> obtain ⟨y, c⟩ := p <;> cases c <;>
    simp [settings, Call.api] at h ⊢

/-- Names for the declaration of a section. -/
theorem decl_cases {c : Call F} (hd : Decl c) : (∃ k, c.key = some k) ∧ c.api ≠ "scene" ∧ c.api ≠ "accel" ∧
      settings c = none ∧ modeOf c = none ∧ accelOf c = none ∨
    (∃ n i s cam med kw ds sdf, c = .scene n i s cam med kw ds sdf) ∨
    ∃ n t cells, c = .accel n t cells ∧ (t = "light_naive" ∨ t = "light_spatial") := by
  obtain ⟨h1, h2, h3⟩ := hd
  cases c <;> simp [Call.isTransform] at h1 h2
  case scene => exact Or.inr (Or.inl ⟨_, _, _, _, _, _, _, _, rfl⟩)
  case accel => exact Or.inr (Or.inr ⟨_, _, _, rfl, h3⟩)
  case shader n t p =>
    left
    cases p <;> exact ⟨⟨_, rfl⟩, by simp [Call.api], by simp [Call.api], rfl, rfl, rfl⟩
  all_goals
    left
    exact ⟨⟨_, rfl⟩, by simp [Call.api], by simp [Call.api], rfl, rfl, rfl⟩

/-- Declaring something without a name of its own. -/
theorem entry_unnamed (x : T) (l : List (Entry F T)) {c : Call F} (hk : c.key = none) (hc : c.carried = none) :
    (describe x (l ++ [(x, c)])).entry = ((describe x l).mention c.uses).entry := by
  funext q
  simp only [describe, Api.Desc.mention]
  have h1 : definedAs (l ++ [(x, c)]) q = definedAs l q := by simp [definedAs_append, hk]
  have h2 : ownerOf (l ++ [(x, c)]) q = ownerOf l q := by simp [ownerOf_append, hc]
  have h3 : q ∈ closure (talksOf (l ++ [(x, c)])) ↔ q ∈ closure (talksOf l) ∨ q ∈ closure c.uses := by
    rw [closure_talks, hk]; simp
  rw [h1, h2]
  by_cases hr : reserved q.1 q.2 = false
  · simp only [hr, and_true]
    by_cases ha : q ∈ closure (talksOf l)
    · rw [if_pos ha, if_pos (h3.2 (Or.inl ha))]; rfl
    · rw [if_neg ha, Option.none_or]
      by_cases hb : q ∈ closure c.uses
      · rw [if_pos hb, if_pos (h3.2 (Or.inr hb))]
        have hdn : definedAs l q = none := definedAs_none.2 fun p hp e => ha (talks_key hp e)
        have hown : ownerOf l q = none := ownerOf_none fun p hp e => ha (talks_carried hp e)
        rw [hdn, hown, Option.none_or, ← Api.fresh_owner (D := Call F) (T := T) q]
      · rw [if_neg hb, if_neg (fun h => (h3.1 h).elim ha hb)]
  · simp [hr]

theorem step_scene {x : T} {l : List (Entry F T)} {n i s cam med kw ds : String} {sdf : Bool}
    (hno : (describe x l).scene = none) :
    (describe x l).step (.scene n i s cam med (.scene n i s cam med kw ds sdf) sdf) =
      (.ok, describe x (l ++ [(x, .scene n i s cam med kw ds sdf)])) := by
  have hmode : ∀ p ∈ l, modeOf p.2 = none := by
    intro p hp
    have : settings p.2 = none := by
      have hno' : (l.findSome? fun p => settings p.2) = none := hno
      exact List.findSome?_eq_none_iff.1 hno' p hp
    obtain ⟨y, c⟩ := p
    cases c <;> simp [settings, modeOf] at this ⊢
  have hno' : (({ describe x l with apiOn := true } : Desc (Call F) T)).scene = none := hno
  unfold Api.Desc.step Api.Desc.timed Api.Desc.sceneBody
  rw [hno']
  simp only [if_true, Option.isSome_none, Bool.false_eq_true, if_false, describe_cur]
  rw [if_neg (by simp [describe])]
  refine (if_pos rfl).trans ?_
  congr 1
  ext1
  · exact (entry_unnamed x l (c := .scene n i s cam med kw ds sdf) rfl rfl).symm
  · have : (l.findSome? fun p => settings p.2) = none := hno
    simp only [describe, List.findSome?_append, this, Option.none_or]
    rfl
  · simp [describe, Call.api]
    rfl
  · simp [describe, accelOf, List.findSome?_cons]
    rfl
  · have : (l.findSome? fun p => modeOf p.2) = none := List.findSome?_eq_none_iff.2 hmode
    simp only [describe, List.findSome?_append, this, Option.none_or]
    rfl
  · rfl
  · rfl

theorem step_accel {x : T} {l : List (Entry F T)} {n t : String} {cells : Option (Int × Int × Int)}
    (ht : t = "light_naive" ∨ t = "light_spatial") (hsc : (describe x l).scene.isSome = true) :
    (describe x l).step (.accel t) = (.ok, describe x (l ++ [(x, .accel n t cells)])) := by
  have hsc' : (({ describe x l with apiOn := true } : Desc (Call F) T)).scene.isNone = false := by
    rw [← Option.not_isSome]; simpa using hsc
  unfold Api.Desc.step Api.Desc.timed Api.Desc.accelBody
  rw [hsc']
  simp only [if_true, Bool.false_eq_true, if_false, if_pos ht]
  rw [if_neg (by simp [describe])]
  congr 1
  ext1
  · rw [entry_unnamed x l (c := .accel n t cells) rfl rfl]
    exact (congrArg Desc.entry (Api.mention_nil (describe x l))).symm
  · simp [describe, List.findSome?_append, settings]
  · simp [describe, Call.api]
  · simp [describe, accelOf, List.findSome?_cons]
  · simp [describe, List.findSome?_append, modeOf]
  · rfl
  · rfl

/-- A declaration that fits is accepted. -/
theorem step_fits {x : T} {l : List (Entry F T)} {c : Call F} (hd : Decl c) (hf : Fits (l.map (·.2)) c) :
    ∃ a, toApi m c = some a ∧ ((describe x l).step a).1 = .ok ∧
      ((describe x l).step a).2 = describe x (l ++ [(x, c)]) := by
  rcases decl_cases hd with ⟨⟨k, hk⟩, hns, hna, hs, hm, ha⟩ | ⟨n, i, s, cam, med, kw, ds, sdf, rfl⟩ | ⟨n, t, cells, rfl, ht⟩
  · obtain ⟨a, e, h1, h2, h3, h4, h5, h6, h7⟩ := key_eff m hd.2.2 hk hf.integrator
    obtain ⟨hfree, hnew⟩ := hf.name k hk
    obtain ⟨hr, hfresh⟩ := (taken_iff (T := T) hk).1 hfree
    have hnew' : ∀ p ∈ l, p.2.key ≠ some k := fun p hp => hnew p.2 (List.mem_map.2 ⟨p, hp, rfl⟩)
    have hst := Api.step_eff (describe_clean x l) rfl h2
    have hok : ((describe x l).step a).1 = .ok := by
      refine hst.1.2 ⟨by rw [h3]; exact hr, by rw [h3]; exact (describe_undef x l hr).2 ⟨hfresh, hnew'⟩, fun hl => ?_⟩
      obtain ⟨c', hc', h⟩ := hf.light (Or.inl (h7.1 hl))
      obtain ⟨p, hp, rfl⟩ := List.mem_map.1 hc'
      exact (scene_isSome x l).2 ⟨p, hp, h⟩
    exact ⟨a, h1, hok, (hst.2 hok).trans (describe_apply hk h3 h4 h5 h6 h7 hs hm ha hnew')⟩
  · refine ⟨_, rfl, ?_⟩
    have hno : (describe x l).scene = none := by
      rw [← Option.not_isSome_iff_eq_none]
      intro h
      obtain ⟨p, hp, h⟩ := (scene_isSome x l).1 h
      exact hf.scene rfl p.2 (List.mem_map.2 ⟨p, hp, rfl⟩) h
    rw [step_scene hno]
    exact ⟨rfl, rfl⟩
  · refine ⟨_, rfl, ?_⟩
    have hsc : (describe x l).scene.isSome = true := by
      obtain ⟨c', hc', h⟩ := hf.light (Or.inr rfl)
      obtain ⟨p, hp, rfl⟩ := List.mem_map.1 hc'
      exact (scene_isSome x l).2 ⟨p, hp, h⟩
    rw [step_accel (n := n) (cells := cells) ht hsc]
    exact ⟨rfl, rfl⟩

/-- A declaration that does not fit is not accepted. -/
theorem step_unfit {x : T} {l : List (Entry F T)} {c : Call F} {a} (hd : Decl c) (hta : toApi m c = some a)
    (hok : ((describe x l).step a).1 = .ok) : Fits (l.map (·.2)) c := by
  rcases decl_cases hd with ⟨⟨k, hk⟩, hns, hna, hs, hm, ha⟩ | ⟨n, i, s, cam, med, kw, ds, sdf, rfl⟩ | ⟨n, t, cells, rfl, ht⟩
  · have hint : c.api = "integrator" → c.type ∈ integratorTypes := by
      intro hi
      by_contra hno
      cases c <;> simp [Call.api] at hi
      case integrator n t f p ph =>
        simp only [toApi, Option.some.injEq] at hta
        subst hta
        obtain ⟨e, he⟩ := Api.declares_eff (by rfl) hok
        have hv : Api.acc integratorTypes t = .throw := if_neg hno
        unfold integratorTypes at hv
        simp [eff, Api.decl?, hv] at he
    obtain ⟨a', e, h1, h2, h3, h4, h5, h6, h7⟩ := key_eff m hd.2.2 hk hint
    rw [hta, Option.some.injEq] at h1
    subst h1
    have hst := Api.step_eff (describe_clean x l) rfl h2
    obtain ⟨hr, hu, hl⟩ := hst.1.1 hok
    rw [h3] at hr hu
    obtain ⟨hfresh, hnew⟩ := (describe_undef x l hr).1 hu
    refine ⟨?_, fun h => absurd h hns, ?_, hint⟩
    · intro k' hk'
      rw [hk, Option.some.injEq] at hk'
      subst hk'
      refine ⟨(taken_iff (T := T) hk).2 ⟨hr, hfresh⟩, ?_⟩
      intro c' hc'
      obtain ⟨p, hp, rfl⟩ := List.mem_map.1 hc'
      exact hnew p hp
    · rintro (h | h)
      · obtain ⟨p, hp, h⟩ := (scene_isSome x l).1 (hl (h7.2 h))
        exact ⟨p.2, List.mem_map.2 ⟨p, hp, rfl⟩, h⟩
      · exact absurd h hna
  · refine ⟨by simp [Call.key], fun _ c' hc' h => ?_, by simp [Call.api], by simp [Call.api]⟩
    obtain ⟨p, hp, rfl⟩ := List.mem_map.1 hc'
    have hsome := (scene_isSome x l).2 ⟨p, hp, h⟩
    simp only [toApi, Option.some.injEq] at hta
    subst hta
    have hsome' : (({ describe x l with apiOn := true } : Desc (Call F) T)).scene.isSome = true := hsome
    unfold Api.Desc.step Api.Desc.timed Api.Desc.sceneBody at hok
    rw [hsome'] at hok
    simp [describe] at hok
  · refine ⟨by simp [Call.key], by simp [Call.api], fun _ => ?_, by simp [Call.api]⟩
    simp only [toApi, Option.some.injEq] at hta
    subst hta
    have hsome : (describe x l).scene.isSome = true := by
      by_contra hno
      have hno' : (({ describe x l with apiOn := true } : Desc (Call F) T)).scene.isNone = true := by
        rw [← Option.not_isSome]; simpa using hno
      unfold Api.Desc.step Api.Desc.timed Api.Desc.accelBody at hok
      rw [hno'] at hok
      simp [describe] at hok
    obtain ⟨p, hp, h⟩ := (scene_isSome x l).1 hsome
    exact ⟨p.2, List.mem_map.2 ⟨p, hp, rfl⟩, h⟩

theorem sectionEntry_shape {sec : String × Js} {tr tr' : List (Call F)} {c : Call F}
    (h : (sectionOf fl (cstr sec.1) sec.2).calls = tr ++ c :: tr') (htr : ∀ t ∈ tr, t.isTransform = true)
    (hc : c.isTransform = false) : sectionEntry fl m sec = some (tr.foldl m.act m.one, c) := by
  have h1 : (tr ++ c :: tr').find? (fun c => !c.isTransform) = some c := by
    rw [List.find?_append, List.find?_eq_none.2 (by simpa using htr)]
    simp [hc]
  have h2 : (tr ++ c :: tr').takeWhile Call.isTransform = tr := by
    rw [List.takeWhile_append_of_pos htr]
    simp [hc]
  simp only [sectionEntry, h, h1, h2, Option.map_some]

/-- A section that ends well, as a whole. -/
theorem accepts_section (l : List (Entry F T)) (sec : String × Js)
    (ho : (sectionOf fl (cstr sec.1) sec.2).out = .ok ()) (d : Desc (Call F) T) :
    (describe m.one l).accepts ((sectionOf fl (cstr sec.1) sec.2).calls.filterMap (toApi m)) = some d ↔
      (∀ p, sectionEntry fl m sec = some p → Fits (l.map (·.2)) p.2) ∧
        d = describe m.one (l ++ (sectionEntry fl m sec).toList) := by
  rcases section_shape fl (cstr sec.1) sec.2 ho with h | ⟨tr, c, tr', h, htr, hd, htr'⟩
  · have he : sectionEntry fl m sec = none := by simp [sectionEntry, h]
    rw [he, h]
    simp [Api.Desc.accepts, eq_comm]
  · have he := sectionEntry_shape fl m h htr hd.1
    rw [he, h, List.filterMap_append, accepts_append, accepts_transforms m tr m.one l htr]
    obtain ⟨a, ha⟩ : ∃ a, toApi m c = some a := by
      have := hd.2.1
      cases c <;> first | exact ⟨_, rfl⟩ | exact absurd rfl this
    have hend : ∀ l' : List (Entry F T), (describe (tr.foldl m.act m.one) l').accepts (tr'.filterMap (toApi m)) =
        some (describe m.one l') := by
      intro l'
      rcases htr' with ⟨rfl, rfl⟩ | ⟨rfl, -⟩
      · rfl
      · exact accepts_transforms m [.clearTransform] _ l' (by simp [Call.isTransform])
    simp only [Option.bind_some, List.filterMap_cons, ha, Api.Desc.accepts, Option.toList_some, Option.some.injEq,
      forall_eq']
    by_cases hf : Fits (l.map (·.2)) c
    · obtain ⟨a', ha', hok, hst⟩ := step_fits m (x := tr.foldl m.act m.one) hd hf
      rw [ha, Option.some.injEq] at ha'
      subst ha'
      rw [if_pos hok, hst, hend]
      simp [hf, eq_comm]
    · rw [if_neg fun hok => hf (step_unfit m hd ha hok)]
      simp [hf]

end Feign.Parser
