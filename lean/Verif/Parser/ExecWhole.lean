import Verif.Parser.ExecEff
import Verif.Parser.TraceProps
import Verif.Api.CommuteProps

/-!
# Lemmas for C121: whole files
-/

set_option linter.unusedSectionVars false
set_option linter.unusedSimpArgs false

namespace Feign.Parser

open Api (Key Kind Desc St Inv closure reserved)

variable {F T : Type} (fl : Rat → F) (m : Xf F T)

theorem allFit_append {pre l : List (Entry F T)} : 
    AllFit (pre ++ l) ↔ AllFit pre ∧ ∀ A p B, l = A ++ p :: B → Fits ((pre ++ A).map (·.2)) p.2 := by
  constructor
  · intro h
    exact ⟨fun A p B e => h A p (B ++ l) (by simp [e]), fun A p B e => h (pre ++ A) p B (by simp [e])⟩
  · rintro ⟨h1, h2⟩ A p B e
    rcases List.append_eq_append_iff.1 e with ⟨A', rfl, e2⟩ | ⟨A', e1, e2⟩
    · exact h2 A' p B e2
    · cases A' with
      | nil =>
        simp only [List.append_nil] at e1
        subst e1
        have := h2 [] p B (by simpa using e2.symm)
        simpa using this
      | cons q A' =>
        simp only [List.cons_append, List.cons.injEq] at e2
        obtain ⟨rfl, -⟩ := e2
        exact h1 A p A' e1

theorem accepts_sections : ∀ (ms : List (String × Js)) (l : List (Entry F T)) (d : Desc (Call F) T),
    (∀ sec ∈ ms, (sectionOf fl (cstr sec.1) sec.2).out = .ok ()) → AllFit l →
    ((describe m.one l).accepts ((ms.flatMap fun sec => (sectionOf fl (cstr sec.1) sec.2).calls).filterMap (toApi m)) =
        some d ↔ AllFit (l ++ entries fl m ms) ∧ d = describe m.one (l ++ entries fl m ms))
  | [], l, d, _, hl => by simp [entries, Api.Desc.accepts, hl, eq_comm]
  | sec :: ms, l, d, ho, hl => by
    have h1 := accepts_section fl m l sec (ho sec List.mem_cons_self)
    have ih := fun l' => accepts_sections ms l' d fun s hs => ho s (List.mem_cons_of_mem _ hs)
    have he : entries fl m (sec :: ms) = (sectionEntry fl m sec).toList ++ entries fl m ms := by
      unfold entries
      cases h : sectionEntry fl m sec <;> simp [List.filterMap_cons, h]
    rw [List.flatMap_cons, List.filterMap_append, accepts_append, he, ← List.append_assoc]
    have hone : (∀ p, sectionEntry fl m sec = some p → Fits (l.map (·.2)) p.2) ↔
        AllFit (l ++ (sectionEntry fl m sec).toList) := by
      rw [allFit_append]
      cases h : sectionEntry fl m sec with
      | none => simp [hl]
      | some q =>
        simp only [Option.some.injEq, forall_eq', Option.toList_some, hl, true_and]
        constructor
        · intro hq A p B e
          cases A with
          | nil => simp only [List.nil_append, List.cons.injEq] at e; obtain ⟨rfl, -⟩ := e; simpa using hq
          | cons a A => simp at e
        · intro hq
          simpa using hq [] q [] rfl
    by_cases hf : AllFit (l ++ (sectionEntry fl m sec).toList)
    · rw [(h1 _).2 ⟨hone.2 hf, rfl⟩, Option.bind_some]
      exact ih _ hf
    · cases hd : (describe m.one l).accepts ((sectionOf fl (cstr sec.1) sec.2).calls.filterMap (toApi m)) with
      | some d' => exact absurd (hone.1 ((h1 d').1 hd).1) hf
      | none =>
        simp only [Option.bind_none, reduceCtorEq, false_iff, not_and]
        intro h
        exact absurd (allFit_append.1 h).1 hf

theorem init_view (one : T) : (St.init one : St (Call F) T).view = describe one [] := by
  ext1
  · funext k
    simp [St.view, St.init, St.lookup, describe, talksOf, Api.closure]
  all_goals rfl

theorem rendered_cases (ms : List (String × Js)) (s : St (Call F) T) :
    runFile fl m (.obj ms) = some (.rendered s) ↔ (∀ sec ∈ ms, (sectionOf fl (cstr sec.1) sec.2).out = .ok ()) ∧
      exec m (St.init m.one) ((ms.flatMap fun sec => (sectionOf fl (cstr sec.1) sec.2).calls) ++ [.flush]) =
        some (.ok, s) := by
  obtain ⟨hiff, hcalls⟩ := document_ok fl ms
  constructor
  · intro h
    have hout : (parse fl (.obj ms)).out = .ok () := by
      unfold runFile at h
      split at h
      · simp at h
      · split at h
        · assumption
        · simp at h
      · simp at h
    refine ⟨hiff.1 hout, ?_⟩
    unfold runFile at h
    rw [← hcalls hout]
    split at h
    · simp at h
    · rename_i s' he
      rw [hout] at h
      simp only [Option.some.injEq, End.rendered.injEq] at h
      rw [he, h]
    · simp at h
  · rintro ⟨ho, he⟩
    have hout := hiff.2 ho
    rw [← hcalls hout] at he
    unfold runFile
    rw [he, hout]

theorem flush_dropped (cs : List (Call F)) : (cs ++ [Call.flush]).filterMap (toApi m) = cs.filterMap (toApi m) := by
  rw [List.filterMap_append]
  simp [toApi]

/-- Two declarations that can stand in one file. -/
def Apart (p q : Entry F T) : Prop :=
  (∀ k, p.2.key = some k → q.2.key ≠ some k) ∧ (p.2.api = "scene" → q.2.api ≠ "scene")

theorem Apart.symm {p q : Entry F T} (h : Apart p q) : Apart q p :=
  ⟨fun k hk h' => h.1 k h' hk, fun hs h' => h.2 h' hs⟩

/-- A declaration that can stand in a file. -/
def Alone (p : Entry F T) : Prop :=
  (∀ k, p.2.key = some k → k ∉ takenNames) ∧ (p.2.api = "integrator" → p.2.type ∈ integratorTypes)

theorem allFit_iff (l : List (Entry F T)) :
    AllFit l ↔ (∀ p ∈ l, Alone p) ∧ l.Pairwise Apart ∧ LightsLater l := by
  have snoc : ∀ (l : List (Entry F T)) (P : List (Entry F T) → Entry F T → Prop) p,
      (∀ A q B, l ++ [p] = A ++ q :: B → P A q) ↔ (∀ A q B, l = A ++ q :: B → P A q) ∧ P l p := by
    intro l P p
    constructor
    · intro h
      exact ⟨fun A q B e => h A q (B ++ [p]) (by simp [e]), h l p [] rfl⟩
    · rintro ⟨h1, h2⟩ A q B e
      rcases List.eq_nil_or_concat B with rfl | ⟨B', b, rfl⟩
      · obtain ⟨rfl, e2⟩ := List.append_inj' e rfl
        simp only [List.cons.injEq, and_true] at e2
        subst e2; exact h2
      · rw [List.concat_eq_append, ← List.cons_append, ← List.append_assoc] at e
        obtain ⟨e1, -⟩ := List.append_inj' e rfl
        exact h1 A q B' e1
  induction l using List.reverseRecOn with
  | nil => simp [AllFit, LightsLater]
  | append_singleton l p ih =>
    have e1 : AllFit (l ++ [p]) ↔ AllFit l ∧ Fits (l.map (·.2)) p.2 := 
      snoc l (fun A q => Fits (A.map Prod.snd) q.2) p
    have e2 : LightsLater (l ++ [p]) ↔ LightsLater l ∧ (p.2.api = "emitter" ∨ p.2.api = "accel" →
        ∃ r ∈ l, r.2.api = "scene") :=
      snoc l (fun A q => q.2.api = "emitter" ∨ q.2.api = "accel" → ∃ r ∈ A, r.2.api = "scene") p
    have ih' : AllFit l ↔ (∀ p ∈ l, Alone p) ∧ l.Pairwise Apart ∧ LightsLater l := ih
    rw [e1, e2, ih', List.pairwise_append]
    simp only [List.mem_append, List.mem_singleton, or_imp, forall_and, forall_eq, List.pairwise_singleton, true_and]
    constructor
    · rintro ⟨⟨h1, h2, h3⟩, h4⟩
      refine ⟨⟨h1, ⟨fun k hk => (h4.name k hk).1, h4.integrator⟩⟩, ⟨h2, fun q hq => ⟨fun k hk hk' => ?_, fun hs hs' => ?_⟩⟩, h3, ?_⟩
      · exact (h4.name k hk').2 q.2 (List.mem_map.2 ⟨q, hq, rfl⟩) hk
      · exact h4.scene hs' q.2 (List.mem_map.2 ⟨q, hq, rfl⟩) hs
      · have := h4.light
        simp only [List.mem_map, exists_exists_and_eq_and] at this
        exact ⟨fun h => this (Or.inl h), fun h => this (Or.inr h)⟩
    · rintro ⟨⟨h1, h1'⟩, ⟨h2, h2'⟩, h3, h3'⟩
      refine ⟨⟨h1, h2, h3⟩, ⟨fun k hk => ⟨h1'.1 k hk, ?_⟩, ?_, ?_, h1'.2⟩⟩
      · intro c hc hk'
        obtain ⟨q, hq, rfl⟩ := List.mem_map.1 hc
        exact (h2' q hq).1 k hk' hk
      · intro hs c hc hs'
        obtain ⟨q, hq, rfl⟩ := List.mem_map.1 hc
        exact (h2' q hq).2 hs' hs
      · simp only [List.mem_map, exists_exists_and_eq_and]
        rintro (h | h)
        · exact h3'.1 h
        · exact h3'.2 h

theorem findSome_unique {α β : Type} {f : α → Option β} {l : List α}
    (h : l.Pairwise fun a b => f a = none ∨ f b = none) (b : β) :
    l.findSome? f = some b ↔ ∃ a ∈ l, f a = some b := by
  induction l with
  | nil => simp
  | cons a l ih =>
    rw [List.pairwise_cons] at h
    rw [List.findSome?_cons]
    cases ha : f a with
    | none => simp [ih h.2, ha]
    | some b' =>
      simp only [Option.some.injEq, List.mem_cons, exists_eq_or_imp, ha]
      constructor
      · exact Or.inl
      · rintro (h' | ⟨a', ha', h'⟩)
        · exact h'
        · rcases h.1 a' ha' with h1 | h1
          · simp [ha] at h1
          · simp [h'] at h1

theorem findSome_perm {α β : Type} {f : α → Option β} {l l' : List α} (hp : l.Perm l')
    (h : l.Pairwise fun a b => f a = none ∨ f b = none) : l.findSome? f = l'.findSome? f := by
  have h' := hp.pairwise h fun {a b} h => h.symm
  ext b
  rw [findSome_unique h, findSome_unique h']
  simp [hp.mem_iff]

theorem settings_api {c : Call F} (h : c.api ≠ "scene") : settings c = none ∧ modeOf c = none := by
  cases c <;> first | exact ⟨rfl, rfl⟩ | exact absurd rfl h

theorem accel_api {c : Call F} (h : c.api ≠ "accel") : accelOf c = none := by
  cases c <;> first | rfl | exact absurd rfl h

/-- The description does not depend on the order of the declarations, except for the order of the lights. -/
theorem describe_perm (x : T) {l l' : List (Entry F T)} (hp : l.Perm l') (hl : l.Pairwise Apart)
    (hcar : l.Pairwise fun p q => ∀ e, p.2.carried = some e → q.2.carried ≠ some e)
    (hacc : l.Pairwise fun p q => p.2.api = "accel" → q.2.api ≠ "accel") :
    (∀ k, (describe x l).entry k = (describe x l').entry k) ∧ (describe x l).scene = (describe x l').scene ∧
    (describe x l).lights.Perm (describe x l').lights ∧ (describe x l).accel = (describe x l').accel ∧
    (describe x l).sdfOnly = (describe x l').sdfOnly := by
  have hsc : ∀ p q : Entry F T, Apart p q → p.2.api ≠ "scene" ∨ q.2.api ≠ "scene" := by
    intro p q h
    by_cases hs : p.2.api = "scene"
    · exact Or.inr (h.2 hs)
    · exact Or.inl hs
  refine ⟨fun k => ?_, ?_, hp.filterMap _, ?_, ?_⟩
  · have h1 : definedAs l k = definedAs l' k := by
      refine findSome_perm hp (hl.imp fun {p q} h => ?_)
      by_cases hk : p.2.key = some k
      · right; rw [if_neg (h.1 k hk)]
      · left; rw [if_neg hk]
    have h2 : ownerOf l k = ownerOf l' k := by
      unfold ownerOf
      refine findSome_perm ((List.reverse_perm l).trans (hp.trans (List.reverse_perm l').symm)) ?_
      rw [List.pairwise_reverse]
      refine hcar.imp fun {p q} h => ?_
      by_cases hk : p.2.carried.map (fun e => (Kind.emitter, e)) = some k
      · left
        obtain ⟨e, he, rfl⟩ := Option.map_eq_some_iff.1 hk
        refine if_neg fun hk' => ?_
        obtain ⟨e', he', h'⟩ := Option.map_eq_some_iff.1 hk'
        simp only [Prod.mk.injEq, true_and] at h'
        subst h'
        exact h _ he he'
      · right; rw [if_neg hk]
    have h3 : k ∈ closure (talksOf l) ↔ k ∈ closure (talksOf l') := by
      have : ∀ q, q ∈ talksOf l ↔ q ∈ talksOf l' := by
        intro q
        simp only [talksOf, List.mem_flatMap, hp.mem_iff]
      simp only [closure, List.mem_flatMap, this]
    simp only [describe, h1, h2, h3]
  · exact findSome_perm hp (hl.imp fun {p q} h => (hsc p q h).imp (fun h => (settings_api h).1) fun h => (settings_api h).1)
  · refine findSome_perm ((List.reverse_perm l).trans (hp.trans (List.reverse_perm l').symm)) ?_
    rw [List.pairwise_reverse]
    refine hacc.imp fun {p q} h => ?_
    by_cases ha : p.2.api = "accel"
    · exact Or.inl (accel_api (h ha))
    · exact Or.inr (accel_api ha)
  · have : l.findSome? (fun p => modeOf p.2) = l'.findSome? fun p => modeOf p.2 :=
      findSome_perm hp (hl.imp fun {p q} h => (hsc p q h).imp (fun h => (settings_api h).2) fun h => (settings_api h).2)
    simp only [describe, this]

/-- Carrying out calls up to the first that does not return. -/
theorem exec_append : ∀ (cs ds : List (Call F)) (s : St (Call F) T),
    exec m s (cs ++ ds) = match exec m s cs with
      | some (.ok, s') => exec m s' ds
      | r => r
  | [], ds, s => rfl
  | c :: cs, ds, s => by
    have ih := exec_append cs ds
    simp only [List.cons_append, exec]
    cases toApi m c with
    | none => exact ih s
    | some a =>
      dsimp only
      cases Api.step true s a with
      | none => rfl
      | some r =>
        obtain ⟨o, s'⟩ := r
        cases o
        · exact ih s'
        all_goals rfl

/-- The calls of a file begin with those of its first sections. -/
theorem calls_prefix (ms1 ms2 : List (String × Js))
    (ho : ∀ s ∈ ms1, (sectionOf fl (cstr s.1) s.2).out = .ok ()) :
    ∃ rest, (parse fl (.obj (ms1 ++ ms2))).calls =
      (ms1.flatMap fun sec => (sectionOf fl (cstr sec.1) sec.2).calls) ++ rest := by
  have hs : ∃ rest, (sections fl (ms1 ++ ms2)).calls =
      (ms1.flatMap fun sec => (sectionOf fl (cstr sec.1) sec.2).calls) ++ rest := by
    induction ms1 with
    | nil => exact ⟨_, rfl⟩
    | cons sec ms1 ih =>
      obtain ⟨k, v⟩ := sec
      obtain ⟨rest, h⟩ := ih fun s hs => ho s (List.mem_cons_of_mem _ hs)
      refine ⟨rest, ?_⟩
      simp only [List.cons_append, sections, List.flatMap_cons]
      rw [Tr.bind_calls_ok (ho _ List.mem_cons_self), h, List.append_assoc]
  obtain ⟨rest, h⟩ := hs
  have hp : parse fl (.obj (ms1 ++ ms2)) = sections fl (ms1 ++ ms2) >>= fun _ => Tr.emit .flush := rfl
  cases hout : (sections fl (ms1 ++ ms2)).out with
  | ok u => exact ⟨rest ++ [.flush], by rw [hp, Tr.bind_calls_ok hout, h, List.append_assoc]; rfl⟩
  | error e => 
    refine ⟨rest, ?_⟩
    rw [hp, ← h]
    rcases hd : sections fl (ms1 ++ ms2) with ⟨cs, o⟩
    rw [hd] at hout
    subst hout
    rfl

end Feign.Parser
