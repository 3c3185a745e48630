import Verif.Parser.ExecProps
import Verif.Api.FlushNames

/-!
# Lemmas for C121: putting the scene together
-/

set_option linter.unusedSectionVars false
set_option linter.unusedSimpArgs false

namespace Feign.Parser

open Api (Key Kind ADef ANode AScene Desc ref fresh closure reserved)

variable {F T : Type} (fl : Rat → F) (m : Xf F T)

theorem exec_run : ∀ (cs : List (Call F)) {s s' : Api.St (Call F) T}, exec m s cs = some (.ok, s') →
    ∃ os, Api.run true s (cs.filterMap (toApi m)) = some (os, s')
  | [], s, s', h => by
    simp only [exec, Option.some.injEq, Prod.mk.injEq, true_and] at h
    subst h; exact ⟨[], rfl⟩
  | c :: cs, s, s', h => by
    unfold exec at h
    cases ha : toApi m c with
    | none =>
      simp only [ha] at h
      simp only [List.filterMap_cons, ha]
      exact exec_run cs h
    | some a =>
      simp only [ha] at h
      simp only [List.filterMap_cons, ha, Api.run]
      cases hs : Api.step true s a with
      | none => simp only [hs] at h; simp at h
      | some r =>
        obtain ⟨o, s1⟩ := r
        simp only [hs] at h
        cases o with
        | ok =>
          obtain ⟨os, ho⟩ := exec_run cs h
          exact ⟨_, by simp [ho]; rfl⟩
        | _ => simp at h

theorem mem_closure_of {k : Key} {ks : List Key} (h : k ∈ ks) : k ∈ closure ks := by
  unfold closure
  rw [List.mem_flatMap]
  refine ⟨k, h, ?_⟩
  split <;> simp

theorem mem_of_closure {k : Key} {ks : List Key} (h : k ∈ closure ks) (hb : k.1 ≠ .bsdf) : k ∈ ks := by
  unfold closure at h
  rw [List.mem_flatMap] at h
  obtain ⟨q, hq, h⟩ := h
  split at h
  · simp only [List.mem_cons, List.not_mem_nil, or_false] at h
    rcases h with rfl | rfl
    · exact hq
    · exact absurd rfl hb
  · simp only [List.mem_singleton] at h
    subst h; exact hq

theorem definedAs_some {l : List (Entry F T)} (hl : l.Pairwise Apart) {k : Key} {d} :
    definedAs l k = some d ↔ ∃ p ∈ l, p.2.key = some k ∧ d = built p.1 p.2 := by
  unfold definedAs
  rw [findSome_unique]
  · constructor
    · rintro ⟨p, hp, h⟩
      split at h
      · simp only [Option.some.injEq] at h; exact ⟨p, hp, ‹_›, h.symm⟩
      · simp at h
    · rintro ⟨p, hp, hk, rfl⟩
      exact ⟨p, hp, if_pos hk⟩
  · refine hl.imp fun {p q} h => ?_
    by_cases hk : p.2.key = some k
    · right; rw [if_neg (h.1 k hk)]
    · left; rw [if_neg hk]

theorem entry_iff (x : T) (l : List (Entry F T)) (k : Key) (n : ANode (Call F) T) :
    (describe x l).entry k = some n ↔ k ∈ closure (talksOf l) ∧ reserved k.1 k.2 = false ∧
      n = ⟨(definedAs l k).or (fresh k).payload, ownerOf l k⟩ := by
  simp only [describe]
  split
  · rename_i h; simp [h, eq_comm]
  · rename_i h
    simp only [reduceCtorEq, false_iff]
    rintro ⟨h1, h2, -⟩
    exact h ⟨h1, h2⟩

theorem declared_iff (l : List (Entry F T)) (k : Key) :
    Declared (l.map (·.2)) k ↔ (definedAs l k).isSome = true := by
  rw [Option.isSome_iff_ne_none, ne_eq, definedAs_none]
  unfold Declared
  push Not
  constructor
  · rintro ⟨c, hc, hk⟩
    obtain ⟨p, hp, rfl⟩ := List.mem_map.1 hc
    exact ⟨p, hp, hk⟩
  · rintro ⟨p, hp, hk⟩
    exact ⟨p.2, List.mem_map.2 ⟨p, hp, rfl⟩, hk⟩

theorem has_iff (x : T) (l : List (Entry F T)) {k : Key} (hk : k ∈ talksOf l) (hr : reserved k.1 k.2 = false) :
    (describe x l).Has k ↔ Declared (l.map (·.2)) k ∨ (fresh (D := Call F) (T := T) k).payload.isSome = true := by
  unfold Api.Desc.Has
  rw [declared_iff, ← Bool.or_eq_true, ← Option.isSome_or]
  constructor
  · rintro ⟨n, hn, hp⟩
    obtain ⟨-, -, rfl⟩ := (entry_iff x l k n).1 hn
    exact hp
  · intro h
    exact ⟨_, (entry_iff x l k _).2 ⟨mem_closure_of hk, hr, rfl⟩, h⟩

theorem talks_uses {l : List (Entry F T)} {c : Call F} (hc : c ∈ l.map (·.2)) {k : Key} (hk : k ∈ c.uses) :
    k ∈ talksOf l := by
  obtain ⟨p, hp, rfl⟩ := List.mem_map.1 hc
  unfold talksOf
  rw [List.mem_flatMap]
  exact ⟨p, hp, List.mem_append_right _ hk⟩

theorem talks_key' {l : List (Entry F T)} {c : Call F} (hc : c ∈ l.map (·.2)) {k : Key} (hk : c.key = some k) :
    k ∈ talksOf l := by
  obtain ⟨p, hp, rfl⟩ := List.mem_map.1 hc
  unfold talksOf
  rw [List.mem_flatMap]
  exact ⟨p, hp, List.mem_append_left _ (by simp [hk])⟩

theorem fresh_payload_none {k : Kind} {n : String} (h : k = .mesh ∨ k = .emitter ∨ k = .camera ∨ k = .sampler ∨
    k = .density ∨ k = .media ∨ k = .integrator ∨ k = .object) : (fresh (D := Call F) (T := T) (k, n)).payload = none := by
  rcases h with rfl | rfl | rfl | rfl | rfl | rfl | rfl | rfl <;> simp [fresh, Api.predefined]

theorem fresh_payload_default {k : Kind} {n : String} (h : k = .filter ∨ k = .transEst ∨ k = .medSampling) :
    (fresh (D := Call F) (T := T) (k, n)).payload.isSome = true ↔ n = "default" := by
  by_cases hn : n = "default"
  · subst hn
    rcases h with rfl | rfl | rfl <;> simp [fresh, Api.predefined]
  · rcases h with rfl | rfl | rfl <;> simp [fresh, Api.predefined, hn] 

theorem key_kinds {c : Call F} {k : Key} (h : c.key = some k) :
    k.1 ≠ .filter ∧ k.1 ≠ .transEst ∧ k.1 ≠ .medSampling := by
  cases c <;> simp only [Call.key, Option.some.injEq, reduceCtorEq] at h
  case shader n t p =>
    cases p <;> simp only [Option.some.injEq] at h <;> subst h <;> simp
  all_goals subst h; simp

theorem key_object {c : Call F} {n : String} (h : c.key = some (.object, n)) : ∃ me sh e, c = .object n me sh e := by
  cases c <;> simp only [Call.key, Option.some.injEq, Prod.mk.injEq, reduceCtorEq, false_and, true_and] at h
  case shader n t p => cases p <;> simp at h
  case object => subst h; exact ⟨_, _, _, rfl⟩

theorem key_media {c : Call F} {n : String} (h : c.key = some (.media, n)) :
    ∃ te ph sa de tf a s, c = .media n te ph sa de tf a s := by
  cases c <;> simp only [Call.key, Option.some.injEq, Prod.mk.injEq, reduceCtorEq, false_and, true_and] at h
  case shader n t p => cases p <;> simp at h
  case media => subst h; exact ⟨_, _, _, _, _, _, _, rfl⟩

theorem key_integrator {c : Call F} {n : String} (h : c.key = some (.integrator, n)) :
    ∃ t f p ph, c = .integrator n t f p ph := by
  cases c <;> simp only [Call.key, Option.some.injEq, Prod.mk.injEq, reduceCtorEq, false_and, true_and] at h
  case shader n t p => cases p <;> simp at h
  case integrator => subst h; exact ⟨_, _, _, _, rfl⟩

theorem has_plain (x : T) (l : List (Entry F T)) {k : Kind} {n : String} (hk : (k, n) ∈ talksOf l)
    (hr : reserved k n = false) (h : k = .mesh ∨ k = .emitter ∨ k = .camera ∨ k = .sampler ∨
    k = .density ∨ k = .media ∨ k = .integrator ∨ k = .object) :
    (describe x l).Has (k, n) ↔ Declared (l.map (·.2)) (k, n) := by
  rw [has_iff x l hk hr, fresh_payload_none h]
  simp

theorem has_default (x : T) (l : List (Entry F T)) {k : Kind} {n : String} (hk : (k, n) ∈ talksOf l)
    (hr : reserved k n = false) (h : k = .filter ∨ k = .transEst ∨ k = .medSampling) :
    (describe x l).Has (k, n) ↔ n = "default" := by
  rw [has_iff x l hk hr, fresh_payload_default h]
  constructor
  · rintro (⟨c, -, hc⟩ | h')
    · have := key_kinds hc
      rcases h with rfl | rfl | rfl <;> simp at this
    · exact h'
  · exact Or.inr

theorem payload_plain {l : List (Entry F T)} {k : Kind} {n : String} (h : k = .mesh ∨ k = .emitter ∨ k = .camera ∨
    k = .sampler ∨ k = .density ∨ k = .media ∨ k = .integrator ∨ k = .object) :
    (definedAs l (k, n)).or (fresh (D := Call F) (T := T) (k, n)).payload = definedAs l (k, n) := by
  rw [fresh_payload_none h, Option.or_none]

theorem whole_meshes (x : T) {l : List (Entry F T)} (hl : l.Pairwise Apart) :
    (∀ n nd d k, (describe x l).entry (.object, n) = some nd → nd.payload = some d → d.refs.head? = some (some k) →
      (describe x l).Has k) ↔ ∀ n me sh e, .object n me sh e ∈ l.map (·.2) → Declared (l.map (·.2)) (.mesh, me) := by
  constructor
  · intro h n me sh e hc
    have hk : (Call.object n me sh e : Call F).key = some (.object, n) := rfl
    have hu : (Kind.mesh, me) ∈ (Call.object n me sh e : Call F).uses := by simp [Call.uses]
    obtain ⟨p, hp, hpe⟩ := List.mem_map.1 hc
    have hd : definedAs l (.object, n) = some (built p.1 p.2) :=
      (definedAs_some hl).2 ⟨p, hp, by rw [hpe]; rfl, rfl⟩
    have := h n _ (built p.1 p.2) (.mesh, me) ((entry_iff x l _ _).2 ⟨mem_closure_of (talks_key' hc hk), rfl, rfl⟩)
      (by rw [payload_plain (by simp), hd]) (by rw [hpe]; rfl)
    exact (has_plain x l (talks_uses hc hu) rfl (by simp)).1 this
  · intro h n nd d k he hp hh
    obtain ⟨-, -, rfl⟩ := (entry_iff x l _ _).1 he
    rw [payload_plain (by simp)] at hp
    obtain ⟨p, hpl, hk, rfl⟩ := (definedAs_some hl).1 hp
    obtain ⟨me, sh, e, hc⟩ := key_object hk
    rw [hc] at hh
    simp only [built, List.head?_cons, Option.some.injEq] at hh
    subst hh
    have hmem : Call.object n me sh e ∈ l.map (·.2) := List.mem_map.2 ⟨p, hpl, hc⟩
    exact (has_plain x l (talks_uses hmem (by simp [Call.uses])) rfl (by simp)).2 (h n me sh e hmem)

theorem ownerOf_some {l : List (Entry F T)} {n : String} :
    (ownerOf l (.emitter, n)).isSome = true ↔ ∃ c ∈ l.map (·.2), c.carried = some n := by
  unfold ownerOf
  rw [List.findSome?_isSome_iff]
  constructor
  · rintro ⟨p, hp, h⟩
    split at h
    · rename_i hc
      obtain ⟨e, he, h'⟩ := Option.map_eq_some_iff.1 hc
      simp only [Prod.mk.injEq, true_and] at h'
      subst h'
      exact ⟨p.2, List.mem_map.2 ⟨p, by simpa using hp, rfl⟩, he⟩
    · simp at h
  · rintro ⟨c, hc, he⟩
    obtain ⟨p, hp, rfl⟩ := List.mem_map.1 hc
    refine ⟨p, by simpa using hp, ?_⟩
    rw [if_pos (by rw [he]; rfl)]
    cases hp2 : p.2 <;> simp [hp2, Call.carried] at he
    rfl

theorem whole_emitters (x : T) {l : List (Entry F T)} :
    (∀ n nd, (describe x l).entry (.emitter, n) = some nd → nd.owner.isSome = true → nd.payload.isSome = true) ↔
      ∀ n me sh e, .object n me sh e ∈ l.map (·.2) → e ≠ "null" → e ≠ "" → Declared (l.map (·.2)) (.emitter, e) := by
  constructor
  · intro h n me sh e hc h1 h2
    have hu : (Kind.emitter, e) ∈ (Call.object n me sh e : Call F).uses := by simp [Call.uses, h1, h2]
    have hcar : (Call.object n me sh e : Call F).carried = some e := by simp [Call.carried, h1, h2]
    have := h e _ ((entry_iff x l _ _).2 ⟨mem_closure_of (talks_uses hc hu), by simp [reserved, h1], rfl⟩)
      (ownerOf_some.2 ⟨_, hc, hcar⟩)
    rw [payload_plain (by simp)] at this
    exact (declared_iff l _).2 this
  · intro h n nd he how
    obtain ⟨-, -, rfl⟩ := (entry_iff x l _ _).1 he
    rw [payload_plain (by simp)]
    obtain ⟨c, hc, hcar⟩ := ownerOf_some.1 how
    cases c <;> simp only [Call.carried, reduceCtorEq] at hcar
    split at hcar
    · simp at hcar
    · rename_i hne
      push Not at hne
      simp only [Option.some.injEq] at hcar
      subst hcar
      exact (declared_iff l _).1 (h _ _ _ _ hc hne.1 hne.2)

theorem ref_some {k : Key} {q : Key} : ref k = some q ↔ reserved k.1 k.2 = false ∧ q = k := by
  unfold ref
  split <;> rename_i h <;> simp [h, eq_comm]

theorem whole_media (x : T) {l : List (Entry F T)} (hl : l.Pairwise Apart) (ha : ∀ p ∈ l, Alone p) :
    (∀ n nd, (describe x l).entry (.media, n) = some nd → ∃ d te ph sa de tf, nd.payload = some d ∧
      d.refs = [some te, ph, some sa, some de, some tf] ∧ (describe x l).Has te ∧ (describe x l).Has sa ∧
      (describe x l).Has de) ↔
    (∀ c ∈ l.map (·.2), ∀ n, (Kind.media, n) ∈ c.uses → n ≠ "null" → n ≠ "default" →
      Declared (l.map (·.2)) (.media, n)) ∧
    ∀ n te ph sa de tf a s, .media n te ph sa de tf a s ∈ l.map (·.2) →
      te = "default" ∧ sa = "default" ∧ tf ≠ "" ∧ de ≠ "" ∧ Declared (l.map (·.2)) (.density, de) := by
  constructor
  · intro h
    constructor
    · intro c hc n hn h1 h2
      obtain ⟨d, -, -, -, -, -, hp, -⟩ := h n _ ((entry_iff x l _ _).2
        ⟨mem_closure_of (talks_uses hc hn), by simp [reserved, h1, h2], rfl⟩)
      rw [payload_plain (by simp)] at hp
      exact (declared_iff l _).2 (Option.isSome_iff_exists.2 ⟨d, hp⟩)
    · intro n te ph sa de tf a s hc
      obtain ⟨p, hp, hpe⟩ := List.mem_map.1 hc
      have hk : p.2.key = some (.media, n) := by rw [hpe]; rfl
      have hfree := (ha p hp).1 _ hk
      have hr : reserved .media n = false := by
        simp only [takenNames, List.mem_cons, Prod.mk.injEq, reduceCtorEq, false_and, true_and, List.not_mem_nil,
          or_false, false_or, not_or] at hfree
        simp [reserved, hfree.1, hfree.2]
      have hd : definedAs l (.media, n) = some (built p.1 p.2) := (definedAs_some hl).2 ⟨p, hp, hk, rfl⟩
      obtain ⟨d, te', ph', sa', de', tf', hpay, hrefs, g1, g2, g3⟩ := h n _ ((entry_iff x l _ _).2
        ⟨mem_closure_of (talks_key' hc rfl), hr, rfl⟩)
      rw [payload_plain (by simp), hd, Option.some.injEq] at hpay
      subst hpay
      rw [hpe] at hrefs
      simp only [built, Call.uses, List.map_cons, List.map_nil, List.cons.injEq, and_true, ref_some] at hrefs
      obtain ⟨⟨r1, rfl⟩, -, ⟨r2, rfl⟩, ⟨r3, rfl⟩, ⟨r4, -⟩⟩ := hrefs
      have u : ∀ k, k ∈ (Call.media n te ph sa de tf a s : Call F).uses → k ∈ talksOf l := fun k => talks_uses hc
      refine ⟨(has_default x l (u _ (by simp [Call.uses])) r1 (by simp)).1 g1,
        (has_default x l (u _ (by simp [Call.uses])) r2 (by simp)).1 g2, by simpa [reserved] using r4,
        by simpa [reserved] using r3, (has_plain x l (u _ (by simp [Call.uses])) r3 (by simp)).1 g3⟩
  · rintro ⟨h1, h2⟩ n nd he
    obtain ⟨hcl, hr, rfl⟩ := (entry_iff x l _ _).1 he
    have hdecl : Declared (l.map (·.2)) (.media, n) := by
      have := mem_of_closure hcl (by simp)
      unfold talksOf at this
      rw [List.mem_flatMap] at this
      obtain ⟨p, hp, h⟩ := this
      rw [List.mem_append, Option.mem_toList] at h
      have hmem : p.2 ∈ l.map (·.2) := List.mem_map.2 ⟨p, hp, rfl⟩
      rcases h with h | h
      · exact ⟨p.2, hmem, h⟩
      · simp only [reserved, Bool.or_eq_false_iff, beq_eq_false_iff_ne] at hr
        exact h1 p.2 hmem n h hr.1 hr.2
    rw [declared_iff, Option.isSome_iff_exists] at hdecl
    obtain ⟨d, hd⟩ := hdecl
    obtain ⟨p, hp, hk, rfl⟩ := (definedAs_some hl).1 hd
    obtain ⟨te, ph, sa, de, tf, a, s, hc⟩ := key_media hk
    have hmem : Call.media n te ph sa de tf a s ∈ l.map (·.2) := List.mem_map.2 ⟨p, hp, hc⟩
    obtain ⟨rfl, rfl, h3, h4, h5⟩ := h2 _ _ _ _ _ _ _ _ hmem
    have u : ∀ k, k ∈ (Call.media n "default" ph "default" de tf a s : Call F).uses → k ∈ talksOf l := fun k => talks_uses hmem
    refine ⟨_, (.transEst, "default"), ref (.phase, ph), (.medSampling, "default"), (.density, de), (.transFunc, tf),
      by rw [payload_plain (by simp), hd], ?_, (has_default x l (u _ (by simp [Call.uses])) rfl (by simp)).2 rfl,
      (has_default x l (u _ (by simp [Call.uses])) rfl (by simp)).2 rfl,
      (has_plain x l (u _ (by simp [Call.uses])) (by simp [reserved, h4]) (by simp)).2 h5⟩
    rw [hc]
    simp [built, Call.uses, ref, reserved, h3, h4]

theorem whole_integrator (x : T) {l : List (Entry F T)} (hl : l.Pairwise Apart) {i : String}
    (hi : (Kind.integrator, i) ∈ talksOf l) :
    (∃ k nd d f, ref (.integrator, i) = some k ∧ (describe x l).entry k = some nd ∧ nd.payload = some d ∧
      d.refs.head? = some (some f) ∧ (describe x l).Has f) ↔ ∃ t p ph, .integrator i t "default" p ph ∈ l.map (·.2) := by
  constructor
  · rintro ⟨k, nd, d, f, hk, he, hp, hh, hf⟩
    obtain ⟨-, rfl⟩ := ref_some.1 hk
    obtain ⟨-, -, rfl⟩ := (entry_iff x l _ _).1 he
    rw [payload_plain (by simp)] at hp
    obtain ⟨p, hpl, hk, rfl⟩ := (definedAs_some hl).1 hp
    obtain ⟨t, f', ip, ph, hc⟩ := key_integrator hk
    rw [hc] at hh
    simp only [built, Call.uses, List.map_cons, List.map_nil, List.head?_cons, Option.some.injEq, ref_some] at hh
    obtain ⟨-, rfl⟩ := hh
    have hmem : Call.integrator i t f' ip ph ∈ l.map (·.2) := List.mem_map.2 ⟨p, hpl, hc⟩
    have := (has_default x l (talks_uses hmem (by simp [Call.uses])) rfl (by simp)).1 hf
    subst this
    exact ⟨t, ip, ph, hmem⟩
  · rintro ⟨t, ip, ph, hmem⟩
    obtain ⟨p, hp, hpe⟩ := List.mem_map.1 hmem
    have hd : definedAs l (.integrator, i) = some (built p.1 p.2) :=
      (definedAs_some hl).2 ⟨p, hp, by rw [hpe]; rfl, rfl⟩
    refine ⟨(.integrator, i), _, _, (.filter, "default"), rfl, (entry_iff x l _ _).2 ⟨mem_closure_of hi, rfl, rfl⟩,
      by rw [payload_plain (by simp), hd], by rw [hpe]; rfl,
      (has_default x l (talks_uses hmem (by simp [Call.uses])) rfl (by simp)).2 rfl⟩

theorem whole_iff (x : T) {l : List (Entry F T)} (hf : AllFit l) {sc} (hsc : (describe x l).scene = some sc) :
    (describe x l).Complete sc ↔ Whole (l.map (·.2)) := by
  obtain ⟨ha, hl, -⟩ := (allFit_iff l).1 hf
  have huniq : ∀ sc', (describe x l).scene = some sc' ↔ ∃ p ∈ l, settings p.2 = some sc' := by
    intro sc'
    refine findSome_unique (hl.imp fun {p q} h => ?_) sc'
    by_cases hs : p.2.api = "scene"
    · exact Or.inr (settings_api (h.2 hs)).1
    · exact Or.inl (settings_api hs).1
  obtain ⟨p, hp, hset⟩ := (huniq sc).1 hsc
  obtain ⟨n, i, s, cam, med, kw, ds, sdf, hc⟩ : ∃ n i s cam med kw ds sdf, p.2 = .scene n i s cam med kw ds sdf := by
    cases hp2 : p.2 <;> simp [hp2, settings] at hset
    exact ⟨_, _, _, _, _, _, _, _, rfl⟩
  have hmem : Call.scene n i s cam med kw ds sdf ∈ l.map (·.2) := List.mem_map.2 ⟨p, hp, hc⟩
  rw [hc] at hset
  simp only [settings, Option.some.injEq] at hset
  have hall : ∀ n' i' s' cam' med' kw' ds' sdf', .scene n' i' s' cam' med' kw' ds' sdf' ∈ l.map (·.2) →
      i' = i ∧ s' = s ∧ cam' = cam := by
    intro n' i' s' cam' med' kw' ds' sdf' h
    obtain ⟨q, hq, hqe⟩ := List.mem_map.1 h
    have := (huniq _).2 ⟨q, hq, by rw [hqe]; rfl⟩
    rw [hsc, Option.some.injEq, ← hset] at this
    simp only [AScene.mk.injEq] at this
    obtain ⟨-, h1, h2, h3, -⟩ := this
    simp [ref, reserved] at h1 h2 h3
    exact ⟨h1.symm, h2.symm, h3.symm⟩
  have u : ∀ k, k ∈ (Call.scene n i s cam med kw ds sdf : Call F).uses → k ∈ talksOf l := fun k => talks_uses hmem
  have hcam : (∃ k, sc.camera = some k ∧ (describe x l).Has k) ↔ Declared (l.map (·.2)) (.camera, cam) := by
    rw [← has_plain x l (u _ (by simp [Call.uses])) rfl (by simp), ← hset]
    simp [ref, reserved]
  have hsam : (∃ k, sc.sampler = some k ∧ (describe x l).Has k) ↔ Declared (l.map (·.2)) (.sampler, s) := by
    rw [← has_plain x l (u _ (by simp [Call.uses])) rfl (by simp), ← hset]
    simp [ref, reserved]
  have hint := whole_integrator x hl (i := i) (u _ (by simp [Call.uses]))
  have hsi : sc.integrator = ref (.integrator, i) := by rw [← hset]
  rw [← hsi] at hint
  constructor
  · rintro ⟨h1, h2, h3, h4, h5, h6⟩
    refine ⟨⟨_, hmem, rfl⟩, ?_, ?_, ((whole_media x hl ha).1 h4).1, ((whole_media x hl ha).1 h4).2⟩
    · intro n' i' s' cam' med' kw' ds' sdf' h
      obtain ⟨rfl, rfl, rfl⟩ := hall _ _ _ _ _ _ _ _ h
      exact ⟨hcam.1 h3, hsam.1 h6, hint.1 h5⟩
    · intro n' me sh e h
      exact ⟨(whole_meshes x hl).1 h1 _ _ _ _ h, (whole_emitters x).1 h2 _ _ _ _ h⟩
  · rintro ⟨-, h2, h3, h4, h5⟩
    obtain ⟨g1, g2, g3⟩ := h2 _ _ _ _ _ _ _ _ hmem
    exact ⟨(whole_meshes x hl).2 fun _ _ _ _ h => (h3 _ _ _ _ h).1, (whole_emitters x).2 fun _ _ _ _ h => (h3 _ _ _ _ h).2,
      hcam.2 g1, (whole_media x hl ha).2 ⟨h4, h5⟩, hint.2 g3, hsam.2 g2⟩

end Feign.Parser
