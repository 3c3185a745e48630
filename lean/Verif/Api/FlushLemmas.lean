import Verif.Api.Flush
import Verif.Api.CommuteProps

/-! Lemmas about assembling the scene. -/

set_option linter.unusedSectionVars false
namespace Feign.Api
variable {D T : Type}

/-- The mesh node of an object. -/
def St.meshOf (s : St D T) (o : Nat) : Option Nat := (s.object o).map (·.1)

/-- The transforms of the objects in `os` using mesh node `m`, in order. -/
def St.xfsOf (s : St D T) (m : Nat) (os : List Nat) : List T :=
  os.filterMap fun o => (s.object o).bind fun r => if r.1 = m then some r.2 else none

/-- What the loop does to the scene. -/
structure AsmOk (mul : T → T → T) (s : St D T) (a : Asm T) (os : List Nat) (a' : Asm T) : Prop where
  objects : a'.objects = a.objects ++ os
  shapes : a'.shapes.map some = a.shapes.map some ++ os.map s.meshOf
  next : a'.next = a.next + os.length
  keep : ∀ m, (∀ o ∈ os, s.meshOf o ≠ some m) → a'.inst m = a.inst m
  last : ∀ m j, os[j]?.bind s.meshOf = some m → (∀ j', j < j' → os[j']?.bind s.meshOf ≠ some m) →
    a'.inst m = some (a.next + j)
  xf : ∀ m, a'.xf m = (s.xfsOf m os).foldl (fun acc x => mul x acc) (a.xf m)
  defined : ∀ o ∈ os, ∃ m, s.meshOf o = some m ∧ s.defined m = true

theorem assemble_ok {mul : T → T → T} {s : St D T} : ∀ (os : List Nat) {a a' : Asm T},
    assemble mul s os a = (.ok, a') → AsmOk mul s a os a'
  | [], a, a', h => by
    simp only [assemble, Prod.mk.injEq, true_and] at h
    subst h
    exact ⟨by simp, by simp, by simp, fun _ _ => rfl, by simp, fun _ => rfl, by simp⟩
  | o :: os, a, a', h => by
    unfold assemble at h
    cases ho : s.object o with
    | none => simp [place, ho] at h
    | some r =>
      obtain ⟨m0, x0⟩ := r
      by_cases hd : s.defined m0 = true
      · simp only [place, ho, hd, if_true] at h
        have ih := assemble_ok os h
        have hm0 : s.meshOf o = some m0 := by simp [St.meshOf, ho]
        refine ⟨?_, ?_, ?_, ?_, ?_, ?_, ?_⟩
        · rw [ih.objects]; simp
        · rw [ih.shapes]; simp [hm0]
        · rw [ih.next]; simp; omega
        · intro m hm
          rw [ih.keep m (fun o' ho' => hm o' (by simp [ho']))]
          have : m ≠ m0 := by
            rintro rfl
            exact hm o (by simp) hm0
          simp [this]
        · intro m j hj hlast
          cases j with
          | zero =>
            simp only [List.getElem?_cons_zero, Option.bind_some, hm0, Option.some.injEq] at hj
            subst hj
            rw [ih.keep m0 ?_]
            · simp
            · intro o' ho' hc
              obtain ⟨j', hj'⟩ := List.mem_iff_getElem?.1 ho'
              exact hlast (j' + 1) (by omega) (by simp [hj', hc])
          | succ j =>
            simp only [List.getElem?_cons_succ] at hj
            rw [ih.last m j hj ?_]
            · simp only [Option.some.injEq]; omega
            · intro j' hjj' hc
              exact hlast (j' + 1) (by omega) (by simpa using hc)
        · intro m
          rw [ih.xf m]
          by_cases hm : m = m0
          · subst hm
            simp [St.xfsOf, ho]
          · have : ¬ m0 = m := fun h => hm h.symm
            simp [St.xfsOf, ho, hm, this]
        · intro o' ho'
          rcases List.mem_cons.1 ho' with rfl | ho'
          · exact ⟨m0, hm0, hd⟩
          · exact ih.defined o' ho'
      · simp [place, ho, hd] at h

/-- The loop can only fail on an object that was not filled or whose mesh is not defined. -/
theorem assemble_fail {mul : T → T → T} {s : St D T} : ∀ (os : List Nat) {a : Asm T},
    (∀ o ∈ os, (s.object o).isSome) → (∃ o ∈ os, ∃ m, s.meshOf o = some m ∧ s.defined m = false) →
    (assemble mul s os a).1 = .throw
  | [], a, _, h => by obtain ⟨o, ho, _⟩ := h; simp at ho
  | o :: os, a, hf, h => by
    unfold assemble
    obtain ⟨r, ho⟩ := Option.isSome_iff_exists.1 (hf o (by simp))
    obtain ⟨m0, x0⟩ := r
    by_cases hd : s.defined m0 = true
    · simp only [place, ho, hd, if_true]
      refine assemble_fail os (fun o' h' => hf o' (by simp [h'])) ?_
      obtain ⟨o', ho', m, hm, hdm⟩ := h
      rcases List.mem_cons.1 ho' with rfl | ho'
      · simp only [St.meshOf, ho, Option.map_some, Option.some.injEq] at hm
        subst hm
        rw [hd] at hdm
        simp at hdm
      · exact ⟨o', ho', m, hm, hdm⟩
    · simp [place, ho, hd]

theorem assemble_ok_iff {mul : T → T → T} {s : St D T} : ∀ (os : List Nat) {a : Asm T},
    (assemble mul s os a).1 = .ok ↔ ∀ o ∈ os, ∃ m, s.meshOf o = some m ∧ s.defined m = true
  | [], a => by simp [assemble]
  | o :: os, a => by
    unfold assemble
    cases ho : s.object o with
    | none => simp [place, ho, St.meshOf]
    | some r =>
      obtain ⟨m0, x0⟩ := r
      by_cases hd : s.defined m0 = true
      · simp only [place, ho, hd, if_true]
        rw [assemble_ok_iff os]
        simp [St.meshOf, ho, hd]
      · simp [place, ho, hd, St.meshOf]

/-! ### Object nodes are filled -/

/-- Objects of a description: filled, with a mesh and a shader. -/
def Desc.filled (a : Desc D T) : Prop := ∀ n nd, a.entry (.object, n) = some nd →
  ∃ m sh e x, nd.payload = some ⟨"object", [some (.mesh, m), some (.matShader, sh), e], none, some x⟩

theorem filled_of_entry {a b : Desc D T} (h : a.filled) (he : b.entry = a.entry) : b.filled := by
  unfold Desc.filled; rw [he]; exact h

theorem mem_closure_kind {k : Key} {ks : List Key} (h : k ∈ closure ks) (hk : k.1 = .object) : k ∈ ks := by
  unfold closure at h
  rw [List.mem_flatMap] at h
  obtain ⟨k', hk', h⟩ := h
  split_ifs at h with hs
  · rcases List.mem_cons.1 h with rfl | h
    · exact hk'
    · simp only [List.mem_singleton] at h
      subst h
      simp at hk
  · simp only [List.mem_singleton] at h
    subst h; exact hk'

theorem mention_filled {a : Desc D T} (h : a.filled) {ks : List Key} (hk : ∀ k ∈ ks, k.1 ≠ .object) :
    (a.mention ks).filled := by
  intro n nd hn
  unfold Desc.mention at hn
  dsimp only at hn
  rw [if_neg (fun hc => hk _ (mem_closure_kind hc.1 rfl) rfl)] at hn
  exact h n nd (by simpa using hn)

theorem define_filled {a : Desc D T} (h : a.filled) {k : Key} (hk : k.1 ≠ .object) (d : ADef D T) :
    (a.define k d).filled := by
  intro n nd hn
  unfold Desc.define at hn
  dsimp only at hn
  rw [if_neg (by rintro rfl; exact hk rfl)] at hn
  exact h n nd hn

theorem decl_kinds {c : Call D T} {d : Decl D} (h : decl? c = some d) :
    d.kind ≠ .object ∧ ∀ k ∈ d.pre ++ d.post, k.1 ≠ Kind.object := by
  have hb : ∀ i o, ∀ k ∈ boundary i o, k.1 ≠ Kind.object := by
    intro i o k hk
    unfold boundary at hk
    split_ifs at hk
    · simp only [List.mem_cons, List.not_mem_nil, or_false] at hk
      rcases hk with rfl | rfl <;> simp
    · simp at hk
  cases c
  case mesh n t sh tex i o dd =>
    simp only [decl?, Option.some.injEq] at h
    subst h
    refine ⟨by simp, ?_⟩
    intro k hk
    dsimp only at hk
    rw [List.nil_append] at hk
    split_ifs at hk
    · rcases List.mem_cons.1 hk with rfl | hk
      · simp
      · exact hb _ _ _ hk
    · simp only [List.mem_cons, List.not_mem_nil, or_false] at hk
      rcases hk with rfl | rfl <;> simp
    · exact hb _ _ _ hk
  case shader n t b b2 dd =>
    simp only [decl?] at h
    split_ifs at h <;> simp only [Option.some.injEq] at h <;> subst h <;> simp
  case emitter n t tex dd =>
    simp only [decl?, Option.some.injEq] at h
    subst h
    refine ⟨by simp, ?_⟩
    intro k hk
    dsimp only at hk
    rw [List.nil_append] at hk
    split_ifs at hk <;> simp at hk
    subst hk; simp
  all_goals
    simp only [decl?, Option.some.injEq, reduceCtorEq] at h
    try (subst h; simp)

theorem declare_filled {a : Desc D T} (h : a.filled) {d : Decl D} (hd : d.kind ≠ .object)
    (hk : ∀ k ∈ d.pre ++ d.post, k.1 ≠ Kind.object) : (a.declare d).2.filled := by
  have h1 : (a.mention ((d.kind, d.name) :: d.pre)).filled := mention_filled h (by
    intro k hk'
    rcases List.mem_cons.1 hk' with rfl | hk'
    · exact hd
    · exact hk k (by simp [hk']))
  unfold Desc.declare
  dsimp only
  cases (a.mention ((d.kind, d.name) :: d.pre)).entry (d.kind, d.name) with
  | none => exact h1
  | some nd =>
    dsimp only
    by_cases hp : nd.payload.isSome = true
    · rw [if_pos hp]; exact h1
    · rw [if_neg hp]
      cases d.verdict with
      | ok =>
        have h2 : ((a.mention ((d.kind, d.name) :: d.pre)).mention d.post).filled :=
          mention_filled h1 (fun k hk' => hk k (by simp [hk']))
        have h3 := fun x => define_filled h2 (k := (d.kind, d.name)) hd x
        dsimp only
        split_ifs <;> exact filled_of_entry (h3 _) rfl
      | throw => exact h1
      | abort => exact h1
      | nothing => exact h1

theorem timed_filled {a : Desc D T} (h : a.filled) {body : Desc D T → Out × Desc D T}
    (hb : ∀ a : Desc D T, a.filled → (body a).2.filled) : (a.timed true body).2.filled := by
  have := hb { a with apiOn := true } (filled_of_entry h rfl)
  unfold Desc.timed
  rw [if_pos rfl]
  by_cases hap : a.apiOn = true
  · rw [if_pos hap]; exact h
  · rw [if_neg hap]
    dsimp only
    split
    · by_cases h2 : (body { a with apiOn := true }).2.apiOn = true
      · rw [if_pos h2]; exact filled_of_entry this rfl
      · rw [if_neg h2]; exact this
    · exact this

theorem object_filled {a : Desc D T} (h : a.filled) (m sh e n : String) (i : Int) : (a.object m sh e n i).2.filled := by
  unfold Desc.object
  by_cases hap : a.apiOn = true
  · rw [if_pos hap]; exact h
  · rw [if_neg hap]
    dsimp only
    set o : Key := (.object, objName n i) with ho
    have hmen : ∀ n' nd, (({ a with apiOn := true } : Desc D T).mention [o]).entry (.object, n') = some nd →
        (.object, n') ≠ o → a.entry (.object, n') = some nd := by
      intro n' nd hn hne
      unfold Desc.mention at hn
      dsimp only at hn
      rw [if_neg (fun hc => hne (by simpa using mem_closure_kind hc.1 rfl))] at hn
      simpa using hn
    cases hE : (({ a with apiOn := true } : Desc D T).mention [o]).entry o with
    | none =>
      dsimp only
      intro n' nd hn
      by_cases hne : ((.object, n') : Key) = o
      · rw [hne, hE] at hn; simp at hn
      · exact h n' nd (hmen n' nd hn hne)
    | some nd0 =>
      dsimp only
      by_cases hp : nd0.payload.isSome = true
      · rw [if_pos hp]
        intro n' nd hn
        by_cases hne : ((.object, n') : Key) = o
        · rw [hne, hE, Option.some.injEq] at hn
          subst hn
          refine h n' nd0 ?_
          rw [hne]
          unfold Desc.mention at hE
          dsimp only at hE
          cases hae : a.entry o with
          | some x => rw [hae] at hE; simpa using hE
          | none =>
            rw [hae] at hE
            exfalso
            split_ifs at hE
            · simp only [Option.or, Option.some.injEq] at hE
              subst hE
              revert hp
              unfold fresh
              rw [if_neg (by rw [ho]; simp)]
              simp [ho, predefined]
            · simp at hE
        · exact h n' nd (hmen n' nd hn hne)
      · rw [if_neg hp]
        refine filled_of_entry (a := (Desc.objectFill m sh e o (({ a with apiOn := true } : Desc D T).mention [o]))) ?_ rfl
        have key : ∀ (b : Desc D T) (d : ADef D T), (∃ m sh e x, d = ⟨"object", [some (.mesh, m), some (.matShader, sh), e], none, some x⟩) →
            (∀ n' nd, b.entry (.object, n') = some nd → ((.object, n') : Key) ≠ o →
              (({ a with apiOn := true } : Desc D T).mention [o]).entry (.object, n') = some nd) →
            (b.define o d).filled := by
          intro b d hd hb n' nd hn
          unfold Desc.define at hn
          dsimp only at hn
          by_cases hne : ((.object, n') : Key) = o
          · rw [if_pos hne] at hn
            obtain ⟨x, _, rfl⟩ := Option.map_eq_some_iff.1 hn
            obtain ⟨m', sh', e', x', rfl⟩ := hd
            exact ⟨m', sh', e', x', rfl⟩
          · rw [if_neg hne] at hn
            exact h n' nd (hmen n' nd (hb n' nd hn hne) hne)
        have hm2 : ∀ ks : List Key, (∀ k ∈ ks, k.1 ≠ Kind.object) → ∀ n' nd,
            ((({ a with apiOn := true } : Desc D T).mention [o]).mention ks).entry (.object, n') = some nd →
            (({ a with apiOn := true } : Desc D T).mention [o]).entry (.object, n') = some nd := by
          intro ks hks n' nd hn
          unfold Desc.mention at hn
          dsimp only at hn
          rw [if_neg (c := _ ∈ closure ks ∧ _) (fun hc => hks _ (mem_closure_kind hc.1 rfl) rfl)] at hn
          rw [Option.or_none] at hn
          exact hn
        unfold Desc.objectFill
        split_ifs
        · refine key _ _ ⟨_, _, _, _, rfl⟩ ?_
          intro n' nd hn _
          unfold Desc.own at hn
          dsimp only at hn
          rw [if_neg (by simp)] at hn
          exact hm2 _ (by simp) n' nd hn
        · refine key _ _ ⟨_, _, _, _, rfl⟩ ?_
          intro n' nd hn _
          exact hm2 _ (by simp) n' nd hn

theorem step_filled {a : Desc D T} (h : a.filled) (c : Call D T) : (a.step c).2.filled := by
  have hdecl : ∀ a : Desc D T, a.filled → (a.declBody c).2.filled := by
    intro a ha
    unfold Desc.declBody
    cases hd : decl? c with
    | none => exact ha
    | some d => exact declare_filled ha (decl_kinds hd).1 (decl_kinds hd).2
  cases c
  case object n m sh e i => exact object_filled h m sh e n i
  case accel t =>
    refine timed_filled h ?_
    intro a ha
    unfold Desc.accelBody
    split_ifs
    · exact ha
    · exact filled_of_entry ha rfl
    · exact ha
  case scene n i sa cm m d sdf =>
    refine timed_filled h ?_
    intro a ha
    unfold Desc.sceneBody
    split_ifs
    · exact filled_of_entry ha rfl
    · exact filled_of_entry (mention_filled ha (ks := [(.integrator, i), (.sampler, sa), (.camera, cm)] ++ []) (by simp)) rfl
    · exact filled_of_entry (mention_filled ha (ks := [(.integrator, i), (.sampler, sa), (.camera, cm)] ++ [(.media, m)]) (by simp)) rfl
  case transform f => exact timed_filled h (fun a ha => filled_of_entry ha rfl)
  all_goals exact timed_filled h hdecl

theorem run_filled : ∀ (cs : List (Call D T)) {s s' : St D T} {os}, Inv s → s.view.filled →
    run true s cs = some (os, s') → s'.view.filled
  | [], s, s', os, _, h, hr => by
    simp only [run, Option.some.injEq, Prod.mk.injEq] at hr
    rw [← hr.2]; exact h
  | c :: cs, s, s', os, hI, h, hr => by
    obtain ⟨⟨o, s1⟩, hs, _, h2⟩ := step_view hI c
    unfold run at hr
    rw [hs] at hr
    dsimp only at hr h2
    have hI1 := (step_keeps true hI c hs).1
    have hf : s1.view.filled := by rw [h2]; exact step_filled h c
    split_ifs at hr
    · simp only [Option.map_eq_some_iff, Prod.mk.injEq] at hr
      obtain ⟨⟨os', s2⟩, hr, _, rfl⟩ := hr
      exact run_filled cs hI1 hf hr
    · simp only [Option.some.injEq, Prod.mk.injEq] at hr
      rw [← hr.2]; exact hf

theorem Reachable.filled {s : St D T} (h : Reachable true s) : s.view.filled := by
  obtain ⟨one, cs, os, h⟩ := h
  refine run_filled cs (init_inv one) ?_ h
  intro n nd hn
  simp [St.view, St.init, St.lookup] at hn

/-- Every object node of a session refers to a mesh node. -/
theorem Reachable.object {s : St D T} (h : Reachable true s) {n p} (hl : s.lookup .object n = some p) :
    ∃ m x nd, s.object p = some (m, x) ∧ s.node m = some nd ∧ nd.kind = .mesh := by
  have hI := h.inv
  obtain ⟨nd, hn, hk, hm⟩ := (hI.look _ _ _).1 hl
  have he : s.view.entry (.object, n) = some (s.viewNode nd) := by
    simp [St.view, hl, hn]
  obtain ⟨m, sh, e, x, hp⟩ := h.filled n _ he
  unfold St.viewNode at hp
  dsimp only at hp
  obtain ⟨d, hd, hv⟩ := Option.map_eq_some_iff.1 hp
  unfold St.viewDef at hv
  simp only [ADef.mk.injEq] at hv
  obtain ⟨_, hrefs, _, hxf⟩ := hv
  cases hr : d.refs with
  | nil => rw [hr] at hrefs; simp at hrefs
  | cons q rest =>
    rw [hr] at hrefs
    simp only [List.map_cons, List.cons.injEq] at hrefs
    obtain ⟨hq, _⟩ := hrefs
    unfold St.key at hq
    obtain ⟨nm, hnm, hkey⟩ := Option.map_eq_some_iff.1 hq
    obtain ⟨q', hq', hnode⟩ := Option.bind_eq_some_iff.1 hnm
    subst hq'
    simp only [Prod.mk.injEq] at hkey
    refine ⟨q', x, nm, ?_, hnode, hkey.1⟩
    simp [St.object, hn, hd, hr, hxf]

/-! ### The timer -/

theorem timed_throw_on {a : Desc D T} {body : Desc D T → Out × Desc D T}
    (hb : ∀ a : Desc D T, (body a).2.apiOn = a.apiOn) (h : (a.timed true body).1 = .throw) :
    (a.timed true body).2.apiOn = true := by
  have := hb { a with apiOn := true }
  unfold Desc.timed at *
  rw [if_pos rfl] at *
  by_cases hap : a.apiOn = true
  · rw [if_pos hap] at *; exact hap
  · rw [if_neg hap] at *
    dsimp only at *
    split at h
    · rename_i heq
      rw [this, if_pos rfl] at h
      simp at h
    · exact this

theorem step_throw_on {a : Desc D T} (c : Call D T) (h : (a.step c).1 = .throw) : (a.step c).2.apiOn = true := by
  have hdecl : ∀ a : Desc D T, (a.declBody c).2.apiOn = a.apiOn := by
    intro a
    unfold Desc.declBody
    cases hd : decl? c with
    | none => rfl
    | some d => exact declare_api d a
  cases c
  case object n m sh e i =>
    unfold Desc.step at *
    dsimp only at *
    unfold Desc.object at *
    by_cases hap : a.apiOn = true
    · rw [if_pos hap] at *; exact hap
    · rw [if_neg hap] at *
      dsimp only at *
      split at h
      · simp at h
      · rename_i nd heq
        split_ifs at h with hp
        rw [if_pos hp]; rfl
  case accel t =>
    refine timed_throw_on ?_ h
    intro a
    unfold Desc.accelBody
    split_ifs <;> rfl
  case scene n i sa cm m d sdf =>
    refine timed_throw_on ?_ h
    intro a
    unfold Desc.sceneBody
    split_ifs <;> rfl
  case transform f => exact timed_throw_on (fun _ => rfl) h
  all_goals exact timed_throw_on hdecl h

end Feign.Api
