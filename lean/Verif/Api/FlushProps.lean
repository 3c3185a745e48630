import Verif.Api.FlushLemmas

/-!
# Failed calls, instances, placement and dangling references

C16, C18, C61, C62.
-/

set_option linter.unusedSectionVars false
namespace Feign.Api
variable {D T : Type}

/-! ### C16 -/

theorem run_on : ∀ (cs : List (Call D T)) {s s' : St D T} {os}, s.apiOn = true → run true s cs = some (os, s') →
    s' = s ∧ ∀ o ∈ os, o = .throw
  | [], s, s', os, _, hr => by
    simp only [run, Option.some.injEq, Prod.mk.injEq] at hr
    rw [← hr.1, ← hr.2]; simp
  | c :: cs, s, s', os, hon, hr => by
    unfold run at hr
    rw [step_on hon c] at hr
    simp only [or_true, if_true, Option.map_eq_some_iff, Prod.mk.injEq] at hr
    obtain ⟨⟨os', s2⟩, hr, rfl, rfl⟩ := hr
    obtain ⟨h1, h2⟩ := run_on cs hon hr
    exact ⟨h1, by simpa using h2⟩

theorem run_throw : ∀ (cs : List (Call D T)) {s s' : St D T} {os}, Inv s → run true s cs = some (os, s') →
    (.throw ∈ os → s'.apiOn = true) ∧ ∀ os1 os2, os = os1 ++ .throw :: os2 → ∀ o ∈ os2, o = .throw
  | [], s, s', os, _, hr => by
    simp only [run, Option.some.injEq, Prod.mk.injEq] at hr
    rw [← hr.1]; simp
  | c :: cs, s, s', os, hI, hr => by
    obtain ⟨⟨o, s1⟩, hs, h1, h2⟩ := step_view hI c
    unfold run at hr
    rw [hs] at hr
    dsimp only at hr h1 h2
    have hI1 := (step_keeps true hI c hs).1
    have hthrow : o = .throw → s1.apiOn = true := by
      intro ho
      rw [h1] at ho
      have h3 := step_throw_on c ho
      rw [← h2] at h3
      exact h3
    split_ifs at hr with hc
    · simp only [Option.map_eq_some_iff, Prod.mk.injEq] at hr
      obtain ⟨⟨os', s2⟩, hr, rfl, rfl⟩ := hr
      have ih := run_throw cs hI1 hr
      refine ⟨?_, ?_⟩
      · intro hm
        rcases List.mem_cons.1 hm with ho | hm
        · obtain ⟨rfl, _⟩ := run_on cs (hthrow ho.symm) hr
          exact hthrow ho.symm
        · exact ih.1 hm
      · intro os1 os2 he
        cases os1 with
        | nil =>
          simp only [List.nil_append, List.cons.injEq] at he
          obtain ⟨ho, rfl⟩ := he
          exact (run_on cs (hthrow ho) hr).2
        | cons x os1 =>
          simp only [List.cons_append, List.cons.injEq] at he
          exact ih.2 os1 os2 he.2
    · simp only [Option.some.injEq, Prod.mk.injEq] at hr
      obtain ⟨rfl, rfl⟩ := hr
      refine ⟨?_, ?_⟩
      · intro hm
        simp only [List.mem_singleton] at hm
        exact absurd (Or.inr hm.symm) hc
      · intro os1 os2 he
        cases os1 with
        | nil => simp only [List.nil_append, List.cons.injEq] at he; intro o ho; rw [← he.2] at ho; simp at ho
        | cons x os1 =>
          simp only [List.cons_append, List.cons.injEq] at he
          simp at he

/-- **C16.** In every session: after a call has thrown, all later calls throw, they change nothing, and
requesting the render throws before anything is rendered. -/
theorem failed_call_poisons {s s' : St D T} (hs : Reachable true s) {cs os} (h : run true s cs = some (os, s'))
    (hf : .throw ∈ os) :
    (∀ os1 os2, os = os1 ++ .throw :: os2 → ∀ o ∈ os2, o = .throw) ∧
    (∀ c, step true s' c = some (.throw, s')) ∧
    ∀ mul one obs ems mds, flush true mul one s' obs ems mds = (.throw, Asm.init one) := by
  have h1 := run_throw cs hs.inv h
  have hon := h1.1 hf
  refine ⟨h1.2, fun c => step_on hon c, ?_⟩
  intro mul one obs ems mds
  unfold flush
  simp [hon]

/-- A session with a rejected call in the middle. -/
example : (run true (St.init 0) ([.bsdf "b" "diffuse" (), .sampler "s" "sobol" (), .bsdf "c" "diffuse" ()] :
    List (Call Unit ℕ))).map (·.1) = some [.ok, .throw, .throw] := by decide

/-- Without the timers the session goes on after a failure, so the property rests on the timers being on. -/
theorem failed_call_ignored_without_timers : ∃ s : St Unit ℕ,
    run false (St.init 0) [.sampler "s" "sobol" (), .bsdf "c" "diffuse" ()] = some ([.throw, .ok], s) :=
  ⟨_, rfl⟩

/-! ### C18 -/

theorem last_index {os : List Nat} {f : Nat → Option Nat} {m j : Nat} (hj : os[j]?.bind f = some m) :
    ∃ l, os[l]?.bind f = some m ∧ (∀ j', l < j' → os[j']?.bind f ≠ some m) ∧ j ≤ l := by
  by_contra hne
  have hinf : ∀ n, ∃ l, n ≤ l ∧ os[l]?.bind f = some m ∧ j ≤ l := by
    intro n
    induction n with
    | zero => exact ⟨j, Nat.zero_le _, hj, le_refl _⟩
    | succ n ih =>
      obtain ⟨l, hl, hlm, hjl⟩ := ih
      by_contra hno
      apply hne
      refine ⟨l, hlm, ?_, hjl⟩
      intro j' hlj' hc
      exact hno ⟨j', by omega, hc, by omega⟩
  obtain ⟨l, hl, hlm, _⟩ := hinf os.length
  rw [List.getElem?_eq_none hl] at hlm
  simp at hlm

/-- **C18**, exactly: whatever the iteration order, a hit on an object's shape is shaded with that object's
material if and only if no object later in that order uses the same shape. -/
theorem instance_resolves_iff (mul : T → T → T) (one : T) {s : St D T} {os : List Nat} (hnd : os.Nodup) {a : Asm T}
    (h : assemble mul s os (Asm.init one) = (.ok, a)) {j o m : Nat} (hj : os[j]? = some o)
    (hm : s.meshOf o = some m) :
    a.shadedAs m = some o ↔ ∀ j' o', j < j' → os[j']? = some o' → s.meshOf o' ≠ some m := by
  have hok := assemble_ok os h
  have hob : a.objects = os := by rw [hok.objects]; simp [Asm.init]
  obtain ⟨l, hl, hlast, hjl⟩ := last_index (os := os) (f := s.meshOf) (m := m) (j := j) (by simp [hj, hm])
  have hinst := hok.last m l hl hlast
  have hn : (Asm.init one : Asm T).next = 0 := rfl
  rw [hn, Nat.zero_add] at hinst
  obtain ⟨ol, hol, holm⟩ := Option.bind_eq_some_iff.1 hl
  have hsh : a.shadedAs m = some ol := by
    unfold Asm.shadedAs
    rw [hinst, hob]
    exact hol
  rw [hsh]
  constructor
  · intro he
    simp only [Option.some.injEq] at he
    subst he
    have hjl' : l = j := by
      have hlt : l < os.length := by
        by_contra hge
        rw [List.getElem?_eq_none (by omega)] at hol
        simp at hol
      exact (List.getElem?_inj hlt hnd).1 (by rw [hol, hj])
    subst hjl'
    intro j' o' hjj' ho' hm'
    exact hlast j' hjj' (by simp [ho', hm'])
  · intro hall
    rcases Nat.lt_or_ge j l with hlt | hge
    · exact absurd holm (hall l ol hlt hol)
    · have : j = l := by omega
      subst this
      rw [hj] at hol
      simpa using hol.symm

/-- **C18**, partial: if no two objects name the same mesh, every hit on an object's shape is shaded as that
object. -/
theorem instances_resolve_partial (mul : T → T → T) (one : T) {s : St D T} {os : List Nat} (hos : IsOrder s .object os)
    {a : Asm T} (h : assemble mul s os (Asm.init one) = (.ok, a))
    (hdist : ∀ n n' p p', s.lookup .object n = some p → s.lookup .object n' = some p' → s.meshOf p = s.meshOf p' → p = p')
    {n p : _} (hp : s.lookup .object n = some p) : ∃ m, s.meshOf p = some m ∧ m ∈ a.shapes ∧ a.shadedAs m = some p := by
  have hmem := (hos.2 p).2 ⟨n, hp⟩
  have hok := assemble_ok os h
  obtain ⟨m, hm, _⟩ := hok.defined p hmem
  obtain ⟨j, hj⟩ := List.mem_iff_getElem?.1 hmem
  refine ⟨m, hm, ?_, ?_⟩
  · have hs := hok.shapes
    have : some m ∈ a.shapes.map some := by
      rw [hs]
      simp only [Asm.init, List.map_nil, List.nil_append, List.mem_map]
      exact ⟨p, hmem, hm⟩
    simpa using this
  · rw [instance_resolves_iff mul one hos.1 h hj hm]
    intro j' o' hjj' ho' hm'
    obtain ⟨n', hp'⟩ := (hos.2 o').1 (List.mem_of_getElem? ho')
    have heq := hdist n n' p o' hp hp' (by rw [hm, hm'])
    subst heq
    have hlt : j < os.length := by
      by_contra hge
      rw [List.getElem?_eq_none (by omega)] at hj
      simp at hj
    have := (List.getElem?_inj (j := j') hlt hos.1).1 (by rw [hj, ho'])
    omega

/-- **C18 refuted.** As soon as two objects name one mesh, one of them is shaded with the material of another
object, in every iteration order. -/
theorem shared_mesh_refuted (mul : T → T → T) (one : T) {s : St D T} {os : List Nat} (hos : IsOrder s .object os)
    {a : Asm T} (h : assemble mul s os (Asm.init one) = (.ok, a)) {n n' : String} {p p' : Nat}
    (hp : s.lookup .object n = some p) (_hp' : s.lookup .object n' = some p') (hne : p ≠ p')
    (hm : s.meshOf p = s.meshOf p') :
    ∃ q m, (q = p ∨ q = p') ∧ s.meshOf q = some m ∧ a.shadedAs m ≠ some q := by
  have hok := assemble_ok os h
  obtain ⟨m, hmm, _⟩ := hok.defined p ((hos.2 p).2 ⟨n, hp⟩)
  by_cases hc : a.shadedAs m = some p
  · refine ⟨p', m, Or.inr rfl, by rw [← hm, hmm], ?_⟩
    rw [hc]
    simpa using hne
  · exact ⟨p, m, Or.inl rfl, hmm, hc⟩

/-- Two objects `"a"`, `"b"` sharing the mesh `"m"`. -/
def sharing : List (Call Unit ℕ) :=
  [.mesh "m" "sdf_sphere" "" "" "null" "null" (), .transform (fun _ => 2), .object "a" "m" "red" "null" (-1),
   .transform (fun _ => 3), .object "b" "m" "blue" "null" (-1)]

/-- The hypotheses of the refutation are met by a session without errors. -/
example : (run true (St.init 1) sharing).map (fun r =>
    (r.1, r.2.lookup .object "a", r.2.lookup .object "b", r.2.meshOf 1, r.2.meshOf 3)) =
    some ([.ok, .ok, .ok, .ok, .ok], some 1, some 3, some 0, some 0) := by decide
example : (run true (St.init 1) sharing).map (fun r =>
    ((assemble (· * ·) r.2 [1, 3] (Asm.init 1)).1, (assemble (· * ·) r.2 [1, 3] (Asm.init 1)).2.shadedAs 0)) =
    some (.ok, some 3) := by decide

/-! ### C62 -/

/-- **C62**, exactly: the transform a shape ends up with is the product of the transforms of all objects that
use it, in iteration order. -/
theorem placement (mul : T → T → T) (one : T) {s : St D T} {os : List Nat} {a : Asm T}
    (h : assemble mul s os (Asm.init one) = (.ok, a)) (m : Nat) :
    a.xf m = (s.xfsOf m os).foldl (fun acc x => mul x acc) one := (assemble_ok os h).xf m

/-- **C62**, partial: an object that is alone in using its mesh is placed by its own transform. -/
theorem placement_partial (mul : T → T → T) (one : T) {s : St D T} {os : List Nat} (hos : IsOrder s .object os)
    {a : Asm T} (h : assemble mul s os (Asm.init one) = (.ok, a)) {n : String} {p m : Nat} {x : T}
    (hp : s.lookup .object n = some p) (hobj : s.object p = some (m, x))
    (halone : ∀ n' p', s.lookup .object n' = some p' → s.meshOf p' = some m → p' = p) :
    a.xf m = mul x one := by
  rw [placement mul one h m]
  have hmem := (hos.2 p).2 ⟨n, hp⟩
  have hx : s.xfsOf m os = [x] := by
    obtain ⟨l1, l2, rfl⟩ := List.append_of_mem hmem
    have hnd := hos.1
    have hothers : ∀ o ∈ l1 ++ p :: l2, o ≠ p → ((s.object o).bind fun r => if r.1 = m then some r.2 else none) = none := by
      intro o ho hne
      obtain ⟨n', hn'⟩ := (hos.2 o).1 ho
      cases hs : s.object o with
      | none => rfl
      | some r =>
        simp only [Option.bind_some]
        rw [if_neg]
        intro hr
        exact hne (halone n' o hn' (by simp [St.meshOf, hs, hr]))
    have hnone : ∀ l : List Nat, (∀ o ∈ l, ((s.object o).bind fun r => if r.1 = m then some r.2 else none) = none) →
        s.xfsOf m l = [] := by
      intro l hl
      unfold St.xfsOf
      rw [List.filterMap_eq_nil_iff]
      exact hl
    have hnd' := List.nodup_append.1 hnd
    have hp2 := List.nodup_cons.1 hnd'.2.1
    have e1 : s.xfsOf m l1 = [] := hnone l1 (fun o ho => hothers o (by simp [ho]) (fun hc =>
      hnd'.2.2 o ho p (by simp) hc))
    have e2 : s.xfsOf m l2 = [] := hnone l2 (fun o ho => hothers o (by simp [ho]) (fun hc => hp2.1 (hc ▸ ho)))
    unfold St.xfsOf at *
    rw [List.filterMap_append, List.filterMap_cons, e1, e2]
    simp [hobj]
  rw [hx]
  rfl

/-- **C62 refuted.** Two objects moved by 2 and by 3 that share a mesh: the shape is moved by both
(transforms as numbers, composition as multiplication), so neither object is where it was put. -/
theorem placement_refuted : ∃ (s : St Unit ℕ) (os : List Nat) (m : Nat), Reachable true s ∧ IsOrder s .object os ∧
    s.object 1 = some (m, 2) ∧ s.object 3 = some (m, 3) ∧
    (assemble (· * ·) s os (Asm.init 1)).1 = .ok ∧ (assemble (· * ·) s os (Asm.init 1)).2.xf m = 6 := by
  refine ⟨((run true (St.init 1) sharing).getD ([], St.init 1)).2, [1, 3], 0, ⟨1, sharing, [.ok, .ok, .ok, .ok, .ok], ?_⟩, ?_,
    by decide, by decide, by decide, by decide⟩
  · rfl
  refine ⟨by decide, ?_⟩
  intro p
  have : ((run true (St.init 1) sharing).getD ([], St.init 1)).2.reg =
    [((.mesh, "m"), 0), ((.object, "a"), 1), ((.matShader, "red"), 2), ((.object, "b"), 3), ((.matShader, "blue"), 4)] := by
    decide
  unfold St.lookup
  rw [this]
  constructor
  · intro hp
    simp only [List.mem_cons, List.not_mem_nil, or_false] at hp
    rcases hp with rfl | rfl
    · exact ⟨"a", by decide⟩
    · exact ⟨"b", by decide⟩
  · rintro ⟨n, hn⟩
    by_cases h1 : n = "a"
    · subst h1
      have : p = 1 := by
        have h2 : List.lookup (Kind.object, "a") [((Kind.mesh, "m"), 0), ((.object, "a"), 1), ((.matShader, "red"), 2),
          ((.object, "b"), 3), ((.matShader, "blue"), 4)] = some 1 := by decide
        rw [h2] at hn
        simpa using hn.symm
      simp [this]
    · by_cases h2 : n = "b"
      · subst h2
        have : p = 3 := by
          have h2 : List.lookup (Kind.object, "b") [((Kind.mesh, "m"), 0), ((.object, "a"), 1), ((.matShader, "red"), 2),
            ((.object, "b"), 3), ((.matShader, "blue"), 4)] = some 3 := by decide
          rw [h2] at hn
          simpa using hn.symm
        simp [this]
      · have e1 : ((Kind.object, n) == (Kind.mesh, "m")) = false := by simp
        have e2 : ((Kind.object, n) == (Kind.object, "a")) = false := by simpa using h1
        have e3 : ((Kind.object, n) == (Kind.matShader, "red")) = false := by simp
        have e4 : ((Kind.object, n) == (Kind.object, "b")) = false := by simpa using h2
        have e5 : ((Kind.object, n) == (Kind.matShader, "blue")) = false := by simp
        simp [List.lookup, e1, e2, e3, e4, e5] at hn

/-! ### C61 -/

/-- Everything the scene refers to has been defined. -/
structure Complete (s : St D T) (sc : SceneRec D) : Prop where
  meshes : ∀ n p, s.lookup .object n = some p → ∃ m, s.meshOf p = some m ∧ s.defined m = true
  emitters : ∀ n p nd, s.lookup .emitter n = some p → s.node p = some nd → nd.owner.isSome → nd.payload.isSome
  camera : ∃ p, sc.camera = some p ∧ s.defined p = true
  media : ∀ n p, s.lookup .media n = some p → mediumOk s p = true
  integrator : ∃ p nd d f, sc.integrator = some p ∧ s.node p = some nd ∧ nd.payload = some d ∧
    d.refs.head? = some (some f) ∧ s.defined f = true
  sampler : ∃ p, sc.sampler = some p ∧ s.defined p = true

/-- **C61**, what holds: a session without a failed call whose references are all defined renders. -/
theorem complete_renders (mul : T → T → T) (one : T) {s : St D T} (hs : Reachable true s) (hoff : s.apiOn = false)
    {sc} (hsc : s.scene = some sc) {os es ms} (ho : IsOrder s .object os) (he : IsOrder s .emitter es)
    (hm : IsOrder s .media ms) : (flush true mul one s os es ms).1 = .ok ↔ Complete s sc := by
  have hI := hs.inv
  have hasm : (assemble mul s os (Asm.init one)).1 = .ok ↔
      ∀ n p, s.lookup .object n = some p → ∃ m, s.meshOf p = some m ∧ s.defined m = true := by
    rw [assemble_ok_iff]
    constructor
    · intro h n p hp
      exact h p ((ho.2 p).2 ⟨n, hp⟩)
    · intro h o ho'
      obtain ⟨n, hn⟩ := (ho.2 o).1 ho'
      exact h n o hn
  have hem : emittersOk s es = true ↔
      ∀ n p nd, s.lookup .emitter n = some p → s.node p = some nd → nd.owner.isSome → nd.payload.isSome := by
    unfold emittersOk
    rw [List.all_eq_true]
    constructor
    · intro h n p nd hp hn how
      have := h p ((he.2 p).2 ⟨n, hp⟩)
      rw [hn] at this
      dsimp only at this
      rw [Bool.or_eq_true] at this
      rcases this with h1 | h1
      · rw [Option.isNone_iff_eq_none] at h1; rw [h1] at how; simp at how
      · exact h1
    · intro h e he'
      obtain ⟨n, hn⟩ := (he.2 e).1 he'
      obtain ⟨nd, hnd, _, _⟩ := (hI.look _ _ _).1 hn
      rw [hnd]
      dsimp only
      cases how : nd.owner with
      | none => rfl
      | some q => rw [h n e nd hn hnd (by rw [how]; rfl)]; rfl
  have hme : ms.all (mediumOk s) = true ↔ ∀ n p, s.lookup .media n = some p → mediumOk s p = true := by
    rw [List.all_eq_true]
    constructor
    · intro h n p hp
      exact h p ((hm.2 p).2 ⟨n, hp⟩)
    · intro h o ho'
      obtain ⟨n, hn⟩ := (hm.2 o).1 ho'
      exact h n o hn
  unfold flush
  rw [hoff, hsc]
  simp only [Bool.and_false, Bool.false_eq_true, if_false]
  cases hr : assemble mul s os (Asm.init one) with
  | mk r a =>
    rw [hr] at hasm
    dsimp only at hasm
    by_cases hro : r = .ok
    · subst hro
      dsimp only
      by_cases h1 : emittersOk s es = true
      swap
      · have h1' : emittersOk s es = false := by simpa using h1
        simp only [h1', Bool.not_false, if_true, reduceCtorEq, false_iff]
        exact fun hc => h1 (hem.2 hc.emitters)
      simp only [h1, Bool.not_true, Bool.false_eq_true, if_false]
      by_cases h2 : sc.camera.any s.defined = true
      swap
      · have h2' : sc.camera.any s.defined = false := by simpa using h2
        simp only [h2', Bool.not_false, if_true, reduceCtorEq, false_iff]
        intro hc
        obtain ⟨p, hp, hd⟩ := hc.camera
        rw [hp] at h2'
        simp [hd] at h2'
      simp only [h2, Bool.not_true, Bool.false_eq_true, if_false]
      by_cases h3 : ms.all (mediumOk s) = true
      swap
      · have h3' : ms.all (mediumOk s) = false := by simpa using h3
        simp only [h3', Bool.not_false, if_true, reduceCtorEq, false_iff]
        exact fun hc => h3 (hme.2 hc.media)
      simp only [h3, Bool.not_true, Bool.false_eq_true, if_false]
      cases h4 : sc.integrator with
      | none =>
        simp only [reduceCtorEq, false_iff]
        intro hc
        obtain ⟨p, _, _, _, hp, _⟩ := hc.integrator
        rw [h4] at hp; simp at hp
      | some i =>
        dsimp only
        cases h5 : (s.node i).bind (·.payload) with
        | none =>
          simp only [reduceCtorEq, false_iff]
          intro hc
          obtain ⟨p, nd, d, f, hp, hn, hd, _⟩ := hc.integrator
          rw [h4] at hp
          simp only [Option.some.injEq] at hp
          subst hp
          rw [hn] at h5
          simp [hd] at h5
        | some d =>
          obtain ⟨nd, hnd, hpay⟩ := Option.bind_eq_some_iff.1 h5
          dsimp only
          cases h6 : sc.sampler with
          | none =>
            simp only [Option.isNone_none, if_true, reduceCtorEq, false_iff]
            intro hc
            obtain ⟨p, hp, _⟩ := hc.sampler
            rw [h6] at hp; simp at hp
          | some q =>
            simp only [Option.isNone_some, Bool.false_eq_true, if_false, Option.any_some]
            by_cases h7 : s.defined q = true
            swap
            · have h7' : s.defined q = false := by simpa using h7
              simp only [h7', Bool.not_false, if_true, reduceCtorEq, false_iff]
              intro hc
              obtain ⟨p, hp, hd⟩ := hc.sampler
              rw [h6] at hp
              simp only [Option.some.injEq] at hp
              subst hp
              exact h7 hd
            simp only [h7, Bool.not_true, Bool.false_eq_true, if_false]
            by_cases h8 : d.refs.head?.any (fun f => f.any s.defined) = true
            · simp only [h8, if_true, true_iff]
              rw [Option.any_eq_true] at h8
              obtain ⟨f, hf, h8⟩ := h8
              rw [Option.any_eq_true] at h8
              obtain ⟨g, hg, h8⟩ := h8
              subst hg
              obtain ⟨cam, hcam, hcd⟩ := (Option.any_eq_true _ _).1 h2
              exact ⟨hasm.1 rfl, hem.1 h1, ⟨cam, hcam, hcd⟩, hme.1 h3, ⟨i, nd, d, g, h4, hnd, hpay, hf, h8⟩, ⟨q, h6, h7⟩⟩
            · simp only [h8, Bool.false_eq_true, if_false, reduceCtorEq, false_iff]
              intro hc
              obtain ⟨p, nd', d', f, hp, hn, hd, hh, hdef⟩ := hc.integrator
              rw [h4] at hp
              simp only [Option.some.injEq] at hp
              subst hp
              rw [hnd, Option.some.injEq] at hn
              subst hn
              rw [hpay, Option.some.injEq] at hd
              subst hd
              rw [hh] at h8
              simp [hdef] at h8
    · have : ¬ Complete s sc := fun hc => hro (hasm.2 hc.meshes)
      cases r <;> simp_all

/-- **C61**, partial: if the mesh of some object was never defined, requesting the render throws. -/
theorem undefined_mesh_throws_partial (mul : T → T → T) (one : T) {s : St D T} (hs : Reachable true s)
    {sc} (hsc : s.scene = some sc) {os es ms} (ho : IsOrder s .object os) {n p m}
    (hp : s.lookup .object n = some p) (hm : s.meshOf p = some m) (hd : s.defined m = false) :
    (flush true mul one s os es ms).1 = .throw := by
  have h1 : (assemble mul s os (Asm.init one)).1 = .throw := by
    refine assemble_fail os ?_ ⟨p, (ho.2 p).2 ⟨n, hp⟩, m, hm, hd⟩
    intro o ho'
    obtain ⟨n', hn'⟩ := (ho.2 o).1 ho'
    obtain ⟨m', x, _, h, _⟩ := hs.object hn'
    rw [h]; rfl
  unfold flush
  by_cases hon : (true && s.apiOn) = true
  · rw [if_pos hon]
  · rw [if_neg hon, hsc]
    dsimp only
    cases hr : assemble mul s os (Asm.init one) with
    | mk r a =>
      rw [hr] at h1
      dsimp only at h1
      subst h1
      rfl

/-- A complete description: camera, integrator, sampler, light, object, mesh. -/
def complete : List (Call Unit ℕ) :=
  [.scene "s" "i" "sam" "cam" "" () true, .integrator "i" "path" "default" (), .sampler "sam" "independent" (),
   .camera "cam" "perspective" (), .emitter "e" "mesh" "" (), .object "o" "m" "sh" "e" (-1),
   .mesh "m" "sdf_sphere" "" "" "null" "null" (), .shader "sh" "simple_material" "b" "" (), .bsdf "b" "diffuse" ()]

/-- Pointers of the session `complete` in order of creation: integrator 0, sampler 1, camera 2, filter 3,
emitter 4, object 5, mesh 6. -/
example : (run true (St.init 1) complete).map (fun r => (r.1.all (· == .ok), (flush true (· * ·) 1 r.2 [5] [4] []).1)) =
    some (true, .ok) := by decide

/-- **C61 refuted.** An object naming a light that was never declared: every call succeeds and rendering
dereferences a null pointer. -/
theorem undefined_emitter_refuted : (run true (St.init 1)
    ([.scene "s" "i" "sam" "cam" "" () true, .integrator "i" "path" "default" (), .sampler "sam" "independent" (),
      .camera "cam" "perspective" (), .object "o" "m" "sh" "lamp" (-1), .mesh "m" "sdf_sphere" "" "" "null" "null" ()] :
      List (Call Unit ℕ))).map (fun r => (r.1.all (· == .ok), r.2.lookup .object "o", r.2.lookup .emitter "lamp",
        (flush true (· * ·) 1 r.2 [4] [7] []).1)) = some (true, some 4, some 7, .ub) := by decide

/-- **C61 refuted.** Likewise for a scene whose camera was never declared … -/
theorem undefined_camera_refuted : (run true (St.init 1)
    ([.scene "s" "i" "sam" "cam" "" () true, .integrator "i" "path" "default" (), .sampler "sam" "independent" ()] :
      List (Call Unit ℕ))).map (fun r => (r.1.all (· == .ok), (flush true (· * ·) 1 r.2 [] [] []).1)) =
    some (true, .ub) := by decide

/-- … and for an integrator naming any reconstruction filter other than "default": no call can define one. -/
theorem undefined_filter_refuted : (run true (St.init 1)
    ([.scene "s" "i" "sam" "cam" "" () true, .integrator "i" "path" "gauss" (), .sampler "sam" "independent" (),
      .camera "cam" "perspective" ()] :
      List (Call Unit ℕ))).map (fun r => (r.1.all (· == .ok), (flush true (· * ·) 1 r.2 [] [] []).1)) =
    some (true, .ub) := by decide

end Feign.Api
