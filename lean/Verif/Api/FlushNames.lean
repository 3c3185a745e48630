import Verif.Api.FlushProps

/-!
# Completeness of a description by names

`Complete` (`FlushProps.lean`) in terms of the description by names.
-/

set_option linter.unusedSectionVars false
namespace Feign.Api
variable {D T : Type}

/-- A name with a definition. -/
def Desc.Has (a : Desc D T) (k : Key) : Prop := ∃ n, a.entry k = some n ∧ n.payload.isSome = true

/-- Everything the description refers to is defined. -/
structure Desc.Complete (a : Desc D T) (sc : AScene D) : Prop where
  meshes : ∀ n nd d k, a.entry (.object, n) = some nd → nd.payload = some d → d.refs.head? = some (some k) → a.Has k
  emitters : ∀ n nd, a.entry (.emitter, n) = some nd → nd.owner.isSome = true → nd.payload.isSome = true
  camera : ∃ k, sc.camera = some k ∧ a.Has k
  media : ∀ n nd, a.entry (.media, n) = some nd → ∃ d te ph sa de tf, nd.payload = some d ∧
    d.refs = [some te, ph, some sa, some de, some tf] ∧ a.Has te ∧ a.Has sa ∧ a.Has de
  integrator : ∃ k nd d f, sc.integrator = some k ∧ a.entry k = some nd ∧ nd.payload = some d ∧
    d.refs.head? = some (some f) ∧ a.Has f
  sampler : ∃ k, sc.sampler = some k ∧ a.Has k

theorem has_node {s : St D T} (hI : Inv s) {q nd} (hn : s.node q = some nd) :
    s.defined q = true ↔ s.view.Has (nd.kind, nd.name) := by
  have he := entry_some (k := (nd.kind, nd.name)) (hI.lookup_of_node hn) hn
  unfold Desc.Has St.defined
  rw [he, hn]
  simp [St.viewNode]

theorem key_valid {s : St D T} {r : Ptr} (hr : ∀ q, r = some q → q < s.nodes.length) (k : Key) :
    s.key r = some k ↔ ∃ q nd, r = some q ∧ s.node q = some nd ∧ k = (nd.kind, nd.name) := by
  unfold St.key
  rw [Option.map_eq_some_iff]
  constructor
  · rintro ⟨nd, h, rfl⟩
    obtain ⟨q, hq, hn⟩ := Option.bind_eq_some_iff.1 h
    exact ⟨q, nd, hq, hn, rfl⟩
  · rintro ⟨q, nd, rfl, hn, rfl⟩
    exact ⟨nd, hn, rfl⟩

theorem key_none {s : St D T} {r : Ptr} (hr : ∀ q, r = some q → q < s.nodes.length) : s.key r = none ↔ r = none := by
  cases r with
  | none => simp [St.key]
  | some q =>
    have : ∃ nd, s.node q = some nd := ⟨_, List.getElem?_eq_getElem (hr q rfl)⟩
    obtain ⟨nd, hn⟩ := this
    simp [St.key, hn]

theorem any_defined {s : St D T} (hI : Inv s) {r : Ptr} (hr : ∀ q, r = some q → q < s.nodes.length) :
    r.any s.defined = true ↔ ∃ k, s.key r = some k ∧ s.view.Has k := by
  rw [Option.any_eq_true]
  constructor
  · rintro ⟨q, rfl, hd⟩
    have : ∃ nd, s.node q = some nd := ⟨_, List.getElem?_eq_getElem (hr q rfl)⟩
    obtain ⟨nd, hn⟩ := this
    exact ⟨_, by simp [St.key, hn], (has_node hI hn).1 hd⟩
  · rintro ⟨k, hk, hh⟩
    obtain ⟨q, nd, rfl, hn, rfl⟩ := (key_valid hr k).1 hk
    exact ⟨q, rfl, (has_node hI hn).2 hh⟩

theorem lookup_entry {s : St D T} (hI : Inv s) {k : Key} {n : ANode D T} :
    s.view.entry k = some n ↔ ∃ p nd, s.lookup k.1 k.2 = some p ∧ s.node p = some nd ∧ n = s.viewNode nd := by
  constructor
  · intro h
    cases hl : s.lookup k.1 k.2 with
    | none => rw [entry_none hl] at h; simp at h
    | some p =>
      obtain ⟨nd, hn, -, -⟩ := (hI.look _ _ _).1 hl
      rw [entry_some hl hn, Option.some.injEq] at h
      exact ⟨p, nd, rfl, hn, h.symm⟩
  · rintro ⟨p, nd, hl, hn, rfl⟩
    exact entry_some hl hn

theorem mediumOk_iff {s : St D T} (hI : Inv s) {p nd} (hn : s.node p = some nd) :
    mediumOk s p = true ↔ ∃ d te ph sa de tf, (s.viewNode nd).payload = some d ∧
      d.refs = [some te, ph, some sa, some de, some tf] ∧ s.view.Has te ∧ s.view.Has sa ∧ s.view.Has de := by
  unfold mediumOk St.viewNode
  rw [hn]
  simp only [Option.bind_some]
  cases hp : nd.payload with
  | none => simp
  | some d =>
    have hv : ∀ r ∈ d.refs, ∀ q, r = some q → q < s.nodes.length := by
      rintro r hr q rfl
      exact hI.refs p nd d hn hp q hr
    simp only [Option.map_some, Option.some.injEq]
    have hlen : (s.viewDef d).refs = d.refs.map s.key := rfl
    constructor
    · intro h
      split at h
      · rename_i te ph sa de tf hrefs
        rw [hrefs] at hv hlen
        simp only [List.mem_cons, List.not_mem_nil, or_false, forall_eq_or_imp, forall_eq] at hv
        simp only [Bool.and_eq_true, any_defined hI hv.1, any_defined hI hv.2.2.1, any_defined hI hv.2.2.2.1] at h
        obtain ⟨⟨⟨⟨k1, h1, g1⟩, ⟨k2, h2, g2⟩⟩, ⟨k3, h3, g3⟩⟩, h4⟩ := h
        obtain ⟨tq, rfl⟩ := Option.isSome_iff_exists.1 h4
        have h5 : s.key (some tq) ≠ none := fun h => by
          have := (key_none hv.2.2.2.2).1 h
          simp at this
        obtain ⟨k5, h5⟩ := Option.ne_none_iff_exists'.1 h5
        exact ⟨_, k1, s.key ph, k2, k3, k5, rfl, by rw [hlen]; simp [h1, h2, h3, h5], g1, g2, g3⟩
      · simp at h
    · rintro ⟨d', te, ph, sa, de, tf, rfl, hr, g1, g2, g3⟩
      rw [hlen] at hr
      match hd : d.refs with
      | [r1, r2, r3, r4, r5] =>
        rw [hd] at hr hv
        simp only [List.map_cons, List.map_nil, List.cons.injEq, and_true] at hr
        simp only [List.mem_cons, List.not_mem_nil, or_false, forall_eq_or_imp, forall_eq] at hv
        simp only [Bool.and_eq_true, any_defined hI hv.1, any_defined hI hv.2.2.1, any_defined hI hv.2.2.2.1]
        refine ⟨⟨⟨⟨te, hr.1, g1⟩, ⟨sa, hr.2.2.1, g2⟩⟩, ⟨de, hr.2.2.2.1, g3⟩⟩, ?_⟩
        rw [Option.isSome_iff_ne_none]
        intro h
        have := (key_none hv.2.2.2.2).2 h
        rw [hr.2.2.2.2] at this
        simp at this
      | [] => rw [hd] at hr; simp at hr
      | [_] => rw [hd] at hr; simp at hr
      | [_, _] => rw [hd] at hr; simp at hr
      | [_, _, _] => rw [hd] at hr; simp at hr
      | [_, _, _, _] => rw [hd] at hr; simp at hr
      | _ :: _ :: _ :: _ :: _ :: _ :: _ => rw [hd] at hr; simp at hr

/-- A session is complete if its description is. -/
theorem complete_view {s : St D T} (hs : Reachable true s) {sc} (hsc : s.scene = some sc) :
    Complete s sc ↔ s.view.Complete (s.viewScene sc) := by
  have hI := hs.inv
  have hv := hI.scene sc hsc
  have hcam : ∀ q, sc.camera = some q → q < s.nodes.length := fun q h => hv q (Or.inr (Or.inr (Or.inl h)))
  have hsam : ∀ q, sc.sampler = some q → q < s.nodes.length := fun q h => hv q (Or.inr (Or.inl h))
  have hint : ∀ q, sc.integrator = some q → q < s.nodes.length := fun q h => hv q (Or.inl h)
  have any : ∀ r : Ptr, (∀ q, r = some q → q < s.nodes.length) →
      ((∃ p, r = some p ∧ s.defined p = true) ↔ ∃ k, s.key r = some k ∧ s.view.Has k) := by
    intro r hr
    rw [← any_defined hI hr, Option.any_eq_true]
  have hmesh : (∀ n p, s.lookup .object n = some p → ∃ m, s.meshOf p = some m ∧ s.defined m = true) ↔
      ∀ n nd d k, s.view.entry (.object, n) = some nd → nd.payload = some d → d.refs.head? = some (some k) →
        s.view.Has k := by
    constructor
    · intro h n nd d k he hp hh
      obtain ⟨p, nd', hl, hn, rfl⟩ := (lookup_entry hI).1 he
      obtain ⟨m, hm, hd⟩ := h n p hl
      obtain ⟨m', x, mn, ho, hmn, hk⟩ := hs.object hl
      have : m' = m := by simpa [St.meshOf, ho] using hm
      subst this
      obtain ⟨d', hd', rfl⟩ := Option.map_eq_some_iff.1 hp
      have hhead : d'.refs.head? = some (some m') := by
        simp only [St.object, hn, hd', Option.bind_eq_bind, Option.bind_some] at ho
        cases hr : d'.refs.head? with
        | none => rw [hr] at ho; simp at ho
        | some r =>
          rw [hr] at ho
          cases r with
          | none => simp at ho
          | some q =>
            cases hx : d'.xf <;> simp [hx] at ho
            rw [ho.1]
      have : k = (mn.kind, mn.name) := by
        unfold St.viewDef at hh
        simp only [List.head?_map, hhead, Option.map_some, Option.some.injEq] at hh
        simp only [St.key, Option.bind_some, hmn, Option.map_some, Option.some.injEq] at hh
        exact hh.symm
      rw [this]
      exact (has_node hI hmn).1 hd
    · intro h n p hl
      obtain ⟨m, x, mn, ho, hmn, hk⟩ := hs.object hl
      refine ⟨m, by simp [St.meshOf, ho], (has_node hI hmn).2 ?_⟩
      obtain ⟨nd, hn, -, -⟩ := (hI.look _ _ _).1 hl
      cases hp : nd.payload with
      | none => simp [St.object, hn, hp] at ho
      | some d =>
        refine h n _ (s.viewDef d) _ (entry_some (k := (.object, n)) hl hn) (by simp [St.viewNode, hp]) ?_
        simp only [St.object, hn, hp, Option.bind_eq_bind, Option.bind_some] at ho
        unfold St.viewDef
        simp only [List.head?_map]
        cases hr : d.refs.head? with
        | none => rw [hr] at ho; simp at ho
        | some r =>
          rw [hr] at ho
          cases r with
          | none => simp at ho
          | some q =>
            cases hx : d.xf <;> simp [hx] at ho
            rw [ho.1]
            simp [St.key, hmn]
  have hem : (∀ n p nd, s.lookup .emitter n = some p → s.node p = some nd → nd.owner.isSome → nd.payload.isSome) ↔
      ∀ n nd, s.view.entry (.emitter, n) = some nd → nd.owner.isSome = true → nd.payload.isSome = true := by
    constructor
    · intro h n nd he how
      obtain ⟨p, nd', hl, hn, rfl⟩ := (lookup_entry hI).1 he
      have := h n p nd' hl hn (by
        cases ho : nd'.owner with
        | none => simp [St.viewNode, ho, St.key] at how
        | some q => rfl)
      simpa [St.viewNode] using this
    · intro h n p nd hl hn how
      have := h n _ (entry_some (k := (.emitter, n)) hl hn) (by
        rw [Option.isSome_iff_ne_none]
        intro hk
        have := (key_none (r := nd.owner) fun q hq => hI.owner p nd q hn hq).1 hk
        rw [this] at how
        simp at how)
      simpa [St.viewNode] using this
  have hmed : (∀ n p, s.lookup .media n = some p → mediumOk s p = true) ↔
      ∀ n nd, s.view.entry (.media, n) = some nd → ∃ d te ph sa de tf, nd.payload = some d ∧
        d.refs = [some te, ph, some sa, some de, some tf] ∧ s.view.Has te ∧ s.view.Has sa ∧ s.view.Has de := by
    constructor
    · intro h n nd he
      obtain ⟨p, nd', hl, hn, rfl⟩ := (lookup_entry hI).1 he
      exact (mediumOk_iff hI hn).1 (h n p hl)
    · intro h n p hl
      obtain ⟨nd, hn, -, -⟩ := (hI.look _ _ _).1 hl
      exact (mediumOk_iff hI hn).2 (h n _ (entry_some (k := (.media, n)) hl hn))
  have hinteg : (∃ p nd d f, sc.integrator = some p ∧ s.node p = some nd ∧ nd.payload = some d ∧
        d.refs.head? = some (some f) ∧ s.defined f = true) ↔
      ∃ k nd d f, (s.viewScene sc).integrator = some k ∧ s.view.entry k = some nd ∧ nd.payload = some d ∧
        d.refs.head? = some (some f) ∧ s.view.Has f := by
    constructor
    · rintro ⟨p, nd, d, f, hp, hn, hd, hh, hf⟩
      have hfl : f < s.nodes.length := hI.refs p nd d hn hd f (List.mem_of_mem_head? hh)
      have : ∃ fn, s.node f = some fn := ⟨_, List.getElem?_eq_getElem hfl⟩
      obtain ⟨fn, hfn⟩ := this
      refine ⟨(nd.kind, nd.name), s.viewNode nd, s.viewDef d, (fn.kind, fn.name), ?_,
        entry_some (k := (nd.kind, nd.name)) (hI.lookup_of_node hn) hn, by simp [St.viewNode, hd], ?_, (has_node hI hfn).1 hf⟩
      · simp [St.viewScene, hp, St.key, hn]
      · simp [St.viewDef, hh, St.key, hfn]
    · rintro ⟨k, nd, d, f, hk, he, hd, hh, hf⟩
      obtain ⟨p, nd', hp, hn, rfl⟩ := (key_valid hint k).1 hk
      obtain ⟨p', nd2, hl, hn', rfl⟩ := (lookup_entry hI).1 he
      have e := hI.lookup_of_node hn
      rw [e, Option.some.injEq] at hl
      subst hl
      rw [hn, Option.some.injEq] at hn'
      subst hn'
      obtain ⟨d', hd', rfl⟩ := Option.map_eq_some_iff.1 hd
      have hh' : d'.refs.head?.map s.key = some (some f) := by rw [← List.head?_map]; exact hh
      obtain ⟨r, hr, hrf⟩ := Option.map_eq_some_iff.1 hh'
      obtain ⟨q, qn, rfl, hqn, rfl⟩ := (key_valid (r := r) (fun q hq => by
        subst hq; exact hI.refs p nd' d' hn hd' q (List.mem_of_mem_head? hr)) f).1 hrf
      exact ⟨p, nd', d', q, hp, hn, hd', hr, (has_node hI hqn).2 hf⟩
  constructor
  · rintro ⟨h1, h2, h3, h4, h5, h6⟩
    exact ⟨hmesh.1 h1, hem.1 h2, (any _ hcam).1 h3, hmed.1 h4, hinteg.1 h5, (any _ hsam).1 h6⟩
  · rintro ⟨h1, h2, h3, h4, h5, h6⟩
    exact ⟨hmesh.2 h1, hem.2 h2, (any _ hcam).2 h3, hmed.2 h4, hinteg.2 h5, (any _ hsam).2 h6⟩

end Feign.Api
