import Verif.Api.NameSpec
import Mathlib.Tactic.Common

/-! Helper lemmas about the registry model. -/

set_option linter.unusedSectionVars false
namespace Feign.Api
variable {D T : Type}

/-- Pointers stored in the state are valid, the tables agree with the nodes. -/
structure Inv (s : St D T) : Prop where
  look : ∀ k n p, s.lookup k n = some p ↔ ∃ nd, s.node p = some nd ∧ nd.kind = k ∧ nd.name = n
  free : ∀ p nd, s.node p = some nd → reserved nd.kind nd.name = false
  refs : ∀ p nd d, s.node p = some nd → nd.payload = some d → ∀ q, some q ∈ d.refs → q < s.nodes.length
  owner : ∀ p nd q, s.node p = some nd → nd.owner = some q → q < s.nodes.length
  lights : ∀ q ∈ s.lights, q < s.nodes.length
  scene : ∀ r, s.scene = some r → ∀ q, (r.integrator = some q ∨ r.sampler = some q ∨ r.camera = some q ∨
    r.media = some q) → q < s.nodes.length
  dflt : (s.lookup .matShader "default").isSome → (s.lookup .bsdf "default").isSome

/-- Only nodes were added. -/
structure Grow (s s' : St D T) : Prop where
  nodes : s.nodes <+: s'.nodes
  look : ∀ k n p, s.lookup k n = some p → s'.lookup k n = some p
  scene : s'.scene = s.scene
  lights : s'.lights = s.lights
  accel : s'.accel = s.accel
  sdf : s'.sdfOnly = s.sdfOnly
  cur : s'.cur = s.cur
  api : s'.apiOn = s.apiOn

theorem Grow.refl (s : St D T) : Grow s s := ⟨List.prefix_refl _, fun _ _ _ h => h, rfl, rfl, rfl, rfl, rfl, rfl⟩

theorem Grow.trans {a b c : St D T} (h : Grow a b) (g : Grow b c) : Grow a c :=
  ⟨h.nodes.trans g.nodes, fun k n p e => g.look k n p (h.look k n p e), by rw [g.scene, h.scene], by rw [g.lights, h.lights],
   by rw [g.accel, h.accel], by rw [g.sdf, h.sdf], by rw [g.cur, h.cur], by rw [g.api, h.api]⟩

theorem Grow.node {a b : St D T} (h : Grow a b) {p nd} (hp : a.node p = some nd) : b.node p = some nd := by
  obtain ⟨l, hl⟩ := h.nodes
  unfold St.node at *
  rw [← hl, List.getElem?_append_left (by
    by_contra hc
    rw [List.getElem?_eq_none (by omega)] at hp
    simp at hp)]
  exact hp

theorem Grow.len {a b : St D T} (h : Grow a b) : a.nodes.length ≤ b.nodes.length := h.nodes.length_le

theorem Grow.key {a b : St D T} (h : Grow a b) {q : Nat} (hq : q < a.nodes.length) :
    b.key (some q) = a.key (some q) := by
  have ha : a.node q = some a.nodes[q] := List.getElem?_eq_getElem hq
  have hb := h.node ha
  simp [St.key, ha, hb]

theorem Grow.key' {a b : St D T} (h : Grow a b) {r : Ptr} (hr : ∀ q, r = some q → q < a.nodes.length) :
    b.key r = a.key r := by
  cases r with
  | none => rfl
  | some q => exact h.key (hr q rfl)

theorem node_lt {s : St D T} {p nd} (h : s.node p = some nd) : p < s.nodes.length := by
  by_contra hc
  unfold St.node at h
  rw [List.getElem?_eq_none (by omega)] at h
  simp at h

theorem Inv.lookup_lt {s : St D T} (h : Inv s) {k n p} (hl : s.lookup k n = some p) : p < s.nodes.length := by
  obtain ⟨nd, hn, _⟩ := (h.look k n p).1 hl
  exact node_lt hn

theorem Inv.key_of_lookup {s : St D T} (h : Inv s) {k n p} (hl : s.lookup k n = some p) :
    s.key (some p) = some (k, n) := by
  obtain ⟨nd, hn, rfl, rfl⟩ := (h.look k n p).1 hl
  simp [St.key, hn]

theorem Inv.lookup_of_node {s : St D T} (h : Inv s) {p nd} (hn : s.node p = some nd) :
    s.lookup nd.kind nd.name = some p := (h.look _ _ _).2 ⟨nd, hn, rfl, rfl⟩

theorem Grow.viewDef {a b : St D T} (h : Grow a b) {d : Def D T}
    (hr : ∀ q, some q ∈ d.refs → q < a.nodes.length) : b.viewDef d = a.viewDef d := by
  unfold St.viewDef
  congr 1
  apply List.map_congr_left
  intro r hm
  exact h.key' (fun q e => hr q (e ▸ hm))

theorem Grow.viewNode {a b : St D T} (h : Grow a b) (ha : Inv a) {p nd} (hn : a.node p = some nd) :
    b.viewNode nd = a.viewNode nd := by
  unfold St.viewNode
  rw [h.key' (fun q e => ha.owner p nd q hn e)]
  congr 1
  cases hd : nd.payload with
  | none => rfl
  | some d => simp [h.viewDef (fun q e => ha.refs p nd d hn hd q e)]

theorem Grow.viewScene {a b : St D T} (h : Grow a b) (ha : Inv a) {r} (hs : a.scene = some r) :
    b.viewScene r = a.viewScene r := by
  have := ha.scene r hs
  unfold St.viewScene
  rw [h.key' (fun q e => this q (Or.inl e)), h.key' (fun q e => this q (Or.inr (Or.inl e))),
    h.key' (fun q e => this q (Or.inr (Or.inr (Or.inl e)))),
    h.key' (fun q e => this q (Or.inr (Or.inr (Or.inr e))))]

/-- Everything in the view except new entries is unchanged by growth. -/
theorem Grow.view_rest {a b : St D T} (h : Grow a b) (ha : Inv a) :
    b.view = { a.view with entry := b.view.entry } := by
  unfold St.view
  ext1 <;> dsimp only
  · rw [h.scene]
    cases hs : a.scene with
    | none => rfl
    | some r => simp [h.viewScene ha hs]
  · rw [h.lights]
    apply List.filterMap_congr
    intro q hq
    exact h.key (ha.lights q hq)
  · exact h.accel
  · exact h.sdf
  · exact h.cur
  · exact h.api

theorem Grow.entry {a b : St D T} (h : Grow a b) (ha : Inv a) {k : Key} {p} (hl : a.lookup k.1 k.2 = some p) :
    b.view.entry k = a.view.entry k := by
  obtain ⟨nd, hn, _⟩ := (ha.look _ _ _).1 hl
  simp only [St.view]
  rw [h.look _ _ _ hl, hl]
  simp [hn, h.node hn, h.viewNode ha hn]

/-! ### Allocation -/

theorem lookup_alloc (s : St D T) (k : Kind) (n : String) (k' : Kind) (n' : String) :
    (s.alloc k n).2.lookup k' n' = (s.lookup k' n').or (if k' = k ∧ n' = n then some s.nodes.length else none) := by
  unfold St.alloc St.lookup
  dsimp only
  rw [List.lookup_append]
  congr 1
  by_cases e : k' = k ∧ n' = n
  · obtain ⟨rfl, rfl⟩ := e
    simp [List.lookup]
  · have : ((k', n') == (k, n)) = false := by
      simp only [beq_eq_false_iff_ne, ne_eq, Prod.mk.injEq]; exact e
    simp [List.lookup, this, e]

theorem node_alloc (s : St D T) (k : Kind) (n : String) (p : Nat) :
    (s.alloc k n).2.node p = if p = s.nodes.length then some ⟨k, n, predefined k n, none⟩ else s.node p := by
  unfold St.alloc St.node
  dsimp only
  split_ifs with h
  · subst h; simp
  · rcases Nat.lt_or_ge p s.nodes.length with hl | hl
    · rw [List.getElem?_append_left hl]
    · rw [List.getElem?_eq_none (by simp; omega), List.getElem?_eq_none hl]

theorem predefined_refs {k n} {d : Def D T} (h : predefined k n = some d) : d.refs = [] := by
  unfold predefined at h
  split at h <;> simp_all <;> subst h <;> rfl

theorem alloc_grow (s : St D T) (k : Kind) (n : String) : Grow s (s.alloc k n).2 where
  nodes := List.prefix_append _ _
  look k' n' p h := by rw [lookup_alloc, h]; rfl
  scene := rfl
  lights := rfl
  accel := rfl
  sdf := rfl
  cur := rfl
  api := rfl

theorem alloc_len (s : St D T) (k : Kind) (n : String) :
    (s.alloc k n).2.nodes.length = s.nodes.length + 1 := by simp [St.alloc]

/-- The invariant without the clause about the default material. -/
structure Inv0 (s : St D T) : Prop where
  look : ∀ k n p, s.lookup k n = some p ↔ ∃ nd, s.node p = some nd ∧ nd.kind = k ∧ nd.name = n
  free : ∀ p nd, s.node p = some nd → reserved nd.kind nd.name = false
  refs : ∀ p nd d, s.node p = some nd → nd.payload = some d → ∀ q, some q ∈ d.refs → q < s.nodes.length
  owner : ∀ p nd q, s.node p = some nd → nd.owner = some q → q < s.nodes.length
  lights : ∀ q ∈ s.lights, q < s.nodes.length
  scene : ∀ r, s.scene = some r → ∀ q, (r.integrator = some q ∨ r.sampler = some q ∨ r.camera = some q ∨
    r.media = some q) → q < s.nodes.length

theorem Inv.to0 {s : St D T} (h : Inv s) : Inv0 s := ⟨h.look, h.free, h.refs, h.owner, h.lights, h.scene⟩

theorem Inv0.toInv {s : St D T} (h : Inv0 s)
    (hd : (s.lookup .matShader "default").isSome → (s.lookup .bsdf "default").isSome) : Inv s :=
  ⟨h.look, h.free, h.refs, h.owner, h.lights, h.scene, hd⟩

theorem alloc_inv0 {s : St D T} (h : Inv0 s) {k n} (hr : reserved k n = false) (hl : s.lookup k n = none) :
    Inv0 (s.alloc k n).2 where
  look k' n' p := by
    rw [lookup_alloc, node_alloc]
    constructor
    · intro e
      cases hc : s.lookup k' n' with
      | some q =>
        rw [hc] at e
        simp only [Option.some_or, Option.some.injEq] at e
        subst e
        obtain ⟨nd, hn, hk⟩ := (h.look _ _ _).1 hc
        have := node_lt hn
        rw [if_neg (by omega)]
        exact ⟨nd, hn, hk⟩
      | none =>
        rw [hc] at e
        simp only [Option.none_or] at e
        split_ifs at e with hkn
        simp only [Option.some.injEq] at e
        subst e
        rw [if_pos rfl]
        exact ⟨_, rfl, hkn.1.symm, hkn.2.symm⟩
    · rintro ⟨nd, hn, rfl, rfl⟩
      split_ifs at hn with hp
      · simp only [Option.some.injEq] at hn
        subst hn
        dsimp only
        rw [hl]
        simp [hp]
      · rw [(h.look _ _ p).2 ⟨nd, hn, rfl, rfl⟩]
        rfl
  free p nd hn := by
    rw [node_alloc] at hn
    split_ifs at hn with hp
    · simp only [Option.some.injEq] at hn
      subst hn
      exact hr
    · exact h.free p nd hn
  refs p nd d hn hd q hq := by
    rw [node_alloc] at hn
    rw [alloc_len]
    split_ifs at hn with hp
    · simp only [Option.some.injEq] at hn
      subst hn
      rw [predefined_refs hd] at hq
      simp at hq
    · have := h.refs p nd d hn hd q hq
      omega
  owner p nd q hn ho := by
    rw [node_alloc] at hn
    rw [alloc_len]
    split_ifs at hn with hp
    · simp only [Option.some.injEq] at hn
      subst hn
      simp at ho
    · have := h.owner p nd q hn ho
      omega
  lights q hq := by
    have := h.lights q hq
    rw [alloc_len]; omega
  scene r hs q hq := by
    have := h.scene r hs q hq
    rw [alloc_len]; omega

/-! ### Changing one node -/

theorem node_modify (s : St D T) (p : Nat) (f : Node D T → Node D T) (q : Nat) :
    ({ s with nodes := s.nodes.modify p f } : St D T).node q =
      if q = p then (s.node p).map f else s.node q := by
  unfold St.node
  dsimp only
  split_ifs with h
  · subst h; simp
  · rw [List.getElem?_modify_ne _ _ (fun e => h e.symm)]

theorem key_modify (s : St D T) (p : Nat) (f : Node D T → Node D T)
    (hf : ∀ n, (f n).kind = n.kind ∧ (f n).name = n.name) (r : Ptr) :
    ({ s with nodes := s.nodes.modify p f } : St D T).key r = s.key r := by
  unfold St.key
  cases r with
  | none => rfl
  | some q =>
    simp only [Option.bind_some]
    rw [node_modify]
    split_ifs with h
    · subst h
      cases s.node q with
      | none => rfl
      | some nd => simp [hf nd]
    · rfl

theorem modify_inv {s : St D T} (h : Inv s) (p : Nat) (f : Node D T → Node D T)
    (hf : ∀ n, (f n).kind = n.kind ∧ (f n).name = n.name)
    (hrefs : ∀ nd, s.node p = some nd → ∀ d, (f nd).payload = some d → ∀ q, some q ∈ d.refs → q < s.nodes.length)
    (hown : ∀ nd, s.node p = some nd → ∀ q, (f nd).owner = some q → q < s.nodes.length) :
    Inv ({ s with nodes := s.nodes.modify p f } : St D T) where
  look k n q := by
    show s.lookup k n = some q ↔ _
    rw [h.look, node_modify]
    split_ifs with e
    · subst e
      constructor
      · rintro ⟨nd, hn, hk, hm⟩
        exact ⟨f nd, by rw [hn]; rfl, by rw [(hf nd).1, hk], by rw [(hf nd).2, hm]⟩
      · rintro ⟨nd', hn, hk, hm⟩
        cases hc : s.node q with
        | none => rw [hc] at hn; simp at hn
        | some nd =>
          rw [hc] at hn
          simp only [Option.map_some, Option.some.injEq] at hn
          subst hn
          exact ⟨nd, rfl, by rw [← (hf nd).1, hk], by rw [← (hf nd).2, hm]⟩
    · rfl
  free q nd' hn := by
    rw [node_modify] at hn
    split_ifs at hn with e
    · cases hc : s.node p with
      | none => rw [hc] at hn; simp at hn
      | some nd =>
        rw [hc] at hn
        simp only [Option.map_some, Option.some.injEq] at hn
        subst hn
        rw [(hf nd).1, (hf nd).2]
        exact h.free p nd hc
    · exact h.free q nd' hn
  refs q nd' d hn hd r hr := by
    show r < (s.nodes.modify p f).length
    rw [List.length_modify]
    rw [node_modify] at hn
    split_ifs at hn with e
    · cases hc : s.node p with
      | none => rw [hc] at hn; simp at hn
      | some nd =>
        rw [hc] at hn
        simp only [Option.map_some, Option.some.injEq] at hn
        subst hn
        exact hrefs nd hc d hd r hr
    · exact h.refs q nd' d hn hd r hr
  owner q nd' r hn ho := by
    show r < (s.nodes.modify p f).length
    rw [List.length_modify]
    rw [node_modify] at hn
    split_ifs at hn with e
    · cases hc : s.node p with
      | none => rw [hc] at hn; simp at hn
      | some nd =>
        rw [hc] at hn
        simp only [Option.map_some, Option.some.injEq] at hn
        subst hn
        exact hown nd hc r ho
    · exact h.owner q nd' r hn ho
  lights q hq := by
    show q < (s.nodes.modify p f).length
    rw [List.length_modify]; exact h.lights q hq
  scene r hs q hq := by
    show q < (s.nodes.modify p f).length
    rw [List.length_modify]; exact h.scene r hs q hq
  dflt := h.dflt

/-- View after changing node `p`. -/
theorem view_modify {s : St D T} (h : Inv s) {p : Nat} {nd : Node D T} (hn : s.node p = some nd)
    (f : Node D T → Node D T) (hf : ∀ n, (f n).kind = n.kind ∧ (f n).name = n.name) :
    ({ s with nodes := s.nodes.modify p f } : St D T).view =
      { s.view with entry := fun k => if k = (nd.kind, nd.name) then some (s.viewNode (f nd))
                                      else s.view.entry k } := by
  have hk : ({ s with nodes := s.nodes.modify p f } : St D T).key = s.key := funext (key_modify s p f hf)
  have hvd : ({ s with nodes := s.nodes.modify p f } : St D T).viewDef = s.viewDef := by
    funext d; unfold St.viewDef; rw [hk]
  have hvn : ({ s with nodes := s.nodes.modify p f } : St D T).viewNode = s.viewNode := by
    funext d; unfold St.viewNode; rw [hk, hvd]
  have hvs : ({ s with nodes := s.nodes.modify p f } : St D T).viewScene = s.viewScene := by
    funext d; unfold St.viewScene; rw [hk]
  unfold St.view
  rw [hvn, hvs, hk]
  congr 1
  funext k
  show ((s.lookup k.1 k.2).bind _).map _ = _
  cases hl : s.lookup k.1 k.2 with
  | none =>
    have : k ≠ (nd.kind, nd.name) := by
      rintro rfl
      dsimp only at hl
      rw [h.lookup_of_node hn] at hl
      simp at hl
    rw [if_neg this]
    dsimp only
    rw [hl]
    rfl
  | some q =>
    simp only [Option.bind_some]
    rw [node_modify]
    by_cases e : q = p
    · subst e
      obtain ⟨nd', hn', hk1, hk2⟩ := (h.look _ _ _).1 hl
      rw [hn] at hn'
      simp only [Option.some.injEq] at hn'
      subst hn'
      rw [if_pos rfl, if_pos (Prod.ext hk1.symm hk2.symm), hn]
      rfl
    · have : k ≠ (nd.kind, nd.name) := by
        rintro rfl
        dsimp only at hl
        rw [h.lookup_of_node hn] at hl
        simp only [Option.some.injEq] at hl
        exact e hl.symm
      rw [if_neg e, if_neg this, hl]
      rfl

theorem modify_look (s : St D T) (p : Nat) (f : Node D T → Node D T) (k n) :
    ({ s with nodes := s.nodes.modify p f } : St D T).lookup k n = s.lookup k n := rfl

/-! ### Mentioning names -/

theorem closure_append (ks ls : List Key) : closure (ks ++ ls) = closure ks ++ closure ls := by
  simp [closure]

theorem mention_mention (a : Desc D T) (ks ls : List Key) :
    (a.mention ks).mention ls = a.mention (ks ++ ls) := by
  unfold Desc.mention
  congr 1
  funext k
  dsimp only
  rw [closure_append]
  cases a.entry k with
  | some x => simp
  | none =>
    by_cases h1 : k ∈ closure ks <;> by_cases h2 : k ∈ closure ls <;> by_cases h3 : reserved k.1 k.2 = false <;>
      simp [h1, h2, h3]

theorem mention_nil (a : Desc D T) : a.mention [] = a := by
  unfold Desc.mention
  simp [closure]

theorem reserved_matDefault : reserved .matShader "default" = false := rfl
theorem reserved_bsdfDefault : reserved .bsdf "default" = false := rfl

theorem view_entry_isSome {s : St D T} (h : Inv s) (k : Key) :
    (s.view.entry k).isSome = (s.lookup k.1 k.2).isSome := by
  unfold St.view
  dsimp only
  cases hl : s.lookup k.1 k.2 with
  | none => rfl
  | some p =>
    obtain ⟨nd, hn, _⟩ := (h.look _ _ _).1 hl
    simp [hn]

/-- What `find` guarantees. -/
structure FindOk (k : Kind) (n : String) (s : St D T) (r : Ptr × St D T) : Prop where
  inv : Inv r.2
  grow : Grow s r.2
  view : r.2.view = s.view.mention [(k, n)]
  ptr : ∀ q, r.1 = some q → r.2.lookup k n = some q
  null : r.1 = none ↔ reserved k n = true

theorem mention_present {s : St D T} (h : Inv s) {k : Kind} {n : String}
    (hk : reserved k n = true ∨ (s.lookup k n).isSome) : s.view.mention [(k, n)] = s.view := by
  unfold Desc.mention
  ext1 <;> try rfl
  funext k'
  dsimp only
  cases he : s.view.entry k' with
  | some x => rfl
  | none =>
    rw [Option.none_or, if_neg]
    rintro ⟨hm, hr⟩
    have hn : (s.lookup k'.1 k'.2).isSome = false := by rw [← view_entry_isSome h, he]; rfl
    simp only [closure, List.flatMap_cons, List.flatMap_nil, List.append_nil] at hm
    split_ifs at hm with hd
    · simp only [Prod.mk.injEq] at hd
      obtain ⟨rfl, rfl⟩ := hd
      rcases hk with hk | hk
      · simp [reserved_matDefault] at hk
      · simp only [List.mem_cons, List.not_mem_nil, or_false] at hm
        rcases hm with rfl | rfl
        · simp [hk] at hn
        · rw [h.dflt hk] at hn
          simp at hn
    · simp only [List.mem_cons, List.not_mem_nil, or_false] at hm
      subst hm
      rcases hk with hk | hk
      · simp [hk] at hr
      · simp [hk] at hn

theorem alloc_entry {s : St D T} (h : Inv0 s) {k : Kind} {n : String} (hl : s.lookup k n = none) (k' : Key) :
    ((s.alloc k n).2.view).entry k' =
      if k' = (k, n) then some ⟨(predefined k n : Option (Def D T)).map fun d => ⟨d.type, [], d.data, d.xf⟩, none⟩
      else ((s.lookup k'.1 k'.2).bind s.node).map (s.alloc k n).2.viewNode := by
  unfold St.view
  dsimp only
  rw [lookup_alloc]
  split_ifs with e1 e2 e2
  · subst e2
    rw [hl]
    simp only [Option.none_or, Option.bind_some]
    rw [node_alloc, if_pos rfl]
    simp only [Option.map_some, Option.some.injEq]
    unfold St.viewNode
    simp only [ANode.mk.injEq]
    refine ⟨?_, rfl⟩
    cases hp : (predefined k n : Option (Def D T)) with
    | none => rfl
    | some d => simp [St.viewDef, predefined_refs hp]
  · exact absurd (Prod.ext e1.1 e1.2) e2
  · subst e2; simp at e1
  · rw [Option.or_none]
    cases hc : s.lookup k'.1 k'.2 with
    | none => rfl
    | some p =>
      simp only [Option.bind_some]
      obtain ⟨nd, hn, _⟩ := (h.look _ _ _).1 hc
      have := node_lt hn
      rw [node_alloc, if_neg (by omega)]

theorem findBase_ok {s : St D T} (h : Inv s) {k : Kind} {n : String}
    (hd : (k, n) = (Kind.matShader, "default") → (s.lookup k n).isSome) : FindOk k n s (findBase k n s) := by
  unfold findBase
  by_cases hr : reserved k n = true
  · rw [if_pos hr]
    exact ⟨h, Grow.refl s, (mention_present h (Or.inl hr)).symm, by simp, by simp [hr]⟩
  · rw [if_neg hr]
    cases hl : s.lookup k n with
    | some p =>
      refine ⟨h, Grow.refl s, (mention_present h (Or.inr (by rw [hl]; rfl))).symm, ?_, by simp [hr]⟩
      rintro q hq
      simp only [Option.some.injEq] at hq
      subst hq
      exact hl
    | none =>
      have hr' : reserved k n = false := by simpa using hr
      have hne : (k, n) ≠ (Kind.matShader, "default") := by
        intro e
        have := hd e
        rw [hl] at this
        simp at this
      have hI : Inv (s.alloc k n).2 := (alloc_inv0 h.to0 hr' hl).toInv (by
        rw [lookup_alloc, lookup_alloc]
        intro hm
        rw [if_neg (by rintro ⟨rfl, rfl⟩; exact hne rfl)] at hm
        simp only [Option.or_none] at hm
        have := h.dflt hm
        cases hb : s.lookup .bsdf "default" with
        | none => rw [hb] at this; simp at this
        | some q => rfl)
      have hG := alloc_grow s k n
      refine ⟨hI, hG, ?_, ?_, by simp [St.alloc, hr]⟩
      · rw [hG.view_rest h]
        unfold Desc.mention
        ext1 <;> try rfl
        funext k'
        dsimp only
        rw [alloc_entry h.to0 hl]
        simp only [closure, List.flatMap_cons, List.flatMap_nil, List.append_nil, if_neg hne,
          List.mem_singleton]
        by_cases e : k' = (k, n)
        · subst e
          have he : s.view.entry (k, n) = none := by
            have := view_entry_isSome h (k, n)
            rw [hl] at this
            simpa using this
          rw [if_pos rfl, he]
          simp [hr', fresh, hne]
        · rw [if_neg e]
          simp only [e, false_and, if_false, Option.or_none]
          unfold St.view
          dsimp only
          cases hc : s.lookup k'.1 k'.2 with
          | none => rfl
          | some p =>
            obtain ⟨nd, hn, _⟩ := (h.look _ _ _).1 hc
            simp [hn, hG.viewNode h hn]
      · intro q hq
        simp only [St.alloc, Option.some.injEq] at hq
        subst hq
        rw [lookup_alloc, hl]
        simp

theorem entry_none {s : St D T} {k : Key} (hl : s.lookup k.1 k.2 = none) : s.view.entry k = none := by
  unfold St.view
  dsimp only
  rw [hl]
  rfl

theorem entry_some {s : St D T} {k : Key} {p nd} (hl : s.lookup k.1 k.2 = some p) (hn : s.node p = some nd) :
    s.view.entry k = some (s.viewNode nd) := by
  unfold St.view
  dsimp only
  rw [hl]
  simp [hn]

/-- The state after allocating the default material and looking up the default BSDF. -/
theorem default_mid {s : St D T} (h : Inv s) (hl : s.lookup .matShader "default" = none) :
    let s2 := (findBase .bsdf "default" (s.alloc .matShader "default").2).2
    ∃ b, (findBase .bsdf "default" (s.alloc .matShader "default").2).1 = some b ∧ Inv s2 ∧ Grow s s2 ∧
      s2.lookup .matShader "default" = some s.nodes.length ∧
      s2.node s.nodes.length = some ⟨.matShader, "default", none, none⟩ ∧
      s2.lookup .bsdf "default" = some b ∧
      (∀ k n, (k, n) ≠ (Kind.matShader, "default") → (k, n) ≠ (Kind.bsdf, "default") →
        s2.lookup k n = s.lookup k n) ∧
      (s.lookup .bsdf "default" = none →
        s2.node b = some ⟨.bsdf, "default", predefined .bsdf "default", none⟩) := by
  have hI1 := alloc_inv0 h.to0 (k := .matShader) (n := "default") rfl hl
  have hG1 := alloc_grow s .matShader "default"
  have hm1 : (s.alloc .matShader "default").2.lookup .matShader "default" = some s.nodes.length := by
    rw [lookup_alloc, hl]; simp
  have hb1 : (s.alloc .matShader "default").2.lookup .bsdf "default" = s.lookup .bsdf "default" := by
    rw [lookup_alloc]; simp
  have hn1 : (s.alloc .matShader "default").2.node s.nodes.length = some ⟨.matShader, "default", none, none⟩ := by
    rw [node_alloc, if_pos rfl]; rfl
  have ho1 : ∀ k n, (k, n) ≠ (Kind.matShader, "default") →
      (s.alloc .matShader "default").2.lookup k n = s.lookup k n := by
    intro k n hne
    rw [lookup_alloc, if_neg (by rintro ⟨rfl, rfl⟩; exact hne rfl)]
    simp
  generalize (s.alloc .matShader "default").2 = s1 at *
  intro s2
  cases hb : s.lookup .bsdf "default" with
  | some b =>
    have he : findBase .bsdf "default" s1 = (some b, s1) := by
      unfold findBase
      rw [if_neg (by simp [reserved]), hb1, hb]
    have hs2 : s2 = s1 := by show (findBase _ _ s1).2 = _; rw [he]
    rw [hs2]
    exact ⟨b, by rw [he], hI1.toInv (fun _ => by rw [hb1, hb]; rfl), hG1, hm1, hn1, by rw [hb1, hb],
      fun k n h1 _ => ho1 k n h1, by simp⟩
  | none =>
    have he : findBase .bsdf "default" s1 = s1.alloc .bsdf "default" := by
      unfold findBase
      rw [if_neg (by simp [reserved]), hb1, hb]
    have hs2 : s2 = (s1.alloc .bsdf "default").2 := by show (findBase _ _ s1).2 = _; rw [he]
    have hlb : (s1.alloc .bsdf "default").2.lookup .bsdf "default" = some s1.nodes.length := by
      rw [lookup_alloc, hb1, hb]; simp
    have hG2 := alloc_grow s1 .bsdf "default"
    rw [hs2]
    refine ⟨s1.nodes.length, by rw [he]; rfl,
      (alloc_inv0 hI1 (k := .bsdf) (n := "default") rfl (by rw [hb1, hb])).toInv (fun _ => by rw [hlb]; rfl),
      hG1.trans hG2, hG2.look _ _ _ hm1, hG2.node hn1, hlb, ?_, ?_⟩
    · intro k n h1 h2
      rw [lookup_alloc, if_neg (by rintro ⟨rfl, rfl⟩; exact h2 rfl), ho1 k n h1]
      simp
    · intro _
      rw [node_alloc, if_pos rfl]

theorem Grow.modify_new {a b : St D T} (h : Grow a b) {p : Nat} (hp : a.nodes.length ≤ p) (f : Node D T → Node D T) :
    Grow a ({ b with nodes := b.nodes.modify p f } : St D T) where
  nodes := by
    obtain ⟨l, hl⟩ := h.nodes
    refine ⟨l.modify (p - a.nodes.length) f, ?_⟩
    show _ = b.nodes.modify p f
    rw [← hl]
    apply List.ext_getElem?
    intro i
    rcases Nat.lt_or_ge i a.nodes.length with hi | hi
    · rw [List.getElem?_append_left hi, List.getElem?_modify_ne _ _ (by omega), List.getElem?_append_left hi]
    · rw [List.getElem?_append_right hi]
      by_cases e : i = p
      · subst e
        rw [List.getElem?_modify_eq, List.getElem?_modify_eq, List.getElem?_append_right hi]
      · rw [List.getElem?_modify_ne _ _ (by omega), List.getElem?_modify_ne _ _ (by omega),
          List.getElem?_append_right hi]
  look := h.look
  scene := h.scene
  lights := h.lights
  accel := h.accel
  sdf := h.sdf
  cur := h.cur
  api := h.api

theorem find_ok {s : St D T} (h : Inv s) (k : Kind) (n : String) : FindOk k n s (find k n s) := by
  unfold find
  split_ifs with hc
  · obtain ⟨rfl, rfl, hl⟩ := hc
    obtain ⟨b, hb, hI, hG, hm, hn, hlb, hoth, hnew⟩ := default_mid h hl
    dsimp only at *
    generalize (findBase .bsdf "default" (s.alloc .matShader "default").2) = r at *
    obtain ⟨r1, s2⟩ := r
    dsimp only at *
    subst hb
    have hbl : b < s2.nodes.length := hI.lookup_lt hlb
    have hf : ∀ nd : Node D T, ({ nd with payload := some ⟨"simple_material", [some b], none, none⟩ } : Node D T).kind = nd.kind ∧
      ({ nd with payload := some ⟨"simple_material", [some b], none, none⟩ } : Node D T).name = nd.name := fun nd => ⟨rfl, rfl⟩
    have hG' : Grow s (s2.setPayload s.nodes.length ⟨"simple_material", [some b], none, none⟩) :=
      hG.modify_new le_rfl _
    refine ⟨?_, hG', ?_, ?_, by simp [St.alloc, reserved]⟩
    · apply modify_inv hI _ _ hf
      · intro nd hnd d hd q hq
        simp only [Option.some.injEq] at hd
        subst hd
        simp only [List.mem_singleton, Option.some.injEq] at hq
        subst hq
        exact hbl
      · intro nd hnd q hq
        exact hI.owner _ nd q hnd hq
    · rw [hG'.view_rest h]
      unfold Desc.mention
      ext1 <;> try rfl
      funext k'
      dsimp only
      show (St.view { s2 with nodes := s2.nodes.modify s.nodes.length _ }).entry k' = _
      rw [view_modify hI hn _ hf]
      dsimp only
      simp only [closure, List.flatMap_cons, List.flatMap_nil, List.append_nil, if_true, List.mem_cons,
        List.not_mem_nil, or_false]
      by_cases e1 : k' = (Kind.matShader, "default")
      · subst e1
        rw [if_pos rfl, entry_none hl]
        simp [reserved, fresh, St.viewNode, St.viewDef, St.key]
        exact (hI.look _ _ _).1 hlb
      · rw [if_neg e1]
        by_cases e2 : k' = (Kind.bsdf, "default")
        · subst e2
          cases hsb : s.lookup .bsdf "default" with
          | none =>
            rw [entry_some (s := s2) hlb (hnew hsb), entry_none (s := s) hsb]
            simp [reserved, fresh, St.viewNode, St.viewDef, St.key, predefined]
          | some q =>
            rw [hG.entry h hsb]
            obtain ⟨nd, hnd, _⟩ := (h.look _ _ _).1 hsb
            rw [entry_some hsb hnd]
            rfl
        · simp only [e1, e2, false_or, false_and, if_false, Option.or_none]
          cases hc : s.lookup k'.1 k'.2 with
          | none => rw [entry_none hc, entry_none (by rw [hoth _ _ e1 e2, hc])]
          | some q => exact hG.entry h hc
    · intro q hq
      simp only [St.alloc, Option.some.injEq] at hq
      subst hq
      exact hm
  · apply findBase_ok h
    intro e
    simp only [Prod.mk.injEq] at e
    obtain ⟨rfl, rfl⟩ := e
    cases hl : s.lookup .matShader "default" with
    | none => exact absurd ⟨rfl, rfl, hl⟩ hc
    | some p => rfl

theorem FindOk.key {k n} {s : St D T} {r : Ptr × St D T} (h : FindOk k n s r) : r.2.key r.1 = ref (k, n) := by
  unfold ref
  cases hr : r.1 with
  | none => rw [if_pos (h.null.1 hr)]; rfl
  | some q =>
    rw [if_neg (fun e => by rw [h.null.2 e] at hr; simp at hr)]
    exact h.inv.key_of_lookup (h.ptr q hr)

theorem FindOk.lt {k n} {s : St D T} {r : Ptr × St D T} (h : FindOk k n s r) {q} (hq : r.1 = some q) :
    q < r.2.nodes.length := h.inv.lookup_lt (h.ptr q hq)

/-- What `findAll` guarantees. -/
structure FindAllOk (ks : List Key) (s : St D T) (r : List Ptr × St D T) : Prop where
  inv : Inv r.2
  grow : Grow s r.2
  view : r.2.view = s.view.mention ks
  lt : ∀ q, some q ∈ r.1 → q < r.2.nodes.length
  keys : r.1.map r.2.key = ks.map ref

theorem findAll_ok : ∀ (ks : List Key) {s : St D T}, Inv s → FindAllOk ks s (findAll ks s)
  | [], s, h => ⟨h, Grow.refl s, (mention_nil _).symm, by simp [findAll], rfl⟩
  | (k, n) :: ks, s, h => by
    have h1 := find_ok h k n
    have h2 := findAll_ok ks h1.inv
    refine ⟨h2.inv, h1.grow.trans h2.grow, ?_, ?_, ?_⟩
    · show (findAll ks (find k n s).2).2.view = _
      rw [h2.view, h1.view, mention_mention]
      rfl
    · intro q hq
      simp only [findAll, List.mem_cons] at hq
      rcases hq with hq | hq
      · exact lt_of_lt_of_le (h1.lt hq.symm) h2.grow.len
      · exact h2.lt q hq
    · show (_ :: _) = _
      rw [List.map_cons, ← h1.key]
      congr 1
      · exact h2.grow.key' (fun q e => h1.lt e)
      · exact h2.keys

end Feign.Api
