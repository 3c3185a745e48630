import Verif.Api.RegistryLemmas

/-! Steps of the registry model: invariant, permanence, and agreement with the description by names. -/

set_option linter.unusedSectionVars false
namespace Feign.Api
variable {D T : Type}

/-- Nothing that was there was lost or changed. -/
structure Later (s s' : St D T) : Prop where
  look : ∀ k n p, s.lookup k n = some p → s'.lookup k n = some p
  node : ∀ p nd, s.node p = some nd → ∃ nd', s'.node p = some nd' ∧ nd'.kind = nd.kind ∧ nd'.name = nd.name ∧
    ∀ d, nd.payload = some d → nd'.payload = some d
  scene : ∀ r, s.scene = some r → s'.scene = some r
  lights : s.lights <+: s'.lights

theorem Later.refl (s : St D T) : Later s s :=
  ⟨fun _ _ _ h => h, fun _ nd h => ⟨nd, h, rfl, rfl, fun _ e => e⟩, fun _ h => h, List.prefix_refl _⟩

theorem Later.trans {a b c : St D T} (h : Later a b) (g : Later b c) : Later a c where
  look k n p e := g.look k n p (h.look k n p e)
  node p nd e := by
    obtain ⟨n1, h1, h2, h3, h4⟩ := h.node p nd e
    obtain ⟨n2, g1, g2, g3, g4⟩ := g.node p n1 h1
    exact ⟨n2, g1, by rw [g2, h2], by rw [g3, h3], fun d e => g4 d (h4 d e)⟩
  scene r e := g.scene r (h.scene r e)
  lights := h.lights.trans g.lights

theorem Grow.later {a b : St D T} (h : Grow a b) : Later a b where
  look := h.look
  node p nd e := ⟨nd, h.node e, rfl, rfl, fun _ e => e⟩
  scene r e := by rw [h.scene, e]
  lights := by rw [h.lights]

theorem later_modify {s : St D T} (p : Nat) (f : Node D T → Node D T)
    (hf : ∀ n, (f n).kind = n.kind ∧ (f n).name = n.name)
    (hp : ∀ nd, s.node p = some nd → ∀ d, nd.payload = some d → (f nd).payload = some d) :
    Later s ({ s with nodes := s.nodes.modify p f } : St D T) where
  look := fun _ _ _ h => h
  node q nd e := by
    rw [node_modify]
    split_ifs with h
    · subst h
      exact ⟨f nd, by rw [e]; rfl, (hf nd).1, (hf nd).2, hp nd e⟩
    · exact ⟨nd, e, rfl, rfl, fun _ e => e⟩
  scene := fun _ h => h
  lights := List.prefix_refl _

theorem Inv.api {s : St D T} (h : Inv s) (b : Bool) : Inv { s with apiOn := b } :=
  ⟨h.look, h.free, h.refs, h.owner, h.lights, h.scene, h.dflt⟩

theorem Later.api {s s' : St D T} (h : Later s s') (b c : Bool) :
    Later { s with apiOn := b } { s' with apiOn := c } := ⟨h.look, h.node, h.scene, h.lights⟩

theorem init_inv (one : T) : Inv (St.init one : St D T) where
  look k n p := by simp [St.init, St.lookup, St.node]
  free p nd h := by simp [St.init, St.node] at h
  refs p nd d h := by simp [St.init, St.node] at h
  owner p nd q h := by simp [St.init, St.node] at h
  lights q h := by simp [St.init] at h
  scene r h := by simp [St.init] at h
  dflt h := by simp [St.init, St.lookup] at h

/-! ### Setting a definition -/

theorem setPayload_inv {s : St D T} (h : Inv s) (p : Nat) (d : Def D T)
    (hd : ∀ q, some q ∈ d.refs → q < s.nodes.length) : Inv (s.setPayload p d) := by
  apply modify_inv h
  · intro n; exact ⟨rfl, rfl⟩
  · intro nd _ d' e q hq
    simp only [Option.some.injEq] at e
    subst e
    exact hd q hq
  · intro nd hn q hq
    exact h.owner p nd q hn hq

theorem setPayload_later {s : St D T} {p : Nat} {nd : Node D T} (hn : s.node p = some nd)
    (hp : nd.payload = none) (d : Def D T) : Later s (s.setPayload p d) := by
  apply later_modify
  · intro n; exact ⟨rfl, rfl⟩
  · intro nd' hn' d' hd'
    rw [hn] at hn'
    simp only [Option.some.injEq] at hn'
    subst hn'
    rw [hp] at hd'
    simp at hd'

theorem setPayload_view {s : St D T} (h : Inv s) {p : Nat} {k n} (hl : s.lookup k n = some p) (d : Def D T) :
    (s.setPayload p d).view = s.view.define (k, n) (s.viewDef d) := by
  obtain ⟨nd, hn, rfl, rfl⟩ := (h.look _ _ _).1 hl
  show (St.view { s with nodes := s.nodes.modify p _ }) = _
  rw [view_modify h hn]
  · unfold Desc.define
    ext1 <;> try rfl
    funext k'
    dsimp only
    rw [entry_some (k := (nd.kind, nd.name)) hl hn]
    rfl
  · intro n; exact ⟨rfl, rfl⟩

theorem setOwner_view {s : St D T} (h : Inv s) {p o : Nat} {k n} (hl : s.lookup k n = some p) {ko : Key}
    (ho : s.key (some o) = some ko) :
    (St.view { s with nodes := s.nodes.modify p fun n => { n with owner := some o } }) =
      s.view.own (k, n) ko := by
  obtain ⟨nd, hn, rfl, rfl⟩ := (h.look _ _ _).1 hl
  rw [view_modify h hn]
  · unfold Desc.own
    ext1 <;> try rfl
    funext k'
    dsimp only
    rw [entry_some (k := (nd.kind, nd.name)) hl hn]
    simp only [Option.map_some]
    unfold St.viewNode
    dsimp only
    rw [ho]
  · intro n; exact ⟨rfl, rfl⟩

/-! ### Declarations -/

/-- A declaration in terms of names. -/
def Desc.declare (d : Decl D) (a : Desc D T) : Out × Desc D T :=
  let a1 := a.mention ((d.kind, d.name) :: d.pre)
  match a1.entry (d.kind, d.name) with
  | none => (.ub, a1)
  | some e =>
    if e.payload.isSome then (.throw, a1) else
    match d.verdict with
    | .throw => (.throw, a1)
    | .abort => (.abort, a1)
    | .nothing => (.ok, a1)
    | .ok =>
      let a2 := (a1.mention d.post).define (d.kind, d.name)
        ⟨d.type, (d.pre ++ d.post).map ref, some d.data, if d.useXf then some a.cur else none⟩
      if d.light then
        if a2.scene.isNone then (.ub, a2) else (.ok, { a2 with lights := a2.lights ++ [(d.kind, d.name)] })
      else (.ok, a2)

/-- What a step guarantees. -/
structure StepOk (s : St D T) (r : Out × St D T) (a : Out × Desc D T) : Prop where
  inv : Inv r.2
  later : Later s r.2
  out : r.1 = a.1
  view : r.2.view = a.2

theorem mention_entry_reserved {s : St D T} (h : Inv s) (ks : List Key) {k : Key}
    (hr : reserved k.1 k.2 = true) : (s.view.mention ks).entry k = none := by
  have he : s.view.entry k = none := by
    cases hl : s.lookup k.1 k.2 with
    | none => exact entry_none hl
    | some p =>
      obtain ⟨nd, hn, h1, h2⟩ := (h.look _ _ _).1 hl
      have := h.free p nd hn
      rw [h1, h2, hr] at this
      simp at this
  unfold Desc.mention
  dsimp only
  rw [he]
  simp [hr]

theorem declare_ok (d : Decl D) {s : St D T} (h : Inv s) :
    StepOk s (declare d s) (s.view.declare d) := by
  have h1 := find_ok h d.kind d.name
  have h2 := findAll_ok d.pre h1.inv
  have hv : (findAll d.pre (find d.kind d.name s).2).2.view = s.view.mention ((d.kind, d.name) :: d.pre) := by
    rw [h2.view, h1.view, mention_mention]; rfl
  have hg := h1.grow.trans h2.grow
  unfold declare Desc.declare
  dsimp only
  generalize hq : findAll d.pre (find d.kind d.name s).2 = q at *
  generalize hr : find d.kind d.name s = r at *
  cases hr1 : r.1 with
  | none =>
    rw [mention_entry_reserved h _ (h1.null.1 hr1)]
    exact ⟨h2.inv, hg.later, rfl, hv⟩
  | some p =>
    have hl : q.2.lookup d.kind d.name = some p := h2.grow.look _ _ _ (h1.ptr p hr1)
    obtain ⟨nd, hn, hk, hm⟩ := (h2.inv.look _ _ _).1 hl
    rw [← hv, entry_some hl hn]
    dsimp only
    rw [hn]
    dsimp only
    have hp : (q.2.viewNode nd).payload.isSome = nd.payload.isSome := by simp [St.viewNode]
    rw [hp]
    by_cases hpay : nd.payload.isSome
    · rw [if_pos hpay, if_pos hpay]
      exact ⟨h2.inv, hg.later, rfl, rfl⟩
    · rw [if_neg hpay, if_neg hpay]
      have hnone : nd.payload = none := by simpa using hpay
      cases hvd : d.verdict with
      | throw => exact ⟨h2.inv, hg.later, rfl, rfl⟩
      | abort => exact ⟨h2.inv, hg.later, rfl, rfl⟩
      | nothing => exact ⟨h2.inv, hg.later, rfl, rfl⟩
      | ok =>
        dsimp only
        have h3 := findAll_ok d.post h2.inv
        generalize findAll d.post q.2 = w at *
        have hrefs : ∀ x, some x ∈ q.1 ++ w.1 → x < w.2.nodes.length := by
          intro x hx
          rcases List.mem_append.1 hx with hx | hx
          · exact lt_of_lt_of_le (h2.lt x hx) h3.grow.len
          · exact h3.lt x hx
        have hkeys : (q.1 ++ w.1).map w.2.key = (d.pre ++ d.post).map ref := by
          rw [List.map_append, List.map_append, h3.keys, ← h2.keys]
          congr 1
          apply List.map_congr_left
          intro x hx
          exact h3.grow.key' (fun y e => h2.lt y (e ▸ hx))
        have hlw := h3.grow.look _ _ _ hl
        have hI := setPayload_inv h3.inv p
          ⟨d.type, q.1 ++ w.1, some d.data, if d.useXf then some s.cur else none⟩ hrefs
        have hL := (hg.trans h3.grow).later.trans (setPayload_later (h3.grow.node hn) hnone
          ⟨d.type, q.1 ++ w.1, some d.data, if d.useXf then some s.cur else none⟩)
        have hV := setPayload_view h3.inv hlw
          ⟨d.type, q.1 ++ w.1, some d.data, if d.useXf then some s.cur else none⟩
        have hV' : w.2.viewDef ⟨d.type, q.1 ++ w.1, some d.data, if d.useXf then some s.cur else none⟩ =
            ⟨d.type, (d.pre ++ d.post).map ref, some d.data, if d.useXf then some s.view.cur else none⟩ := by
          unfold St.viewDef
          rw [hkeys]
          rfl
        rw [hV', h3.view] at hV
        have hlS := hI.lookup_lt (k := d.kind) (n := d.name) hlw
        have hkS := hI.key_of_lookup (k := d.kind) (n := d.name) hlw
        generalize w.2.setPayload p
          ⟨d.type, q.1 ++ w.1, some d.data, if d.useXf then some s.cur else none⟩ = z at *
        rw [← hV]
        have hsc : z.view.scene.isNone = z.scene.isNone := by simp [St.view]
        rw [hsc]
        split_ifs with c1 c2
        · exact ⟨hI, hL, rfl, rfl⟩
        · refine ⟨⟨hI.look, hI.free, hI.refs, hI.owner, ?_, hI.scene, hI.dflt⟩, ?_, rfl, ?_⟩
          · intro y hy
            rcases List.mem_append.1 hy with hy | hy
            · exact hI.lights y hy
            · simp only [List.mem_singleton] at hy
              subst hy
              exact hlS
          · exact ⟨hL.look, hL.node, hL.scene, hL.lights.trans (List.prefix_append _ _)⟩
          · show St.view { z with lights := z.lights ++ [p] } = _
            unfold St.view
            ext1 <;> try rfl
            show List.filterMap _ (z.lights ++ [p]) = _
            rw [List.filterMap_append]
            show _ ++ List.filterMap (fun p => z.key (some p)) [p] = _
            rw [List.filterMap_cons, hkS]
            rfl
        · exact ⟨hI, hL, rfl, rfl⟩

/-! ### Scene, accelerator, transforms -/

/-- `fr_scene` in terms of names. -/
def Desc.sceneBody (name i sa c m : String) (d : D) (sdf : Bool) (a : Desc D T) : Out × Desc D T :=
  if a.scene.isSome then (.throw, { a with sdfOnly := sdf }) else
    (.ok, { (a.mention ([(.integrator, i), (.sampler, sa), (.camera, c)] ++
              if m = "" then [] else [(.media, m)])) with
      sdfOnly := sdf
      scene := some ⟨name, ref (.integrator, i), ref (.sampler, sa), ref (.camera, c),
        if m = "" then none else ref (.media, m), some d⟩ })

theorem sceneBody_ok (name i sa c m : String) (d : D) (sdf : Bool) {s : St D T} (h : Inv s) :
    StepOk s (sceneBody name i sa c m d sdf s) (s.view.sceneBody name i sa c m d sdf) := by
  have h0 : Inv { s with sdfOnly := sdf } :=
    ⟨h.look, h.free, h.refs, h.owner, h.lights, h.scene, h.dflt⟩
  have hL0 : Later s { s with sdfOnly := sdf } :=
    ⟨fun _ _ _ h => h, fun _ nd h => ⟨nd, h, rfl, rfl, fun _ e => e⟩, fun _ h => h, List.prefix_refl _⟩
  have hsc : s.view.scene.isSome = s.scene.isSome := by simp [St.view]
  unfold sceneBody Desc.sceneBody
  dsimp only
  rw [hsc]
  split_ifs with hs hm
  · exact ⟨h0, hL0, rfl, rfl⟩
  · have h1 := find_ok h0 .integrator i
    have h2 := find_ok h1.inv .sampler sa
    have h3 := find_ok h2.inv .camera c
    have hg := (h1.grow.trans h2.grow).trans h3.grow
    have hv : (find .camera c (find .sampler sa (find .integrator i { s with sdfOnly := sdf }).2).2).2.view =
        (St.view { s with sdfOnly := sdf }).mention [(.integrator, i), (.sampler, sa), (.camera, c)] := by
      rw [h3.view, h2.view, h1.view, mention_mention, mention_mention]; rfl
    have k1 := h1.key
    have k2 := h2.key
    have k3 := h3.key
    have l1 : ∀ q, _ → _ := fun q => h1.lt (q := q)
    have l2 : ∀ q, _ → _ := fun q => h2.lt (q := q)
    have l3 : ∀ q, _ → _ := fun q => h3.lt (q := q)
    have g2 := h2.grow
    have g3 := h3.grow
    have hI := h3.inv
    generalize find .integrator i { s with sdfOnly := sdf } = r1 at *
    generalize find .sampler sa r1.2 = r2 at *
    generalize find .camera c r2.2 = r3 at *
    have hs' : s.scene = none := by simpa using hs
    refine ⟨⟨hI.look, hI.free, hI.refs, hI.owner, hI.lights, ?_, hI.dflt⟩, ?_, rfl, ?_⟩
    · intro r hr q hq
      simp only [Option.some.injEq] at hr
      subst hr
      show q < r3.2.nodes.length
      dsimp only at hq
      rcases hq with hq | hq | hq | hq
      · exact lt_of_lt_of_le (l1 q hq) (le_trans g2.len g3.len)
      · exact lt_of_lt_of_le (l2 q hq) g3.len
      · exact l3 q hq
      · simp at hq
    · have := hL0.trans hg.later
      exact ⟨this.look, this.node, by simp [hs'], this.lights⟩
    · have hv' : St.view { r3.2 with scene := some ⟨name, r1.1, r2.1, r3.1, none, some d⟩ } =
          { r3.2.view with scene := some ⟨name, r3.2.key r1.1, r3.2.key r2.1, r3.2.key r3.1, none, some d⟩ } := rfl
      rw [hv', hv, k3, g3.key' (l2 ·), k2, (g2.trans g3).key' (l1 ·), k1]
      simp only [List.append_nil]
      rfl
  · have h1 := find_ok h0 .integrator i
    have h2 := find_ok h1.inv .sampler sa
    have h3 := find_ok h2.inv .camera c
    have h4 := find_ok h3.inv .media m
    have hg := ((h1.grow.trans h2.grow).trans h3.grow).trans h4.grow
    have hv : (find .media m (find .camera c (find .sampler sa (find .integrator i { s with sdfOnly := sdf }).2).2).2).2.view =
        (St.view { s with sdfOnly := sdf }).mention [(.integrator, i), (.sampler, sa), (.camera, c), (.media, m)] := by
      rw [h4.view, h3.view, h2.view, h1.view, mention_mention, mention_mention, mention_mention]; rfl
    have k1 := h1.key
    have k2 := h2.key
    have k3 := h3.key
    have k4 := h4.key
    have l1 : ∀ q, _ → _ := fun q => h1.lt (q := q)
    have l2 : ∀ q, _ → _ := fun q => h2.lt (q := q)
    have l3 : ∀ q, _ → _ := fun q => h3.lt (q := q)
    have l4 : ∀ q, _ → _ := fun q => h4.lt (q := q)
    have g2 := h2.grow
    have g3 := h3.grow
    have g4 := h4.grow
    have hI := h4.inv
    generalize find .integrator i { s with sdfOnly := sdf } = r1 at *
    generalize find .sampler sa r1.2 = r2 at *
    generalize find .camera c r2.2 = r3 at *
    generalize find .media m r3.2 = r4 at *
    have hs' : s.scene = none := by simpa using hs
    refine ⟨⟨hI.look, hI.free, hI.refs, hI.owner, hI.lights, ?_, hI.dflt⟩, ?_, rfl, ?_⟩
    · intro r hr q hq
      simp only [Option.some.injEq] at hr
      subst hr
      show q < r4.2.nodes.length
      dsimp only at hq
      rcases hq with hq | hq | hq | hq
      · exact lt_of_lt_of_le (l1 q hq) (le_trans g2.len (le_trans g3.len g4.len))
      · exact lt_of_lt_of_le (l2 q hq) (le_trans g3.len g4.len)
      · exact lt_of_lt_of_le (l3 q hq) g4.len
      · exact l4 q hq
    · have := hL0.trans hg.later
      exact ⟨this.look, this.node, by simp [hs'], this.lights⟩
    · have hv' : St.view { r4.2 with scene := some ⟨name, r1.1, r2.1, r3.1, r4.1, some d⟩ } =
          { r4.2.view with scene := some ⟨name, r4.2.key r1.1, r4.2.key r2.1, r4.2.key r3.1, r4.2.key r4.1, some d⟩ } := rfl
      rw [hv', hv, k4, g4.key' (l3 ·), k3, (g3.trans g4).key' (l2 ·), k2, ((g2.trans g3).trans g4).key' (l1 ·), k1]
      rfl

/-- `fr_accel` in terms of names. -/
def Desc.accelBody (t : String) (a : Desc D T) : Out × Desc D T :=
  if a.scene.isNone then (.abort, a)
  else if t = "light_naive" ∨ t = "light_spatial" then (.ok, { a with accel := some t })
  else (.throw, a)

theorem accelBody_ok (t : String) {s : St D T} (h : Inv s) :
    StepOk s (accelBody t s) (s.view.accelBody t) := by
  have hsc : s.view.scene.isNone = s.scene.isNone := by simp [St.view]
  unfold accelBody Desc.accelBody
  rw [hsc]
  split_ifs
  · exact ⟨h, Later.refl s, rfl, rfl⟩
  · exact ⟨⟨h.look, h.free, h.refs, h.owner, h.lights, h.scene, h.dflt⟩,
      ⟨fun _ _ _ h => h, fun _ nd h => ⟨nd, h, rfl, rfl, fun _ e => e⟩, fun _ h => h, List.prefix_refl _⟩, rfl, rfl⟩
  · exact ⟨h, Later.refl s, rfl, rfl⟩

/-- The timer around a call, in terms of names. -/
def Desc.timed (clk : Bool) (body : Desc D T → Out × Desc D T) (a : Desc D T) : Out × Desc D T :=
  if clk then
    if a.apiOn then (.throw, a) else
      let r := body { a with apiOn := true }
      match r.1 with
      | .ok => if r.2.apiOn then (.ok, { r.2 with apiOn := false }) else (.throw, r.2)
      | o => (o, r.2)
  else body a

theorem timed_ok (clk : Bool) {body : St D T → Out × St D T} {ab : Desc D T → Out × Desc D T}
    (hb : ∀ s : St D T, Inv s → StepOk s (body s) (ab s.view)) {s : St D T} (h : Inv s) :
    StepOk s (timed clk body s) (s.view.timed clk ab) := by
  unfold timed Desc.timed
  have hap : s.view.apiOn = s.apiOn := rfl
  rw [hap]
  split_ifs with c1 c2
  · exact ⟨h, Later.refl s, rfl, rfl⟩
  · dsimp only
    have := hb { s with apiOn := true } (h.api true)
    have hv : St.view { s with apiOn := true } = { s.view with apiOn := true } := rfl
    rw [hv] at this
    have hL : Later s (body { s with apiOn := true }).2 :=
      ⟨this.later.look, this.later.node, this.later.scene, this.later.lights⟩
    obtain ⟨hI, _, hO, hV⟩ := this
    generalize body { s with apiOn := true } = r at *
    generalize ab { s.view with apiOn := true } = q at *
    rw [← hO]
    cases hr : r.1 with
    | ok =>
      dsimp only
      rw [← hV]
      have hap : r.2.view.apiOn = r.2.apiOn := rfl
      rw [hap]
      split_ifs
      · exact ⟨hI.api false, ⟨hL.look, hL.node, hL.scene, hL.lights⟩, rfl, rfl⟩
      · exact ⟨hI, hL, rfl, rfl⟩
    | throw => exact ⟨hI, hL, rfl, hV⟩
    | abort => exact ⟨hI, hL, rfl, hV⟩
    | ub => exact ⟨hI, hL, rfl, hV⟩
  · exact hb s h

/-! ### Objects -/

/-- The end of `fr_object` in terms of names. -/
def Desc.objectFill (mesh shader emitter : String) (o : Key) (a : Desc D T) : Desc D T :=
  if emitter ≠ "null" ∧ emitter ≠ "" then
    ((a.mention [(.mesh, mesh), (.matShader, shader), (.emitter, emitter)]).own (.emitter, emitter) o).define o
      ⟨"object", [some (.mesh, mesh), some (.matShader, shader), some (.emitter, emitter)], none, some a.cur⟩
  else (a.mention [(.mesh, mesh), (.matShader, shader)]).define o
      ⟨"object", [some (.mesh, mesh), some (.matShader, shader), none], none, some a.cur⟩

theorem objectFill_ok (mesh shader emitter : String) {s : St D T} (h : Inv s) {p : Nat} {nm : String}
    {nd : Node D T} (hl : s.lookup .object nm = some p) (hn : s.node p = some nd) (hp : nd.payload = none) :
    StepOk s (Out.ok, objectFill mesh shader emitter p s) (Out.ok, s.view.objectFill mesh shader emitter (.object, nm)) := by
  have h1 := find_ok h .mesh mesh
  have h2 := find_ok h1.inv .matShader shader
  unfold objectFill Desc.objectFill
  dsimp only
  have k1 : (find .mesh mesh s).2.key (find .mesh mesh s).1 = some (.mesh, mesh) := h1.key
  have k2 : (find .matShader shader (find .mesh mesh s).2).2.key (find .matShader shader (find .mesh mesh s).2).1 =
    some (.matShader, shader) := h2.key
  split_ifs with hc
  · have h3 := find_ok h2.inv .emitter emitter
    have hres : reserved .emitter emitter = false := by simp [reserved, hc.1]
    have k3 := h3.key
    have hv : (find .emitter emitter (find .matShader shader (find .mesh mesh s).2).2).2.view =
        s.view.mention [(.mesh, mesh), (.matShader, shader), (.emitter, emitter)] := by
      rw [h3.view, h2.view, h1.view, mention_mention, mention_mention]; rfl
    have l1 : ∀ q, _ → _ := fun q => h1.lt (q := q)
    have l2 : ∀ q, _ → _ := fun q => h2.lt (q := q)
    have l3 : ∀ q, _ → _ := fun q => h3.lt (q := q)
    have g2 := h2.grow
    have g3 := h3.grow
    have hg := (h1.grow.trans g2).trans g3
    have hI := h3.inv
    have hptr := h3.ptr
    have hnull := h3.null
    generalize find .mesh mesh s = r1 at *
    generalize find .matShader shader r1.2 = r2 at *
    generalize find .emitter emitter r2.2 = r3 at *
    cases he : r3.1 with
    | none => rw [hnull.1 he] at hres; simp at hres
    | some q =>
      dsimp only
      have hlq := hptr q he
      have hlp := hg.look _ _ _ hl
      have hkp := hI.key_of_lookup hlp
      have hpl := hI.lookup_lt hlp
      have hI2 : Inv { r3.2 with nodes := r3.2.nodes.modify q fun n => { n with owner := some p } } := by
        apply modify_inv hI
        · intro n; exact ⟨rfl, rfl⟩
        · intro nd' hn' d hd x hx
          exact hI.refs q nd' d hn' hd x hx
        · intro nd' hn' x hx
          simp only [Option.some.injEq] at hx
          subst hx
          exact hpl
      have hL2 : Later r3.2 { r3.2 with nodes := r3.2.nodes.modify q fun n => { n with owner := some p } } :=
        later_modify q _ (fun n => ⟨rfl, rfl⟩) (fun nd' _ d hd => hd)
      have hV2 := setOwner_view hI hlq hkp
      have hkey2 : ∀ r, St.key { r3.2 with nodes := r3.2.nodes.modify q fun n => { n with owner := some p } } r =
        r3.2.key r := key_modify r3.2 q _ (fun n => ⟨rfl, rfl⟩)
      have hlen2 : (r3.2.nodes.modify q fun n => { n with owner := some p }).length = r3.2.nodes.length := by simp
      have hlp2 : St.lookup { r3.2 with nodes := r3.2.nodes.modify q fun n => { n with owner := some p } } .object nm =
        some p := hlp
      have hnp2 : ∃ nd', St.node { r3.2 with nodes := r3.2.nodes.modify q fun n => { n with owner := some p } } p =
          some nd' ∧ nd'.payload = none := by
        rw [node_modify]
        have hnp := hg.node hn
        split_ifs with e
        · subst e
          rw [hnp]
          exact ⟨_, rfl, hp⟩
        · exact ⟨nd, hnp, hp⟩
      obtain ⟨nd', hn', hp'⟩ := hnp2
      have hlenS : ∀ x, x < r3.2.nodes.length →
        x < (St.nodes { r3.2 with nodes := r3.2.nodes.modify q fun n => { n with owner := some p } }).length := by
        intro x hx; rw [hlen2]; exact hx
      generalize ({ r3.2 with nodes := r3.2.nodes.modify q fun n => { n with owner := some p } } : St D T) = z at *
      refine ⟨setPayload_inv hI2 p _ ?_, (hg.later.trans hL2).trans (setPayload_later hn' hp' _), rfl, ?_⟩
      · intro x hx
        simp only [List.mem_cons, List.not_mem_nil, or_false] at hx
        rcases hx with hx | hx | hx
        · exact hlenS x (lt_of_lt_of_le (l1 x hx.symm) (le_trans g2.len g3.len))
        · exact hlenS x (lt_of_lt_of_le (l2 x hx.symm) g3.len)
        · simp only [Option.some.injEq] at hx
          exact hlenS x (l3 x (by rw [he, hx]))
      · show St.view (z.setPayload p _) = _
        rw [setPayload_view hI2 hlp2, hV2, hv]
        congr 1
        unfold St.viewDef
        simp only [List.map_cons, List.map_nil, hkey2]
        rw [(g2.trans g3).key' (l1 ·), k1, g3.key' (l2 ·), k2, ← he, k3, ref, if_neg (by simp [hres])]
        rfl
  · have hv : (find .matShader shader (find .mesh mesh s).2).2.view =
        s.view.mention [(.mesh, mesh), (.matShader, shader)] := by
      rw [h2.view, h1.view, mention_mention]; rfl
    have l1 : ∀ q, _ → _ := fun q => h1.lt (q := q)
    have l2 : ∀ q, _ → _ := fun q => h2.lt (q := q)
    have g2 := h2.grow
    have hg := h1.grow.trans g2
    have hI := h2.inv
    generalize find .mesh mesh s = r1 at *
    generalize find .matShader shader r1.2 = r2 at *
    refine ⟨setPayload_inv hI p _ ?_, hg.later.trans (setPayload_later (hg.node hn) hp _), rfl, ?_⟩
    · intro x hx
      simp only [List.mem_cons, List.not_mem_nil, or_false] at hx
      rcases hx with hx | hx | hx
      · exact lt_of_lt_of_le (l1 x hx.symm) g2.len
      · exact l2 x hx.symm
      · simp at hx
    · show St.view (r2.2.setPayload p _) = _
      rw [setPayload_view hI (hg.look _ _ _ hl), hv]
      congr 1
      unfold St.viewDef
      simp only [List.map_cons, List.map_nil]
      rw [g2.key' (l1 ·), k1, k2]
      rfl

end Feign.Api
