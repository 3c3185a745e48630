import Verif.Api.RegistryStep
import Mathlib.Algebra.Order.Ring.Int

/-! Whole calls and histories of the registry model. -/

set_option linter.unusedSectionVars false
namespace Feign.Api
variable {D T : Type}

theorem find_object_fresh {s : St D T} {nm : String} (hl : s.lookup .object nm = none) :
    find .object nm s = s.alloc .object nm := by
  unfold find findBase
  rw [if_neg (by simp), if_neg (by simp [reserved]), hl]

theorem find_object_known {s : St D T} {nm : String} {p} (hl : s.lookup .object nm = some p) :
    find .object nm s = (some p, s) := by
  unfold find findBase
  rw [if_neg (by simp), if_neg (by simp [reserved]), hl]

theorem objectCall_keeps (clk : Bool) (mesh shader emitter : String) :
    ∀ (fuel : ℕ) (name : String) (index : Int) {s : St D T} {r}, Inv s →
      objectCall clk mesh shader emitter fuel name index s = some r → Inv r.2 ∧ Later s r.2
  | 0, _, _, _, _, _, h => by simp [objectCall] at h
  | fuel + 1, name, index, s, r, hI, h => by
    unfold objectCall at h
    by_cases hc : (clk && s.apiOn) = true
    · rw [if_pos hc] at h
      simp only [Option.some.injEq] at h
      subst h
      exact ⟨hI, Later.refl s⟩
    · rw [if_neg hc] at h
      dsimp only at h
      have h0 := hI.api (clk || s.apiOn)
      have hL0 : Later s { s with apiOn := clk || s.apiOn } := (Later.refl s).api s.apiOn _
      generalize ({ s with apiOn := clk || s.apiOn } : St D T) = s0 at *
      have h1 := find_ok h0 .object (objName name index)
      generalize find .object (objName name index) s0 = q at *
      have hL1 := hL0.trans h1.grow.later
      cases hq : q.1 with
      | none =>
        rw [hq] at h
        simp only [Option.some.injEq] at h
        subst h
        exact ⟨h1.inv, hL1⟩
      | some p =>
        rw [hq] at h
        dsimp only at h
        cases hn : q.2.node p with
        | none =>
          rw [hn] at h
          simp only [Option.some.injEq] at h
          subst h
          exact ⟨h1.inv, hL1⟩
        | some nd =>
          rw [hn] at h
          dsimp only at h
          by_cases hp : nd.payload.isSome = true
          · rw [if_pos hp] at h
            have := objectCall_keeps clk mesh shader emitter fuel _ _ h1.inv h
            exact ⟨this.1, hL1.trans this.2⟩
          · rw [if_neg hp] at h
            have h2 := objectFill_ok mesh shader emitter h1.inv (h1.ptr p hq) hn (by simpa using hp)
            simp only [Option.some.injEq] at h
            subst h
            dsimp only
            have hL := hL1.trans h2.later
            split_ifs
            · exact ⟨h2.inv.api false, ⟨hL.look, hL.node, hL.scene, hL.lights⟩⟩
            · exact ⟨h2.inv, hL⟩

/-- With timers, an object call never recurses more than once. -/
theorem objectCall_clk {mesh shader emitter name : String} {index : Int} {fuel : ℕ} {s : St D T} (hI : Inv s)
    (hoff : s.apiOn = false) :
    ∃ r, objectCall true mesh shader emitter (fuel + 2) name index s = some r ∧
      let o : Key := (.object, objName name index)
      let a1 := ({ s.view with apiOn := true } : Desc D T).mention [o]
      ∃ e, a1.entry o = some e ∧ r.1 = (if e.payload.isSome then Out.throw else Out.ok) ∧
        r.2.view = (if e.payload.isSome then a1 else { a1.objectFill mesh shader emitter o with apiOn := false }) := by
  unfold objectCall
  rw [hoff]
  simp only [Bool.and_false, Bool.false_eq_true, if_false, Bool.true_or, if_true]
  have h0 := hI.api true
  have hv0 : St.view { s with apiOn := true } = { s.view with apiOn := true } := rfl
  rw [← hv0]
  have hon : ({ s with apiOn := true } : St D T).apiOn = true := rfl
  generalize ({ s with apiOn := true } : St D T) = s0 at *
  have h1 := find_ok h0 .object (objName name index)
  generalize find .object (objName name index) s0 = q at *
  cases hq : q.1 with
  | none => have := h1.null.1 hq; simp [reserved] at this
  | some p =>
    dsimp only
    have hl := h1.ptr p hq
    obtain ⟨nd, hn, -, -⟩ := (h1.inv.look _ _ _).1 hl
    rw [hn]
    dsimp only
    rw [← h1.view, entry_some hl hn]
    have hpp : (q.2.viewNode nd).payload.isSome = nd.payload.isSome := by simp [St.viewNode]
    by_cases hp : nd.payload.isSome = true
    · rw [if_pos hp]
      unfold objectCall
      rw [if_pos (by rw [h1.grow.api, hon]; rfl)]
      exact ⟨_, rfl, _, rfl, by rw [hpp, if_pos hp], by rw [hpp, if_pos hp]⟩
    · rw [if_neg hp]
      have h2 := objectFill_ok mesh shader emitter h1.inv hl hn (by simpa using hp)
      refine ⟨_, rfl, _, rfl, by rw [hpp, if_neg hp], ?_⟩
      have hv2 : (objectFill mesh shader emitter p q.2).view =
        Desc.objectFill mesh shader emitter (Kind.object, objName name index) q.2.view := h2.view
      rw [hpp, if_neg hp, ← hv2]
      rfl

/-- Number of nodes that are objects with names at least as long as `l`. -/
def longer (s : St D T) (l : ℕ) : ℕ :=
  (s.nodes.filter fun n => decide (n.kind = .object ∧ l ≤ n.name.length)).length

theorem longer_le (s : St D T) (l : ℕ) : longer s l ≤ s.nodes.length := List.length_filter_le _ _

theorem filter_lt {α : Type} (l : List α) (p q : α → Bool) (hpq : ∀ x, q x = true → p x = true) {x : α} (hx : x ∈ l)
    (hp : p x = true) (hq : q x = false) : (l.filter q).length < (l.filter p).length := by
  induction l with
  | nil => simp at hx
  | cons y ys ih =>
    have hmono : (ys.filter q).length ≤ (ys.filter p).length := by
      rw [← List.countP_eq_length_filter, ← List.countP_eq_length_filter]
      exact List.countP_mono_left (fun z _ h => hpq z h)
    rcases List.mem_cons.1 hx with rfl | hx
    · simp only [List.filter_cons, hp, hq, if_true, Bool.false_eq_true, if_false, List.length_cons]
      omega
    · have := ih hx
      simp only [List.filter_cons]
      split_ifs with a b
      · simp only [List.length_cons]; omega
      · exact absurd (hpq y a) b
      · simp only [List.length_cons]; omega
      · exact this

theorem longer_lt {s : St D T} {p : ℕ} {nd : Node D T} (hn : s.node p = some nd) (hk : nd.kind = .object) {l : ℕ}
    (hl : nd.name.length < l) : longer s l < longer s nd.name.length := by
  apply filter_lt (x := nd)
  · intro x hx
    simp only [decide_eq_true_eq] at *
    exact ⟨hx.1, by omega⟩
  · exact List.mem_of_getElem? hn
  · simp [hk]
  · simp only [decide_eq_false_iff_not]
    rintro ⟨_, h⟩
    omega

/-- Without timers the recursion of `fr_object` ends after at most one nested call per object. -/
theorem objectCall_terminates (mesh shader emitter : String) :
    ∀ (fuel : ℕ) (name : String) (index : Int) {s : St D T}, Inv s → -1 ≤ index →
      longer s (objName name index).length < fuel →
      (objectCall false mesh shader emitter fuel name index s).isSome
  | 0, _, _, _, _, _, h => by omega
  | fuel + 1, name, index, s, hI, hi, h => by
    unfold objectCall
    simp only [Bool.false_and, Bool.false_eq_true, if_false, Bool.false_or]
    cases hl : s.lookup .object (objName name index) with
    | none =>
      rw [find_object_fresh hl]
      have : (s.alloc .object (objName name index)).2.node s.nodes.length =
          some ⟨.object, objName name index, none, none⟩ := by
        rw [node_alloc, if_pos rfl]; rfl
      have h1 : (s.alloc .object (objName name index)).1 = some s.nodes.length := rfl
      rw [h1]
      simp only [this]
      rfl
    | some p =>
      rw [find_object_known hl]
      dsimp only
      obtain ⟨nd, hn, hk, hm⟩ := (hI.look _ _ _).1 hl
      rw [hn]
      dsimp only
      split_ifs
      · apply objectCall_terminates mesh shader emitter fuel _ _ hI (by omega)
        rw [← hm] at h ⊢
        have hlen : nd.name.length < (objName nd.name (index + 1)).length := by
          unfold objName
          rw [if_pos (by omega)]
          simp only [String.length_append]
          have : "_".length = 1 := rfl
          omega
        have := longer_lt hn hk hlen
        omega
      · rfl

/-- A negative index below -1 only delays the search. -/
theorem objectCall_terminates' (mesh shader emitter : String) :
    ∀ (d : ℕ) (fuel : ℕ) (name : String) (index : Int) {s : St D T}, Inv s → (-1 - index).toNat = d →
      s.nodes.length + 1 + d ≤ fuel →
      (objectCall false mesh shader emitter fuel name index s).isSome
  | 0, fuel, name, index, s, hI, hd, hf => by
    apply objectCall_terminates mesh shader emitter fuel name index hI (by omega)
    have := longer_le s (objName name index).length
    omega
  | d + 1, 0, name, index, s, hI, hd, hf => by omega
  | d + 1, fuel + 1, name, index, s, hI, hd, hf => by
    unfold objectCall
    simp only [Bool.false_and, Bool.false_eq_true, if_false, Bool.false_or]
    cases hl : s.lookup .object (objName name index) with
    | none =>
      rw [find_object_fresh hl]
      have : (s.alloc .object (objName name index)).2.node s.nodes.length =
          some ⟨.object, objName name index, none, none⟩ := by
        rw [node_alloc, if_pos rfl]; rfl
      have h1 : (s.alloc .object (objName name index)).1 = some s.nodes.length := rfl
      rw [h1]
      simp only [this]
      rfl
    | some p =>
      rw [find_object_known hl]
      dsimp only
      obtain ⟨nd, hn, hk, hm⟩ := (hI.look _ _ _).1 hl
      rw [hn]
      dsimp only
      split_ifs
      · exact objectCall_terminates' mesh shader emitter d fuel _ _ hI (by omega) (by omega)
      · rfl

/-! ### Calls -/

/-- An object call in terms of names (with timers). -/
def Desc.object (mesh shader emitter name : String) (index : Int) (a : Desc D T) : Out × Desc D T :=
  if a.apiOn then (.throw, a) else
    let o : Key := (.object, objName name index)
    let a1 := ({ a with apiOn := true } : Desc D T).mention [o]
    match a1.entry o with
    | none => (.ub, a1)
    | some e =>
      if e.payload.isSome then (.throw, a1)
      else (.ok, { a1.objectFill mesh shader emitter o with apiOn := false })

/-- A declaring call in terms of names. -/
def Desc.declBody (c : Call D T) (a : Desc D T) : Out × Desc D T :=
  match decl? c with
  | some d => a.declare d
  | none => (.throw, a)

/-- A call in terms of names (with timers). -/
def Desc.step (a : Desc D T) : Call D T → Out × Desc D T
  | .accel t => a.timed true (Desc.accelBody t)
  | .scene n i sa c m d sdf => a.timed true (Desc.sceneBody n i sa c m d sdf)
  | .object n m sh e i => a.object m sh e n i
  | .transform f => a.timed true (fun a => (.ok, { a with cur := f a.cur }))
  | c => a.timed true (Desc.declBody c)

theorem transform_ok (f : T → T) (s : St D T) (h : Inv s) :
    StepOk s (Out.ok, { s with cur := f s.cur }) (Out.ok, { s.view with cur := f s.view.cur }) :=
  ⟨⟨h.look, h.free, h.refs, h.owner, h.lights, h.scene, h.dflt⟩,
    ⟨fun _ _ _ h => h, fun _ nd h => ⟨nd, h, rfl, rfl, fun _ e => e⟩, fun _ h => h, List.prefix_refl _⟩, rfl, rfl⟩

theorem declOpt_ok (c : Call D T) (s : St D T) (h : Inv s) :
    StepOk s (declBody c s) (s.view.declBody c) := by
  unfold declBody Desc.declBody
  cases decl? c with
  | some d => exact declare_ok d h
  | none => exact ⟨h, Later.refl s, rfl, rfl⟩

/-- Every call keeps the invariant and everything that was there. -/
theorem step_keeps (clk : Bool) {s : St D T} (h : Inv s) (c : Call D T) {r} (hr : step clk s c = some r) :
    Inv r.2 ∧ Later s r.2 := by
  have key : ∀ {b : St D T → Out × St D T} {ab : Desc D T → Out × Desc D T}, (∀ s : St D T, Inv s → StepOk s (b s) (ab s.view)) →
      some (timed clk b s) = some r → Inv r.2 ∧ Later s r.2 := by
    intro b ab hb e
    simp only [Option.some.injEq] at e
    subst e
    have := timed_ok clk hb h
    exact ⟨this.inv, this.later⟩
  cases c <;> unfold step at hr
  case accel t => exact key (fun s h => accelBody_ok t h) hr
  case scene => exact key (fun s h => sceneBody_ok _ _ _ _ _ _ _ h) hr
  case object => exact objectCall_keeps clk _ _ _ _ _ _ h hr
  case transform f => exact key (ab := fun a => (.ok, { a with cur := f a.cur })) (fun s h => transform_ok f s h) hr
  all_goals exact key (fun s h => declOpt_ok _ s h) hr

/-- With timers, calls agree with the description by names. -/
theorem step_view {s : St D T} (h : Inv s) (c : Call D T) :
    ∃ r, step true s c = some r ∧ r.1 = (s.view.step c).1 ∧ r.2.view = (s.view.step c).2 := by
  have key : ∀ {b : St D T → Out × St D T} {ab : Desc D T → Out × Desc D T}, (∀ s : St D T, Inv s → StepOk s (b s) (ab s.view)) →
      ∃ r, some (timed true b s) = some r ∧ r.1 = (s.view.timed true ab).1 ∧
        r.2.view = (s.view.timed true ab).2 := by
    intro b ab hb
    have := timed_ok true hb h
    exact ⟨_, rfl, this.out, this.view⟩
  cases c <;> unfold step Desc.step
  case accel t => exact key (fun s h => accelBody_ok t h)
  case scene => exact key (fun s h => sceneBody_ok _ _ _ _ _ _ _ h)
  case object n m sh e i =>
    have hap : s.view.apiOn = s.apiOn := rfl
    unfold Desc.object
    cases hon : s.apiOn with
    | true =>
      rw [hap, hon]
      refine ⟨(.throw, s), ?_, rfl, rfl⟩
      show objectCall true m sh e (_ + 2 + _) n i s = _
      rw [show s.nodes.length + 2 + (-1 - i).toNat = (s.nodes.length + 1 + (-1 - i).toNat) + 1 from by omega]
      unfold objectCall
      simp [hon]
    | false =>
      rw [hap, hon]
      have := objectCall_clk (mesh := m) (shader := sh) (emitter := e) (name := n) (index := i)
        (fuel := s.nodes.length + (-1 - i).toNat) h hon
      obtain ⟨r, hr, ent, he, h1, h2⟩ := this
      refine ⟨r, ?_, ?_, ?_⟩
      · show objectCall true m sh e (_ + 2 + _) n i s = _
        rw [show s.nodes.length + 2 + (-1 - i).toNat = s.nodes.length + (-1 - i).toNat + 2 from by omega]
        exact hr
      · simp only [Bool.false_eq_true, if_false, he]
        rw [h1]; split_ifs <;> rfl
      · simp only [Bool.false_eq_true, if_false, he]
        rw [h2]; split_ifs <;> rfl
  case transform f => exact key (ab := fun a => (.ok, { a with cur := f a.cur })) (fun s h => transform_ok f s h)
  all_goals exact key (fun s h => declOpt_ok _ s h)

/-- Every call returns, throws, aborts or is undefined, with or without timers. -/
theorem step_total (clk : Bool) {s : St D T} (h : Inv s) (c : Call D T) : (step clk s c).isSome := by
  cases clk with
  | true =>
    obtain ⟨r, hr, _⟩ := step_view h c
    rw [hr]; rfl
  | false =>
    cases c <;> unfold step
    case object n m sh e i =>
      exact objectCall_terminates' m sh e _ _ n i h rfl (by omega)
    all_goals rfl

theorem run_keeps (clk : Bool) : ∀ (cs : List (Call D T)) {s : St D T} {os s'}, Inv s →
    run clk s cs = some (os, s') → Inv s' ∧ Later s s'
  | [], s, os, s', h, hr => by
    simp only [run, Option.some.injEq, Prod.mk.injEq] at hr
    obtain ⟨-, rfl⟩ := hr
    exact ⟨h, Later.refl _⟩
  | c :: cs, s, os, s', h, hr => by
    unfold run at hr
    cases hs : step clk s c with
    | none => rw [hs] at hr; simp at hr
    | some r =>
      obtain ⟨o, s1⟩ := r
      rw [hs] at hr
      dsimp only at hr
      have h1 := step_keeps clk h c hs
      split_ifs at hr
      · simp only [Option.map_eq_some_iff, Prod.mk.injEq] at hr
        obtain ⟨⟨a, b⟩, hab, -, rfl⟩ := hr
        have h2 := run_keeps clk cs h1.1 hab
        exact ⟨h2.1, h1.2.trans h2.2⟩
      · simp only [Option.some.injEq, Prod.mk.injEq] at hr
        obtain ⟨-, rfl⟩ := hr
        exact h1

end Feign.Api
