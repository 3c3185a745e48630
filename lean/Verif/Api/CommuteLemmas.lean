import Verif.Api.RegistryProps
import Mathlib.Data.List.Perm.Basic

/-! Declarations as effects on the description by names, and their commutation. -/

set_option linter.unusedSectionVars false
namespace Feign.Api
variable {D T : Type}

/-- What a successful declaration does. -/
structure Eff (D T : Type) where
  target : Key
  names : List Key
  defn : T → Option (ADef D T)
  owns : Option Key
  light : Bool

/-- The change made by an effect to the entry called `k`. -/
def Eff.on (e : Eff D T) (cur : T) (k : Key) (n : ANode D T) : ANode D T :=
  ⟨if k = e.target then (e.defn cur).or n.payload else n.payload, if e.owns = some k then some e.target else n.owner⟩

/-- Names an effect mentions. -/
def Eff.touches (e : Eff D T) (k : Key) : Prop := k ∈ closure (e.target :: e.names) ∧ reserved k.1 k.2 = false

instance (e : Eff D T) (k : Key) : Decidable (e.touches k) := by unfold Eff.touches; infer_instance

/-- Carry out an effect. -/
def Desc.apply (a : Desc D T) (e : Eff D T) : Desc D T :=
  { a with
    entry := fun k => ((a.entry k).or (if e.touches k then some (fresh k) else none)).map (e.on a.cur k)
    lights := if e.light then a.lights ++ [e.target] else a.lights }

/-- The effect of a declaring call that is accepted. -/
def eff : Call D T → Option (Eff D T)
  | .object n m sh e i => some
      { target := (.object, objName n i)
        names := [(.mesh, m), (.matShader, sh)] ++ if e ≠ "null" ∧ e ≠ "" then [(.emitter, e)] else []
        defn := fun cur => some ⟨"object", [some (.mesh, m), some (.matShader, sh),
          if e ≠ "null" ∧ e ≠ "" then some (.emitter, e) else none], none, some cur⟩
        owns := if e ≠ "null" ∧ e ≠ "" then some (.emitter, e) else none
        light := false }
  | c =>
    match decl? c with
    | none => none
    | some d =>
      match d.verdict with
      | .ok => some ⟨(d.kind, d.name), d.pre ++ d.post, fun cur => some ⟨d.type, (d.pre ++ d.post).map ref,
          some d.data, if d.useXf then some cur else none⟩, none, d.light⟩
      | .nothing => some ⟨(d.kind, d.name), d.pre, fun _ => none, none, false⟩
      | _ => none

/-- Entry `t` has no definition yet and would not get one by being mentioned. -/
def Desc.undef (a : Desc D T) (t : Key) : Prop := ∀ n, (a.entry t).or (some (fresh t)) = some n → n.payload = none

/-- Reserved names have no entries. -/
def Desc.clean (a : Desc D T) : Prop := ∀ k : Key, reserved k.1 k.2 = true → a.entry k = none

theorem Inv.clean {s : St D T} (h : Inv s) : s.view.clean := by
  intro k hr
  have := mention_entry_reserved h [] hr
  rwa [mention_nil] at this

theorem mem_closure_self (k : Key) (ks : List Key) (h : k ∈ ks) : k ∈ closure ks := by
  unfold closure
  rw [List.mem_flatMap]
  exact ⟨k, h, by split_ifs <;> simp⟩

theorem mention_entry_self {a : Desc D T} (hc : a.clean) (k : Key) (ks : List Key) (hk : k ∈ ks) :
    (a.mention ks).entry k = if reserved k.1 k.2 = true then none else (a.entry k).or (some (fresh k)) := by
  unfold Desc.mention
  dsimp only
  by_cases hr : reserved k.1 k.2 = true
  · rw [if_pos hr, hc k hr]; simp [hr]
  · rw [if_neg hr, if_pos ⟨mem_closure_self k ks hk, by simpa using hr⟩]

theorem fresh_owner (k : Key) : (fresh k : ANode D T).owner = none := by
  unfold fresh; split_ifs <;> rfl

theorem closure_cons (k : Key) (ks : List Key) : closure (k :: ks) = closure [k] ++ closure ks := by
  simp [closure]

/-- `declare` as an effect. -/
theorem declare_eff {a : Desc D T} (hc : a.clean) (d : Decl D) {e : Eff D T}
    (he : (match d.verdict with
      | .ok => some (⟨(d.kind, d.name), d.pre ++ d.post, fun cur => some ⟨d.type, (d.pre ++ d.post).map ref,
          some d.data, if d.useXf then some cur else none⟩, none, d.light⟩ : Eff D T)
      | .nothing => some ⟨(d.kind, d.name), d.pre, fun _ => none, none, false⟩
      | _ => none) = some e) :
    ((a.declare d).1 = .ok ↔ reserved e.target.1 e.target.2 = false ∧ a.undef e.target ∧ (e.light = true → a.scene.isSome)) ∧
    ((a.declare d).1 = .ok → (a.declare d).2 = a.apply e) := by
  have hself := mention_entry_self hc (d.kind, d.name) ((d.kind, d.name) :: d.pre) (by simp)
  have htgt : e.target = (d.kind, d.name) := by
    cases hv : d.verdict <;> rw [hv] at he <;> simp at he <;> rw [← he]
  unfold Desc.declare
  dsimp only
  rw [hself, htgt]
  by_cases hr : reserved d.kind d.name = true
  · rw [if_pos hr]; simp [hr]
  · rw [if_neg hr]
    have hr' : reserved d.kind d.name = false := by simpa using hr
    have hex : ∃ n, (a.entry (d.kind, d.name)).or (some (fresh (d.kind, d.name))) = some n := by
      cases a.entry (d.kind, d.name) with
      | none => exact ⟨_, rfl⟩
      | some n => exact ⟨n, rfl⟩
    obtain ⟨n, hn⟩ := hex
    have hund : a.undef (d.kind, d.name) ↔ n.payload = none := by
      unfold Desc.undef
      rw [hn]
      simp
    rw [hn, hund]
    dsimp only
    by_cases hp : n.payload.isSome = true
    · rw [if_pos hp]
      have : n.payload ≠ none := by
        intro h; rw [h] at hp; simp at hp
      simp [this]
    · rw [if_neg hp]
      have hp' : n.payload = none := by simpa using hp
      have happly : ∀ (names : List Key) (x : ADef D T) (lt : Bool),
          (({ (((a.mention ((d.kind, d.name) :: names)).define (d.kind, d.name) x)) with
            lights := if lt then a.lights ++ [(d.kind, d.name)] else a.lights } : Desc D T)) =
          a.apply ⟨(d.kind, d.name), names, fun _ => some x, none, lt⟩ := by
        intro names x lt
        unfold Desc.apply Desc.define Desc.mention
        ext1 <;> try rfl
        funext k
        dsimp only
        unfold Eff.touches Eff.on
        dsimp only
        by_cases hk : k = (d.kind, d.name)
        · subst hk
          rw [if_pos rfl]
          congr 1
          funext m
          simp
        · rw [if_neg hk]
          simp [hk]
      cases hv : d.verdict with
      | throw => rw [hv] at he; simp at he
      | abort => rw [hv] at he; simp at he
      | nothing =>
        rw [hv] at he
        simp only [Option.some.injEq] at he
        subst he
        refine ⟨by simp [hr', hp'], fun _ => ?_⟩
        unfold Desc.apply Desc.mention
        ext1 <;> try rfl
        funext k
        dsimp only
        unfold Eff.touches Eff.on
        simp
      | ok =>
        rw [hv] at he
        simp only [Option.some.injEq] at he
        subst he
        dsimp only
        rw [mention_mention]
        have h0 := happly (d.pre ++ d.post) ⟨d.type, (d.pre ++ d.post).map ref, some d.data,
          if d.useXf then some a.cur else none⟩ d.light
        have hA : a.apply ⟨(d.kind, d.name), d.pre ++ d.post, fun cur => some ⟨d.type, (d.pre ++ d.post).map ref,
          some d.data, if d.useXf then some cur else none⟩, none, d.light⟩ =
          a.apply ⟨(d.kind, d.name), d.pre ++ d.post, fun _ => some ⟨d.type, (d.pre ++ d.post).map ref,
          some d.data, if d.useXf then some a.cur else none⟩, none, d.light⟩ := rfl
        rw [hA, ← h0]
        have hsc : (((a.mention ((d.kind, d.name) :: d.pre ++ d.post)).define (d.kind, d.name)
          ⟨d.type, (d.pre ++ d.post).map ref, some d.data, if d.useXf then some a.cur else none⟩)).scene = a.scene := rfl
        have hsc' : a.scene.isNone = !a.scene.isSome := by cases a.scene <;> rfl
        by_cases hl : d.light = true
        · rw [if_pos hl, hsc, hsc']
          cases hs : a.scene.isSome with
          | true =>
            simp only [hl, Bool.not_true, Bool.false_eq_true, if_false, if_true]
            exact ⟨by simp [hr', hp'], fun _ => rfl⟩
          | false => simp [hl]
        · rw [if_neg hl]
          simp only [hl, Bool.false_eq_true, if_false]
          exact ⟨by simp [hr', hp'], fun _ => rfl⟩

theorem mention_scene (a : Desc D T) (ks : List Key) : (a.mention ks).scene = a.scene := rfl
theorem define_scene (a : Desc D T) (k : Key) (d : ADef D T) : (a.define k d).scene = a.scene := rfl

theorem declare_setApi (d : Decl D) (a : Desc D T) (b : Bool) :
    Desc.declare d { a with apiOn := b } = ((a.declare d).1, { (a.declare d).2 with apiOn := b }) := by
  unfold Desc.declare
  dsimp only
  have hm : ∀ ks, Desc.mention ({ a with apiOn := b } : Desc D T) ks = { (a.mention ks) with apiOn := b } := fun _ => rfl
  rw [hm]
  dsimp only
  cases (a.mention ((d.kind, d.name) :: d.pre)).entry (d.kind, d.name) with
  | none => rfl
  | some n =>
    dsimp only
    by_cases hp : n.payload.isSome = true
    · rw [if_pos hp, if_pos hp]
    · rw [if_neg hp, if_neg hp]
      cases d.verdict <;> try rfl
      dsimp only
      by_cases hl : d.light = true
      · rw [if_pos hl, if_pos hl]
        by_cases hs : a.scene.isNone = true
        · simp only [define_scene, mention_scene, hs, if_true]; rfl
        · simp only [define_scene, mention_scene, hs, if_false, Bool.false_eq_true]; rfl
      · rw [if_neg hl, if_neg hl]; rfl

theorem declare_api (d : Decl D) (a : Desc D T) : (a.declare d).2.apiOn = a.apiOn := by
  have h := declare_setApi d a a.apiOn
  have e : ({ a with apiOn := a.apiOn } : Desc D T) = a := rfl
  rw [e] at h
  exact congrArg (fun x => x.2.apiOn) h

theorem timed_off {a : Desc D T} (hoff : a.apiOn = false) {body : Desc D T → Out × Desc D T} {o r}
    (hb : body { a with apiOn := true } = (o, r)) (hr : r.apiOn = true) :
    a.timed true body = if o = .ok then (.ok, { r with apiOn := false }) else (o, r) := by
  unfold Desc.timed
  simp only [hoff, if_true, Bool.false_eq_true, if_false, hb]
  cases o <;> simp [hr]

/-- Accepted declaring calls are exactly their effects. -/
theorem step_eff {a : Desc D T} (hc : a.clean) (hoff : a.apiOn = false) {c : Call D T} {e : Eff D T} (he : eff c = some e) :
    ((a.step c).1 = .ok ↔ reserved e.target.1 e.target.2 = false ∧ a.undef e.target ∧ (e.light = true → a.scene.isSome)) ∧
    ((a.step c).1 = .ok → (a.step c).2 = a.apply e) := by
  have key : ∀ c' : Call D T, (∀ n m sh em i, c' ≠ .object n m sh em i) → a.step c' = a.timed true (Desc.declBody c') →
      eff c' = some e →
      ((a.step c').1 = .ok ↔ reserved e.target.1 e.target.2 = false ∧ a.undef e.target ∧ (e.light = true → a.scene.isSome)) ∧
      ((a.step c').1 = .ok → (a.step c').2 = a.apply e) := by
    intro c' hno hst he'
    have he2 : (match decl? c' with
        | none => none
        | some d =>
          match d.verdict with
          | .ok => some (⟨(d.kind, d.name), d.pre ++ d.post, fun cur => some ⟨d.type, (d.pre ++ d.post).map ref,
              some d.data, if d.useXf then some cur else none⟩, none, d.light⟩ : Eff D T)
          | .nothing => some ⟨(d.kind, d.name), d.pre, fun _ => none, none, false⟩
          | _ => none) = some e := by
      rw [← he']
      cases c' <;> first | rfl | exact absurd rfl (hno _ _ _ _ _)
    rw [hst]
    cases hd : decl? c' with
    | none => rw [hd] at he2; simp at he2
    | some d =>
      rw [hd] at he2
      dsimp only at he2
      have hb : Desc.declBody c' { a with apiOn := true } = ((a.declare d).1, { (a.declare d).2 with apiOn := true }) := by
        unfold Desc.declBody
        rw [hd]
        exact declare_setApi d a true
      rw [timed_off hoff hb rfl]
      have := declare_eff hc d he2
      have hapi := declare_api d a
      by_cases ho : (a.declare d).1 = .ok
      · rw [if_pos ho]
        refine ⟨by rw [← this.1]; simp [ho], fun _ => ?_⟩
        rw [← this.2 ho]
        dsimp only
        ext1 <;> try rfl
        rw [hapi, hoff]
      · rw [if_neg ho]
        exact ⟨this.1, fun h => absurd h ho⟩
  cases c with
  | object n m sh em i =>
    simp only [eff, Option.some.injEq] at he
    subst he
    unfold Desc.step Desc.object
    rw [hoff]
    simp only [Bool.false_eq_true, if_false]
    have hc' : Desc.clean ({ a with apiOn := true } : Desc D T) := hc
    rw [mention_entry_self hc' _ _ (by simp)]
    have hr : reserved Kind.object (objName n i) = false := rfl
    rw [if_neg (by simp [hr])]
    dsimp only
    have hex : ∃ x, (a.entry (Kind.object, objName n i)).or (some (fresh (Kind.object, objName n i))) = some x := by
      cases a.entry (Kind.object, objName n i) with
      | none => exact ⟨_, rfl⟩
      | some x => exact ⟨x, rfl⟩
    obtain ⟨x, hx⟩ := hex
    have hund : a.undef (Kind.object, objName n i) ↔ x.payload = none := by
      unfold Desc.undef
      rw [hx]
      simp
    rw [hx, hund]
    dsimp only
    by_cases hp : x.payload.isSome = true
    · rw [if_pos hp]
      have : x.payload ≠ none := by intro h; rw [h] at hp; simp at hp
      simp [this]
    · rw [if_neg hp]
      have hp' : x.payload = none := by simpa using hp
      refine ⟨by simp [hr, hp'], fun _ => ?_⟩
      unfold Desc.objectFill Desc.apply
      by_cases hem : em ≠ "null" ∧ em ≠ ""
      · simp only [if_pos hem]
        rw [mention_mention]
        unfold Desc.define Desc.own Desc.mention
        ext1 <;> try rfl
        · funext k
          dsimp only
          unfold Eff.touches Eff.on
          dsimp only
          by_cases hk : k = (Kind.object, objName n i)
          · subst hk
            simp
          · by_cases hk2 : k = (Kind.emitter, em)
            · subst hk2
              simp
            · have : ¬ (Kind.emitter, em) = k := fun h => hk2 h.symm
              simp [hk, hk2, this]
        · simp [hoff]
      · simp only [if_neg hem]
        rw [mention_mention]
        unfold Desc.define Desc.mention
        ext1 <;> try rfl
        · funext k
          dsimp only
          unfold Eff.touches Eff.on
          dsimp only
          by_cases hk : k = (Kind.object, objName n i)
          · subst hk
            simp
          · simp [hk]
        · simp [hoff]
  | accel => simp [eff, decl?] at he
  | scene => simp [eff, decl?] at he
  | transform => simp [eff, decl?] at he
  | _ => exact key _ (by simp) rfl he

/-! ### Commutation -/

/-- The same description; the order of lights may differ. -/
structure Same (a b : Desc D T) : Prop where
  entry : a.entry = b.entry
  scene : a.scene = b.scene
  lights : a.lights.Perm b.lights
  accel : a.accel = b.accel
  sdfOnly : a.sdfOnly = b.sdfOnly
  cur : a.cur = b.cur
  apiOn : a.apiOn = b.apiOn

theorem Same.refl (a : Desc D T) : Same a a := ⟨rfl, rfl, List.Perm.refl _, rfl, rfl, rfl, rfl⟩

theorem Same.trans {a b c : Desc D T} (h : Same a b) (g : Same b c) : Same a c :=
  ⟨h.entry.trans g.entry, h.scene.trans g.scene, h.lights.trans g.lights, h.accel.trans g.accel,
   h.sdfOnly.trans g.sdfOnly, h.cur.trans g.cur, h.apiOn.trans g.apiOn⟩

theorem Same.apply {a b : Desc D T} (h : Same a b) (e : Eff D T) : Same (a.apply e) (b.apply e) where
  entry := by unfold Desc.apply; dsimp only; rw [h.entry, h.cur]
  scene := h.scene
  lights := by
    unfold Desc.apply; dsimp only
    split_ifs
    · exact h.lights.append_right _
    · exact h.lights
  accel := h.accel
  sdfOnly := h.sdfOnly
  cur := h.cur
  apiOn := h.apiOn

theorem Same.undef {a b : Desc D T} (h : Same a b) (t : Key) : a.undef t ↔ b.undef t := by
  unfold Desc.undef; rw [h.entry]

theorem Same.clean {a b : Desc D T} (h : Same a b) (hc : a.clean) : b.clean := by
  unfold Desc.clean at *; rw [← h.entry]; exact hc

/-- An effect mentions what it changes. -/
structure Eff.Wf (e : Eff D T) : Prop where
  target : reserved e.target.1 e.target.2 = false
  owns : ∀ k, e.owns = some k → e.touches k

theorem Eff.touches_target {e : Eff D T} (h : e.Wf) : e.touches e.target :=
  ⟨mem_closure_self _ _ (by simp), h.target⟩

theorem Eff.on_untouched {e : Eff D T} (h : e.Wf) {cur : T} {k : Key} (hk : ¬ e.touches k) (n : ANode D T) :
    e.on cur k n = n := by
  have h1 : k ≠ e.target := by rintro rfl; exact hk (Eff.touches_target h)
  have h2 : e.owns ≠ some k := fun h1 => hk (h.owns k h1)
  unfold Eff.on
  rw [if_neg h1, if_neg h2]

theorem apply_clean {a : Desc D T} (hc : a.clean) (e : Eff D T) : (a.apply e).clean := by
  intro k hr
  unfold Desc.apply Eff.touches
  dsimp only
  rw [hc k hr]
  simp [hr]

theorem on_comm {e f : Eff D T} (ht : e.target ≠ f.target) (ho : ∀ k, ¬ (e.owns = some k ∧ f.owns = some k))
    (cur : T) (k : Key) (n : ANode D T) : e.on cur k (f.on cur k n) = f.on cur k (e.on cur k n) := by
  unfold Eff.on
  simp only [ANode.mk.injEq]
  constructor
  · by_cases h1 : k = e.target
    · rw [if_pos h1, if_neg (fun h2 => ht (h1.symm.trans h2)), if_pos h1, if_neg (fun h2 => ht (h1.symm.trans h2))]
    · rw [if_neg h1, if_neg h1]
  · by_cases h1 : e.owns = some k
    · rw [if_pos h1, if_neg (fun h2 => ho k ⟨h1, h2⟩)]
      simp only [h1, if_true]
    · simp only [h1, if_false]

theorem apply_comm {a : Desc D T} {e f : Eff D T} (he : e.Wf) (hf : f.Wf) (ht : e.target ≠ f.target)
    (ho : ∀ k, ¬ (e.owns = some k ∧ f.owns = some k)) :
    Same ((a.apply e).apply f) ((a.apply f).apply e) where
  entry := by
    unfold Desc.apply
    dsimp only
    funext k
    cases a.entry k with
    | some n =>
      simp only [Option.some_or, Option.map_some]
      rw [on_comm ht ho]
    | none =>
      by_cases h1 : e.touches k <;> by_cases h2 : f.touches k <;>
        simp [h1, h2, on_comm ht ho, Eff.on_untouched he, Eff.on_untouched hf]
  scene := rfl
  lights := by
    unfold Desc.apply
    dsimp only
    split_ifs
    · rw [List.append_assoc, List.append_assoc]
      exact List.Perm.append_left _ (List.perm_append_comm)
    · exact List.Perm.refl _
    · exact List.Perm.refl _
    · exact List.Perm.refl _
  accel := rfl
  sdfOnly := rfl
  cur := rfl
  apiOn := rfl

theorem apply_undef {a : Desc D T} {e : Eff D T} {t : Key} (ht : t ≠ e.target) :
    (a.apply e).undef t ↔ a.undef t := by
  unfold Desc.undef Desc.apply
  dsimp only
  have hpay : ∀ n : ANode D T, (e.on a.cur t n).payload = n.payload := by
    intro n; unfold Eff.on; rw [if_neg ht]
  cases a.entry t with
  | some n => simp [hpay]
  | none =>
    by_cases h : e.touches t
    · simp [h, hpay]
    · simp [h]

/-- Declaring calls accepted one after another. -/
def Desc.accepts : Desc D T → List (Call D T) → Option (Desc D T)
  | a, [] => some a
  | a, c :: cs => if (a.step c).1 = .ok then (a.step c).2.accepts cs else none

/-- Condition for a call to be accepted. -/
def Ready (a : Desc D T) (e : Eff D T) : Prop :=
  reserved e.target.1 e.target.2 = false ∧ a.undef e.target ∧ (e.light = true → a.scene.isSome)

/-- All calls declare something, different things, and no two objects carry the same emitter. -/
def Indep (c c' : Call D T) : Prop := ∀ e e', eff c = some e → eff c' = some e' →
  e.target ≠ e'.target ∧ ∀ k, ¬ (e.owns = some k ∧ e'.owns = some k)

theorem Indep.symm {c c' : Call D T} (h : Indep c c') : Indep c' c := fun e e' h1 h2 =>
  ⟨fun x => (h e' e h2 h1).1 x.symm, fun k x => (h e' e h2 h1).2 k ⟨x.2, x.1⟩⟩

theorem eff_wf {c : Call D T} {e : Eff D T} (he : eff c = some e) (hr : reserved e.target.1 e.target.2 = false) : e.Wf := by
  refine ⟨hr, ?_⟩
  intro k hk
  cases c
  case object n m sh em i =>
    simp only [eff, Option.some.injEq] at he
    subst he
    dsimp only at hk
    split_ifs at hk with h
    simp only [Option.some.injEq] at hk
    subst hk
    unfold Eff.touches
    refine ⟨mem_closure_self _ _ ?_, ?_⟩
    · simp [h]
    · simp [reserved, h.1]
  all_goals
    simp only [eff] at he
    split at he
    · simp at he
    · split at he
      · simp only [Option.some.injEq] at he; subst he; simp at hk
      · simp only [Option.some.injEq] at he; subst he; simp at hk
      · simp at he

theorem accepts_cons {a : Desc D T} (hc : a.clean) (hoff : a.apiOn = false) {c : Call D T} {e} (he : eff c = some e)
    (cs : List (Call D T)) {b} (h : a.accepts (c :: cs) = some b) : Ready a e ∧ (a.apply e).accepts cs = some b := by
  unfold Desc.accepts at h
  split_ifs at h with ho
  have := step_eff hc hoff he
  exact ⟨this.1.1 ho, by rw [← this.2 ho]; exact h⟩

theorem accepts_cons' {a : Desc D T} (hc : a.clean) (hoff : a.apiOn = false) {c : Call D T} {e} (he : eff c = some e)
    (cs : List (Call D T)) {b} (hr : Ready a e) (h : (a.apply e).accepts cs = some b) : a.accepts (c :: cs) = some b := by
  unfold Desc.accepts
  have := step_eff hc hoff he
  have ho := this.1.2 hr
  rw [if_pos ho, this.2 ho]
  exact h

theorem Same.ready {a b : Desc D T} (h : Same a b) {e : Eff D T} (hr : Ready a e) : Ready b e :=
  ⟨hr.1, (h.undef _).1 hr.2.1, by rw [← h.scene]; exact hr.2.2⟩

theorem accepts_same : ∀ (cs : List (Call D T)) {a b a1 : Desc D T}, Same a b → a.clean → a.apiOn = false →
    (∀ c ∈ cs, ∃ e, eff c = some e) → a.accepts cs = some a1 → ∃ b1, b.accepts cs = some b1 ∧ Same a1 b1
  | [], a, b, a1, h, _, _, _, ha => by
    simp only [Desc.accepts, Option.some.injEq] at ha
    subst ha
    exact ⟨b, rfl, h⟩
  | c :: cs, a, b, a1, h, hc, hoff, he, ha => by
    obtain ⟨e, hce⟩ := he c (by simp)
    obtain ⟨hr, ha'⟩ := accepts_cons hc hoff hce cs ha
    obtain ⟨b1, hb1, hs⟩ := accepts_same cs (h.apply e) (apply_clean hc e) hoff (fun c hc => he c (by simp [hc])) ha'
    exact ⟨b1, accepts_cons' (h.clean hc) (by rw [← h.apiOn]; exact hoff) hce cs (h.ready hr) hb1, hs⟩

theorem accepts_perm {cs cs' : List (Call D T)} (hp : cs.Perm cs') : ∀ {a a1 : Desc D T}, a.clean → a.apiOn = false →
    (∀ c ∈ cs, ∃ e, eff c = some e) → cs.Pairwise Indep → a.accepts cs = some a1 →
    ∃ b1, a.accepts cs' = some b1 ∧ Same a1 b1 := by
  induction hp with
  | nil => intro a a1 _ _ _ _ h; exact ⟨a1, h, Same.refl _⟩
  | @cons c l l' _ ih =>
    intro a a1 hc hoff he hi h
    obtain ⟨e, hce⟩ := he c (by simp)
    obtain ⟨hr, h'⟩ := accepts_cons hc hoff hce _ h
    obtain ⟨b1, hb, hs⟩ := ih (apply_clean hc e) hoff (fun c hc => he c (by simp [hc])) (List.pairwise_cons.1 hi).2 h'
    exact ⟨b1, accepts_cons' hc hoff hce _ hr hb, hs⟩
  | @swap c c' l =>
    intro a a1 hc hoff he hi h
    obtain ⟨e, hce⟩ := he c (by simp)
    obtain ⟨e', hce'⟩ := he c' (by simp)
    obtain ⟨hr', h1⟩ := accepts_cons hc hoff hce' _ h
    obtain ⟨hr, h2⟩ := accepts_cons (apply_clean hc e') hoff hce _ h1
    have hind := (List.pairwise_cons.1 hi).1 c (by simp)
    obtain ⟨ht, ho⟩ := hind e' e hce' hce
    have hsame : Same ((a.apply e').apply e) ((a.apply e).apply e') :=
      apply_comm (eff_wf hce' hr'.1) (eff_wf hce hr.1) ht ho
    obtain ⟨b1, hb1, hs⟩ := accepts_same l hsame (apply_clean (apply_clean hc e') e) hoff
      (fun c hc => he c (by simp [hc])) h2
    refine ⟨b1, ?_, hs⟩
    have hr0 : Ready a e := ⟨hr.1, (apply_undef (fun x => ht x.symm)).1 hr.2.1, hr.2.2⟩
    have hr1 : Ready (a.apply e) e' := ⟨hr'.1, (apply_undef ht).2 hr'.2.1, hr'.2.2⟩
    exact accepts_cons' hc hoff hce _ hr0 (accepts_cons' (apply_clean hc e) hoff hce' _ hr1 hb1)
  | @trans l1 l2 l3 p1 _ ih1 ih2 =>
    intro a a1 hc hoff he hi h
    obtain ⟨b1, hb1, hs1⟩ := ih1 hc hoff he hi h
    obtain ⟨b2, hb2, hs2⟩ := ih2 hc hoff (fun c hm => he c (p1.mem_iff.2 hm))
      ((p1.pairwise_iff (fun h => h.symm)).1 hi) hb1
    exact ⟨b2, hb2, hs1.trans hs2⟩

/-- Histories of accepted calls, by names. -/
theorem run_accepts : ∀ (cs : List (Call D T)) {s : St D T} {os s'}, Inv s → run true s cs = some (os, s') →
    (∀ o ∈ os, o = .ok) → s.view.accepts cs = some s'.view
  | [], s, os, s', _, hr, _ => by
    simp only [run, Option.some.injEq, Prod.mk.injEq] at hr
    obtain ⟨-, rfl⟩ := hr
    rfl
  | c :: cs, s, os, s', h, hr, hok => by
    obtain ⟨⟨o, s1⟩, hs, h1, h2⟩ := step_view h c
    unfold run at hr
    rw [hs] at hr
    dsimp only at hr h1 h2
    have hI := (step_keeps true h c hs).1
    split_ifs at hr
    · simp only [Option.map_eq_some_iff, Prod.mk.injEq] at hr
      obtain ⟨⟨os', s2⟩, hr, rfl, rfl⟩ := hr
      have ho : o = .ok := hok o (by simp)
      unfold Desc.accepts
      rw [if_pos (by rw [← h1, ho]), ← h2]
      exact run_accepts cs hI hr (fun o hm => hok o (by simp [hm]))
    · simp only [Option.some.injEq, Prod.mk.injEq] at hr
      obtain ⟨rfl, rfl⟩ := hr
      have ho : o = .ok := hok o (by simp)
      simp [ho] at *

theorem accepts_run : ∀ (cs : List (Call D T)) {s : St D T} {a}, Inv s → s.view.accepts cs = some a →
    ∃ os s', run true s cs = some (os, s') ∧ (∀ o ∈ os, o = .ok) ∧ s'.view = a
  | [], s, a, _, h => by
    simp only [Desc.accepts, Option.some.injEq] at h
    exact ⟨[], s, rfl, by simp, h⟩
  | c :: cs, s, a, hI, h => by
    obtain ⟨⟨o, s1⟩, hs, h1, h2⟩ := step_view hI c
    dsimp only at h1 h2
    unfold Desc.accepts at h
    split_ifs at h with ho
    rw [← h1] at ho
    rw [← h2] at h
    have hI1 := (step_keeps true hI c hs).1
    obtain ⟨os, s', hr, hok, hv⟩ := accepts_run cs hI1 h
    refine ⟨o :: os, s', ?_, ?_, hv⟩
    · unfold run
      rw [hs]
      dsimp only
      rw [if_pos (Or.inl ho), hr]
      rfl
    · intro x hx
      rcases List.mem_cons.1 hx with rfl | hx
      · exact ho
      · exact hok x hx

end Feign.Api
