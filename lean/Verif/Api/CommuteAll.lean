import Verif.Api.CommuteProps

/-!
# Order of declarations, without exception

C13 in full: also when objects share an emitter, the order of declarations of different names does not change
which names exist, what they are defined as and what they refer to. (Which of several objects *carries* a
shared emitter is `shared_emitter_refuted`.)
-/

set_option linter.unusedSectionVars false
namespace Feign.Api
variable {D T : Type}

/-- The description without the carriers of emitters. -/
def Desc.noOwner (a : Desc D T) : Desc D T :=
  { a with entry := fun k => (a.entry k).map fun n => { n with owner := none } }

/-- An effect without the carrier. -/
def Eff.noOwner (e : Eff D T) : Eff D T := { e with owns := none }

theorem noOwner_apply (a : Desc D T) (e : Eff D T) : (a.apply e).noOwner = a.noOwner.apply e.noOwner := by
  have ht : ∀ k, (e.noOwner : Eff D T).touches k ↔ e.touches k := fun _ => Iff.rfl
  have hon : ∀ cur k (n : ANode D T), ({ e.on cur k n with owner := none } : ANode D T) =
      e.noOwner.on cur k { n with owner := none } := by
    intro cur k n
    unfold Eff.on Eff.noOwner
    simp
  have hf : ∀ k, ({ (fresh k : ANode D T) with owner := none } : ANode D T) = fresh k := by
    intro k
    have := fresh_owner (D := D) (T := T) k
    cases h : (fresh k : ANode D T) with
    | mk p o => rw [h] at this; dsimp only at this ⊢; rw [this]
  unfold Desc.noOwner Desc.apply
  ext1 <;> try rfl
  funext k
  dsimp only
  cases hk : a.entry k with
  | some n => simp [hon]
  | none =>
    by_cases h : e.touches k
    · rw [if_pos h, if_pos ((ht k).2 h)]
      simp only [Option.map_none, Option.none_or, Option.map_some, hon, hf]
    · rw [if_neg h, if_neg (fun h' => h ((ht k).1 h'))]
      rfl

theorem noOwner_undef (a : Desc D T) (t : Key) : a.noOwner.undef t ↔ a.undef t := by
  unfold Desc.undef Desc.noOwner
  dsimp only
  cases a.entry t with
  | none => rfl
  | some n => simp

theorem noOwner_clean (a : Desc D T) : a.noOwner.clean ↔ a.clean := by
  unfold Desc.clean Desc.noOwner
  simp

theorem noOwner_ready (a : Desc D T) (e : Eff D T) : Ready a e ↔ Ready a.noOwner e.noOwner := by
  unfold Ready
  show _ ↔ reserved e.target.1 e.target.2 = false ∧ a.noOwner.undef e.target ∧ _
  rw [noOwner_undef]
  rfl

theorem Eff.Wf.noOwner {e : Eff D T} (h : e.Wf) : e.noOwner.Wf := ⟨h.target, by intro k hk; simp [Eff.noOwner] at hk⟩

theorem accepts_same' : ∀ (cs : List (Call D T)) {a b a1 : Desc D T}, Same a.noOwner b.noOwner → a.clean → a.apiOn = false →
    (∀ c ∈ cs, ∃ e, eff c = some e) → a.accepts cs = some a1 → ∃ b1, b.accepts cs = some b1 ∧ Same a1.noOwner b1.noOwner
  | [], a, b, a1, h, _, _, _, ha => by
    simp only [Desc.accepts, Option.some.injEq] at ha
    subst ha
    exact ⟨b, rfl, h⟩
  | c :: cs, a, b, a1, h, hc, hoff, he, ha => by
    obtain ⟨e, hce⟩ := he c (by simp)
    obtain ⟨hr, ha'⟩ := accepts_cons hc hoff hce cs ha
    have h1 : Same (a.apply e).noOwner (b.apply e).noOwner := by
      rw [noOwner_apply, noOwner_apply]; exact h.apply _
    obtain ⟨b1, hb1, hs⟩ := accepts_same' cs h1 (apply_clean hc e) hoff (fun c hc => he c (by simp [hc])) ha'
    have hcb : b.clean := (noOwner_clean b).1 (h.clean ((noOwner_clean a).2 hc))
    have hob : b.apiOn = false := (Eq.symm h.apiOn).trans hoff
    exact ⟨b1, accepts_cons' hcb hob hce cs ((noOwner_ready b e).2 (h.ready ((noOwner_ready a e).1 hr))) hb1, hs⟩

/-- Different targets. -/
def Apart (c c' : Call D T) : Prop := ∀ e e', eff c = some e → eff c' = some e' → e.target ≠ e'.target

theorem accepts_perm' {cs cs' : List (Call D T)} (hp : cs.Perm cs') : ∀ {a a1 : Desc D T}, a.clean → a.apiOn = false →
    (∀ c ∈ cs, ∃ e, eff c = some e) → cs.Pairwise Apart → a.accepts cs = some a1 →
    ∃ b1, a.accepts cs' = some b1 ∧ Same a1.noOwner b1.noOwner := by
  induction hp with
  | nil => intro a a1 _ _ _ _ h; exact ⟨a1, h, Same.refl _⟩
  | @cons c l l' _ ih =>
    intro a a1 hc hoff he hi h
    obtain ⟨e, hce⟩ := he c (by simp)
    obtain ⟨hr, h'⟩ := accepts_cons hc hoff hce _ h
    obtain ⟨b1, hb, hs⟩ := ih (apply_clean hc e) hoff (fun c hc => he c (by simp [hc])) (List.pairwise_cons.1 hi).2 h'
    exact ⟨b1, accepts_cons' hc hoff hce _ hr hb, hs⟩
  | @swap c c' l =>
    intro a a1 hc hoff he hi h
    obtain ⟨e, hce⟩ := he c (by simp)
    obtain ⟨e', hce'⟩ := he c' (by simp)
    obtain ⟨hr', h1⟩ := accepts_cons hc hoff hce' _ h
    obtain ⟨hr, h2⟩ := accepts_cons (apply_clean hc e') hoff hce _ h1
    have ht := (List.pairwise_cons.1 hi).1 c (by simp) e' e hce' hce
    have hsame : Same ((a.apply e').apply e).noOwner ((a.apply e).apply e').noOwner := by
      rw [noOwner_apply, noOwner_apply, noOwner_apply, noOwner_apply]
      refine apply_comm (eff_wf hce' hr'.1).noOwner (eff_wf hce hr.1).noOwner ht ?_
      rintro k ⟨hk, _⟩
      simp [Eff.noOwner] at hk
    obtain ⟨b1, hb1, hs⟩ := accepts_same' l hsame (apply_clean (apply_clean hc e') e) hoff
      (fun c hc => he c (by simp [hc])) h2
    refine ⟨b1, ?_, hs⟩
    have hr0 : Ready a e := ⟨hr.1, (apply_undef (fun x => ht x.symm)).1 hr.2.1, hr.2.2⟩
    have hr1 : Ready (a.apply e) e' := ⟨hr'.1, (apply_undef ht).2 hr'.2.1, hr'.2.2⟩
    exact accepts_cons' hc hoff hce _ hr0 (accepts_cons' (apply_clean hc e) hoff hce' _ hr1 hb1)
  | @trans l1 l2 l3 p1 _ ih1 ih2 =>
    intro a a1 hc hoff he hi h
    obtain ⟨b1, hb1, hs1⟩ := ih1 hc hoff he hi h
    obtain ⟨b2, hb2, hs2⟩ := ih2 hc hoff (fun c hm => he c (p1.mem_iff.2 hm))
      ((p1.pairwise_iff (fun h e e' h1 h2 x => h e' e h2 h1 x.symm)).1 hi) hb1
    exact ⟨b2, hb2, hs1.trans hs2⟩

/-- Two states stand for the same names and definitions, up to who carries a shared emitter. -/
structure SameDefinitions (s s' : St D T) : Prop where
  /-- same names, same definitions with the same references by name -/
  entry : ∀ k, (s.view.entry k).map (·.payload) = (s'.view.entry k).map (·.payload)
  scene : s.view.scene = s'.view.scene
  lights : s.view.lights.Perm s'.view.lights
  accel : s.accel = s'.accel
  sdfOnly : s.sdfOnly = s'.sdfOnly
  cur : s.cur = s'.cur

theorem off_of_ok {s s1 : St D T} {c0 rest os} (h : run true s (c0 :: rest) = some (os, s1))
    (hok : ∀ o ∈ os, o = .ok) : s.apiOn = false := by
  by_contra hon
  have hon : s.apiOn = true := by simpa using hon
  have hst := step_on hon c0
  unfold run at h
  rw [hst] at h
  simp only [or_true, if_true, Option.map_eq_some_iff, Prod.mk.injEq] at h
  obtain ⟨_, _, h, _⟩ := h
  have := hok .throw (by rw [← h]; simp)
  simp at this

theorem accepts_eff : ∀ (l : List (Call D T)) (a : Desc D T) {b}, (∀ c ∈ l, (declares c).isSome) → a.accepts l = some b →
    ∀ c ∈ l, ∃ e, eff c = some e := by
  intro l
  induction l with
  | nil => intro _ _ _ _ c hc; simp at hc
  | cons c l ih =>
    intro a b hd hb
    unfold Desc.accepts at hb
    split_ifs at hb with ho
    intro c' hc'
    rcases List.mem_cons.1 hc' with rfl | hc'
    · exact declares_eff (hd _ (by simp)) ho
    · exact ih _ (fun c hc => hd c (by simp [hc])) hb c' hc'

/-- **C13.** Take any state a session can be in and any list of accepted declarations of pairwise different
names. In every other order they are accepted too, and lead to the same names, definitions, references, scene
and lights. -/
theorem declarations_any_order {s s1 : St D T} (hs : Reachable true s) {cs cs' : List (Call D T)} (hp : cs.Perm cs')
    (hd : ∀ c ∈ cs, (declares c).isSome) (hdiff : cs.Pairwise fun c c' => declares c ≠ declares c')
    {os} (h : run true s cs = some (os, s1)) (hok : ∀ o ∈ os, o = .ok) :
    ∃ os' s2, run true s cs' = some (os', s2) ∧ (∀ o ∈ os', o = .ok) ∧ SameDefinitions s1 s2 := by
  have hI := hs.inv
  have hacc := run_accepts cs hI h hok
  cases hc0 : cs with
  | nil =>
    subst hc0
    rw [List.nil_perm.1 hp]
    exact ⟨os, s1, h, hok, ⟨fun _ => rfl, rfl, List.Perm.refl _, rfl, rfl, rfl⟩⟩
  | cons c0 rest =>
    have hoff : s.view.apiOn = false := by
      rw [hc0] at h
      exact off_of_ok h hok
    have hind : cs.Pairwise Apart := by
      refine hdiff.imp ?_
      intro c c' hcc e e' he he' ht
      apply hcc
      rw [(eff_declares he).1, (eff_declares he').1, ht]
    obtain ⟨b1, hb1, hsame⟩ := accepts_perm' hp hI.clean hoff (accepts_eff cs _ hd hacc) hind hacc
    obtain ⟨os', s2, hr, hok', hv⟩ := accepts_run cs' hI hb1
    refine ⟨os', s2, hr, hok', ?_⟩
    subst hv
    refine ⟨?_, hsame.scene, hsame.lights, hsame.accel, hsame.sdfOnly, hsame.cur⟩
    intro k
    have := congrFun hsame.entry k
    unfold Desc.noOwner at this
    dsimp only at this
    have h2 := congrArg (Option.map (fun n : ANode D T => n.payload)) this
    simpa [Option.map_map, Function.comp_def] using h2

/-- The hypotheses are met, also with a shared emitter and with references before definitions. -/
example : (run true (St.init 0)
    ([.scene "s" "i" "sam" "cam" "" () true, .object "a" "m" "sh" "e" (-1), .object "b" "m" "sh" "e" (-1),
      .emitter "e" "mesh" "" (), .mesh "m" "sdf_sphere" "" "" "null" "null" ()] : List (Call Unit ℕ))).map (·.1) =
    some [.ok, .ok, .ok, .ok, .ok] := by decide

/-- The scene itself is not a declaration in this sense: a light declared before it is undefined behaviour. -/
example : (run true (St.init 0) ([.emitter "e" "point" "" (), .scene "s" "i" "sam" "cam" "" () true] :
    List (Call Unit ℕ))).map (·.1) = some [.ub] := by decide

end Feign.Api
