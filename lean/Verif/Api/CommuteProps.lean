import Verif.Api.CommuteLemmas

/-!
# Order of declarations

C13. Declarations of different nodes can be made in any order. The description by names
(`Verif/Api/NameSpec.lean`) is the same afterwards: nodes may be referred to before they are defined. Only
the order in which lights were added to the scene follows the order of the calls, and an emitter named by
several objects belongs to the last of them.
-/

set_option linter.unusedSectionVars false
namespace Feign.Api
variable {D T : Type}

/-- The name a call defines, objects included (`api.cpp:767-768` for the name of an object). -/
def declares : Call D T → Option Key
  | .object n _ _ _ i => some (.object, objName n i)
  | c => target c

/-- The emitter an object is declared to carry. -/
def carries : Call D T → Option String
  | .object _ _ _ e _ => if e ≠ "null" ∧ e ≠ "" then some e else none
  | _ => none

/-- Two states stand for the same description. -/
structure SameDescription (s s' : St D T) : Prop where
  /-- same names, same definitions by name, same carriers of emitters -/
  entry : ∀ k, s.view.entry k = s'.view.entry k
  scene : s.view.scene = s'.view.scene
  /-- same lights -/
  lights : s.view.lights.Perm s'.view.lights
  accel : s.accel = s'.accel
  sdfOnly : s.sdfOnly = s'.sdfOnly
  cur : s.cur = s'.cur
  apiOn : s.apiOn = s'.apiOn

theorem eff_declares {c : Call D T} {e : Eff D T} (h : eff c = some e) :
    declares c = some e.target ∧ ∀ k, e.owns = some k → ∃ n, carries c = some n ∧ k = (.emitter, n) := by
  cases c
  case object n m sh em i =>
    simp only [eff, Option.some.injEq] at h
    subst h
    refine ⟨rfl, ?_⟩
    intro k hk
    dsimp only at hk
    split_ifs at hk with hh
    simp only [Option.some.injEq] at hk
    exact ⟨em, by simp only [carries, if_pos hh], hk.symm⟩
  case shader n t b b2 d =>
    rw [show declares (Call.shader n t b b2 d : Call D T) = (if t = "interp_verts_to_sphere" then some (.geomShader, n)
      else if t = "simple_material" ∨ t = "wireframe" then some (.matShader, n) else none) from rfl]
    simp only [eff, decl?] at h
    by_cases h1 : t = "interp_verts_to_sphere"
    · rw [if_pos h1]; rw [if_pos h1] at h
      simp only [Option.some.injEq] at h; subst h
      exact ⟨rfl, by simp⟩
    · rw [if_neg h1]; rw [if_neg h1] at h
      by_cases h2 : t = "simple_material"
      · rw [if_pos (Or.inl h2)]; rw [if_pos h2] at h
        simp only [Option.some.injEq] at h; subst h
        exact ⟨rfl, by simp⟩
      · rw [if_neg h2] at h
        by_cases h3 : t = "wireframe"
        · rw [if_pos (Or.inr h3)]; rw [if_pos h3] at h
          simp only [Option.some.injEq] at h; subst h
          exact ⟨rfl, by simp⟩
        · rw [if_neg h3] at h; simp at h
  all_goals
    simp only [eff, decl?] at h
    first
    | (cases h; done)
    | (simp only [Option.some.injEq] at h; subst h; exact ⟨rfl, by simp⟩)
    | (split at h <;> first | (cases h; done) | (simp only [Option.some.injEq] at h; subst h; exact ⟨rfl, by simp⟩))

theorem declares_eff {a : Desc D T} {c : Call D T} (hd : (declares c).isSome) (ho : (a.step c).1 = .ok) :
    ∃ e, eff c = some e := by
  by_contra hne
  have hnone : eff c = none := by
    cases h : eff c with
    | none => rfl
    | some e => exact absurd ⟨e, h⟩ hne
  have hbody : ∀ b : Desc D T, c ≠ .accel "" → (∀ t, c ≠ .accel t) → (∀ n i sa cm m d sdf, c ≠ .scene n i sa cm m d sdf) →
      (∀ f, c ≠ .transform f) → (∀ n m sh e i, c ≠ .object n m sh e i) → (b.declBody c).1 ≠ .ok := by
    intro b _ h1 h2 h3 h4
    unfold Desc.declBody
    cases hdd : decl? c with
    | none => simp
    | some d =>
      have hv : d.verdict = .throw ∨ d.verdict = .abort := by
        cases hv : d.verdict with
        | throw => exact Or.inl rfl
        | abort => exact Or.inr rfl
        | ok =>
          exfalso
          cases c <;> first | exact absurd rfl (h4 _ _ _ _ _) | (simp only [eff, hdd, hv] at hnone; simp at hnone)
        | nothing =>
          exfalso
          cases c <;> first | exact absurd rfl (h4 _ _ _ _ _) | (simp only [eff, hdd, hv] at hnone; simp at hnone)
      dsimp only
      unfold Desc.declare
      dsimp only
      cases ((b.mention ((d.kind, d.name) :: d.pre)).entry (d.kind, d.name)) with
      | none => simp
      | some nd =>
        dsimp only
        by_cases hp : nd.payload.isSome = true
        · rw [if_pos hp]; simp
        · rw [if_neg hp]
          rcases hv with hv | hv <;> rw [hv] <;> simp
  have hgen : (∀ t, c ≠ .accel t) → (∀ n i sa cm m d sdf, c ≠ .scene n i sa cm m d sdf) →
      (∀ f, c ≠ .transform f) → (∀ n m sh e i, c ≠ .object n m sh e i) → (a.timed true (Desc.declBody c)).1 ≠ .ok := by
    intro h1 h2 h3 h4
    unfold Desc.timed
    dsimp only
    rw [if_pos rfl]
    by_cases hap : a.apiOn = true
    · rw [if_pos hap]; simp
    · rw [if_neg hap]
      have := hbody { a with apiOn := true } (h1 _) h1 h2 h3 h4
      split
      · rename_i hh; exact absurd hh this
      · exact this
  cases c
  case accel => simp [declares, target] at hd
  case scene => simp [declares, target] at hd
  case transform => simp [declares, target] at hd
  case object => simp [eff] at hnone
  all_goals
    exact hgen (by simp) (by simp) (by simp) (by simp) ho

/-- While the timer runs every call throws and changes nothing. -/
theorem step_on {s : St D T} (hon : s.apiOn = true) (c : Call D T) : step true s c = some (.throw, s) := by
  cases c
  case object n m sh e i =>
    show objectCall true m sh e (s.nodes.length + 2 + (-1 - i).toNat) n i s = _
    rw [show s.nodes.length + 2 + (-1 - i).toNat = (s.nodes.length + 1 + (-1 - i).toNat) + 1 from by omega]
    unfold objectCall
    simp [hon]
  all_goals
    show some (timed true _ s) = _
    unfold timed
    simp [hon]

/-- **C13.** Take any state a session can be in and any list of accepted declarations of pairwise different
names, no two of them objects carrying the same emitter. In every other order they are accepted too, and lead
to the same description. -/
theorem declarations_permute {s s1 : St D T} (hs : Reachable true s) {cs cs' : List (Call D T)} (hp : cs.Perm cs')
    (hd : ∀ c ∈ cs, (declares c).isSome)
    (hdiff : cs.Pairwise fun c c' => declares c ≠ declares c' ∧ ¬ ∃ e, carries c = some e ∧ carries c' = some e)
    {os} (h : run true s cs = some (os, s1)) (hok : ∀ o ∈ os, o = .ok) :
    ∃ os' s2, run true s cs' = some (os', s2) ∧ (∀ o ∈ os', o = .ok) ∧ SameDescription s1 s2 := by
  have hI := hs.inv
  have hacc := run_accepts cs hI h hok
  cases hc0 : cs with
  | nil =>
    subst hc0
    rw [List.nil_perm.1 hp]
    exact ⟨os, s1, h, hok, ⟨fun _ => rfl, rfl, List.Perm.refl _, rfl, rfl, rfl, rfl⟩⟩
  | cons c0 rest =>
    have hoff : s.view.apiOn = false := by
      by_contra hon
      have hon' : s.view.apiOn = true := by simpa using hon
      have hon : s.apiOn = true := hon'
      rw [hc0] at h
      obtain ⟨⟨o, s'⟩, hst, _⟩ := step_view hI c0
      unfold run at h
      rw [hst] at h
      have hoo : o = .ok := by
        dsimp only at h
        split_ifs at h
        · simp only [Option.map_eq_some_iff, Prod.mk.injEq] at h
          obtain ⟨_, _, h, _⟩ := h
          exact hok o (by rw [← h]; simp)
        · simp only [Option.some.injEq, Prod.mk.injEq] at h
          exact hok o (by rw [← h.1]; simp)
      have := step_on hon c0
      rw [hst] at this
      simp only [Option.some.injEq, Prod.mk.injEq] at this
      rw [hoo] at this
      simp at this
    have heff : ∀ (l : List (Call D T)) (a : Desc D T) {b}, (∀ c ∈ l, (declares c).isSome) → a.accepts l = some b →
        ∀ c ∈ l, ∃ e, eff c = some e := by
      intro l
      induction l with
      | nil => intro _ _ _ _ c hc; simp at hc
      | cons c l ih =>
        intro a b hd hb
        unfold Desc.accepts at hb
        split_ifs at hb with ho
        intro c' hc'
        rcases List.mem_cons.1 hc' with rfl | hc'
        · exact declares_eff (hd _ (by simp)) ho
        · exact ih _ (fun c hc => hd c (by simp [hc])) hb c' hc'
    have hind : cs.Pairwise Indep := by
      refine hdiff.imp ?_
      intro c c' hcc e e' he he'
      obtain ⟨h1, h2⟩ := eff_declares he
      obtain ⟨h1', h2'⟩ := eff_declares he'
      refine ⟨?_, ?_⟩
      · intro ht
        apply hcc.1
        rw [h1, h1', ht]
      · rintro k ⟨hk, hk'⟩
        obtain ⟨n, hn, rfl⟩ := h2 k hk
        obtain ⟨n', hn', hkk⟩ := h2' _ hk'
        simp only [Prod.mk.injEq, true_and] at hkk
        subst hkk
        exact hcc.2 ⟨n, hn, hn'⟩
    obtain ⟨b1, hb1, hsame⟩ := accepts_perm hp hI.clean hoff (heff cs _ hd hacc) hind hacc
    obtain ⟨os', s2, hr, hok', hv⟩ := accepts_run cs' hI hb1
    refine ⟨os', s2, hr, hok', ?_⟩
    subst hv
    exact ⟨fun k => congrFun hsame.entry k, hsame.scene, hsame.lights, hsame.accel, hsame.sdfOnly, hsame.cur, hsame.apiOn⟩

/-- The hypotheses are met: object, mesh, shader and BSDF in any order. -/
example : (run true (St.init 0)
    ([.object "o" "m" "sh" "e" (-1), .mesh "m" "sdf_sphere" "" "" "null" "null" (), .shader "sh" "simple_material" "b" "" (),
      .bsdf "b" "diffuse" ()] : List (Call Unit ℕ))).map (·.1) = some [.ok, .ok, .ok, .ok] := by decide

/-- **C13**, the exception: when two objects name one emitter, the emitter belongs to the object declared last,
so their order matters. -/
theorem shared_emitter_refuted : ∃ (c c' : Call Unit ℕ) (s1 s2 : St Unit ℕ), declares c ≠ declares c' ∧
    run true (St.init 0) [c, c'] = some ([.ok, .ok], s1) ∧ run true (St.init 0) [c', c] = some ([.ok, .ok], s2) ∧
    (s1.view.entry (.emitter, "e")).map (·.owner) = some (some (.object, "b")) ∧
    (s2.view.entry (.emitter, "e")).map (·.owner) = some (some (.object, "a")) := by
  refine ⟨.object "a" "m" "sh" "e" (-1), .object "b" "m" "sh" "e" (-1),
    ((run true (St.init 0) [.object "a" "m" "sh" "e" (-1), .object "b" "m" "sh" "e" (-1)]).getD ([], St.init 0)).2,
    ((run true (St.init 0) [.object "b" "m" "sh" "e" (-1), .object "a" "m" "sh" "e" (-1)]).getD ([], St.init 0)).2,
    by decide, ?_, ?_, by decide, by decide⟩ <;> rfl

end Feign.Api
