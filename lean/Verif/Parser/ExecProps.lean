import Verif.Parser.ExecWhole

/-!
# C121: what a scene file builds

Which files are carried out to the end, and which scene they describe (`describe`, `ExecSpec.lean`).
-/

set_option linter.unusedSectionVars false
set_option linter.unusedSimpArgs false

namespace Feign.Parser

open Api (Key Kind Desc St Inv)

variable {F T : Type} (fl : Rat → F) (m : Xf F T)

/-- **C121 (which files are carried out).** A file is carried out up to the call that renders exactly if each of
its sections is well-formed on its own and each declaration fits behind those before it: its name is still free
and not one of the taken ones, there is one scene, lights and light accelerators come after the scene, and the
integrator is one there is. -/
theorem rendered_iff (ms : List (String × Js)) :
    (∃ s, runFile fl m (.obj ms) = some (.rendered s)) ↔
      (∀ sec ∈ ms, (sectionOf fl (cstr sec.1) sec.2).out = .ok ()) ∧ AllFit (entries fl m ms) := by
  have key := fun d ho => accepts_sections fl m ms [] d ho (by intro A p B e; simp at e)
  simp only [List.nil_append] at key
  constructor
  · rintro ⟨s, h⟩
    obtain ⟨ho, he⟩ := (rendered_cases fl m ms s).1 h
    have := exec_ok m _ (Api.init_inv m.one) he
    rw [init_view, flush_dropped] at this
    exact ⟨ho, ((key _ ho).1 this).1⟩
  · rintro ⟨ho, hf⟩
    have h := (key _ ho).2 ⟨hf, rfl⟩
    rw [← init_view, ← flush_dropped] at h
    obtain ⟨s, hs, -⟩ := ok_exec m _ (Api.init_inv m.one) h
    exact ⟨s, (rendered_cases fl m ms s).2 ⟨ho, hs⟩⟩

/-- **C121 (what a file builds).** The scene to be rendered is the one described by the file's declarations, each
with the transform written in its own section. -/
theorem file_builds {ms : List (String × Js)} {s : St (Call F) T} (h : runFile fl m (.obj ms) = some (.rendered s)) :
    s.view = describe m.one (entries fl m ms) := by
  have key := fun d ho => accepts_sections fl m ms [] d ho (by intro A p B e; simp at e)
  simp only [List.nil_append] at key
  obtain ⟨ho, he⟩ := (rendered_cases fl m ms s).1 h
  have := exec_ok m _ (Api.init_inv m.one) he
  rw [init_view, flush_dropped] at this
  exact ((key _ ho).1 this).2

/-- **C121 (a run always ends in one of the listed ways).** -/
theorem run_ends (doc : Js) : ∃ e, runFile fl m doc = some e := by
  have h := exec_total m (parse fl doc).calls (Api.init_inv m.one)
  unfold runFile
  split
  · rename_i hn; simp [hn] at h
  · split <;> exact ⟨_, rfl⟩
  · exact ⟨_, rfl⟩

/-- **C121 (order of the sections).** The sections of a file can be put in any order that has the scene before
the lights: the scene described is the same. Only the order of the list of lights follows the file. Two objects
that carry the same emitter, and two light accelerators, have to stay in their order: the last one counts. -/
theorem sections_any_order {ms ms' : List (String × Js)} (hp : ms.Perm ms') {s : St (Call F) T}
    (h : runFile fl m (.obj ms) = some (.rendered s))
    (hcar : (entries fl m ms).Pairwise fun p q => ∀ e, p.2.carried = some e → q.2.carried ≠ some e)
    (hacc : (entries fl m ms).Pairwise fun p q => p.2.api = "accel" → q.2.api ≠ "accel")
    (hl : LightsLater (entries fl m ms')) :
    ∃ s', runFile fl m (.obj ms') = some (.rendered s') ∧ Api.SameDescription s s' := by
  obtain ⟨ho, hf⟩ := (rendered_iff fl m ms).1 ⟨s, h⟩
  have hpe : (entries fl m ms).Perm (entries fl m ms') := hp.filterMap _
  obtain ⟨h1, h2, -⟩ := (allFit_iff _).1 hf
  have hf' : AllFit (entries fl m ms') :=
    (allFit_iff _).2 ⟨fun p hp' => h1 p (hpe.mem_iff.2 hp'), hpe.pairwise h2 fun {p q} h => h.symm, hl⟩
  obtain ⟨s', hs'⟩ := (rendered_iff fl m ms').2 ⟨fun sec hsec => ho sec (hp.mem_iff.2 hsec), hf'⟩
  refine ⟨s', hs', ?_⟩
  have e1 := file_builds fl m h
  have e2 := file_builds fl m hs'
  obtain ⟨g1, g2, g3, g4, g5⟩ := describe_perm m.one hpe h2 hcar hacc
  rw [← e1, ← e2] at g1 g2 g3 g4 g5
  refine ⟨g1, g2, g3, g4, g5, ?_, ?_⟩
  · exact (congrArg Desc.cur e1).trans (congrArg Desc.cur e2).symm
  · exact (congrArg Desc.apiOn e1).trans (congrArg Desc.apiOn e2).symm

/-- **C121 (the first declaration that does not fit).** It ends the run: nothing is rendered, and what comes
after it in the file does not matter. -/
theorem first_misfit (ms1 : List (String × Js)) (sec : String × Js) (ms2 : List (String × Js))
    (ho : ∀ s ∈ ms1 ++ [sec], (sectionOf fl (cstr s.1) s.2).out = .ok ())
    {p : Entry F T} (hp : sectionEntry fl m sec = some p) (hm : ¬ Fits ((entries fl m ms1).map (·.2)) p.2) :
    ∃ o, o ≠ .ok ∧ runFile fl m (.obj (ms1 ++ sec :: ms2)) = some (.failed o) := by
  obtain ⟨rest, hr⟩ := calls_prefix fl (ms1 ++ [sec]) ms2 ho
  rw [List.append_assoc, List.singleton_append] at hr
  have key := fun d => accepts_sections fl m (ms1 ++ [sec]) [] d ho (by intro A p B e; simp at e)
  simp only [List.nil_append] at key
  have he : entries fl m (ms1 ++ [sec]) = entries fl m ms1 ++ [p] := by
    simp [entries, List.filterMap_append, hp]
  have hno : ¬ AllFit (entries fl m (ms1 ++ [sec])) := by
    rw [he]
    exact fun h => hm (h _ p [] rfl)
  have htot := exec_total m ((ms1 ++ [sec]).flatMap fun sec => (sectionOf fl (cstr sec.1) sec.2).calls)
    (Api.init_inv m.one)
  cases hex : exec m (St.init m.one) ((ms1 ++ [sec]).flatMap fun sec => (sectionOf fl (cstr sec.1) sec.2).calls) with
  | none => rw [hex] at htot; simp at htot
  | some r =>
    obtain ⟨o, s⟩ := r
    have ho : o ≠ .ok := by
      rintro rfl
      have := exec_ok m _ (Api.init_inv m.one) hex
      rw [init_view] at this
      exact hno ((key _).1 this).1
    refine ⟨o, ho, ?_⟩
    unfold runFile
    rw [hr, exec_append, hex]
    cases o <;> first | exact absurd rfl ho | rfl

end Feign.Parser
