import Verif.Tools.Graphs
import Mathlib.Data.List.Basic

/-!
# C110: recording a run renews the graphs of that test only
-/

namespace Feign.Tools.Site

/-! ### Specification -/

/-- The folder with the graphs of the test called `s`. -/
def graphsOf (s : Path) : Path := graphsDir ++ s

/-- A path below a folder. -/
def Below (w p : Path) : Prop := ∃ r, p = w ++ '/' :: r

/-- A name without blanks and slashes. -/
def OneWord (s : Path) : Prop := s ≠ [] ∧ ' ' ∉ s ∧ '/' ∉ s

/-- The listed property: afterwards the folder of the graphs exists and holds no old graph, and everything
outside of it is as before. -/
def GraphsRenewed (s : Path) (t t' : List Path) : Prop :=
  graphsOf s ∈ t' ∧ (∀ p ∈ t', ¬ Below (graphsOf s) p) ∧
  ∀ p, p ≠ graphsOf s → ¬ Below (graphsOf s) p → (p ∈ t' ↔ p ∈ t)

/-! ### Helpers -/

private theorem wordsFrom_word (w cur : List Char) (h : ' ' ∉ w) (hne : w ≠ [] ∨ cur ≠ []) :
    wordsFrom w cur = [cur.reverse ++ w] := by
  induction w generalizing cur with
  | nil =>
    have : cur ≠ [] := by tauto
    simp [wordsFrom, this]
  | cons c cs ih =>
    rw [List.mem_cons, not_or] at h
    rw [wordsFrom, if_neg (Ne.symm h.1), ih (c :: cur) h.2 (Or.inr (by simp))]
    simp

private theorem words_rm (s : Path) (h : ' ' ∉ s) :
    (words ("rm -rf ".toList ++ s ++ "/".toList)).drop 2 = [s ++ ['/']] := by
  have h1 : words ("rm -rf ".toList ++ s ++ "/".toList) =
      "rm".toList :: "-rf".toList :: wordsFrom (s ++ ['/']) [] := by
    rw [List.append_assoc]
    rfl
  rw [h1, wordsFrom_word _ _ (by simpa using h) (Or.inl (by simp))]
  rfl

private theorem words_mkdir (s : Path) (h : ' ' ∉ s) :
    (words ("mkdir ".toList ++ graphsDir ++ s ++ "/".toList)).drop 1 = [graphsDir ++ s ++ ['/']] := by
  have h1 : words ("mkdir ".toList ++ graphsDir ++ s ++ "/".toList) =
      "mkdir".toList :: wordsFrom (graphsDir ++ s ++ ['/']) [] := by
    rw [List.append_assoc, List.append_assoc]
    rfl
  have h2 : ' ' ∉ graphsDir := by decide
  rw [h1, wordsFrom_word _ _ (by simp [h, h2]) (Or.inl (by simp))]
  rfl

private theorem trim_slash (w : Path) : trimSlash (w ++ ['/']) = w := by
  unfold trimSlash
  rw [if_pos (by simp)]
  simp

theorem under_iff (w p : Path) : under w p = true ↔ p = w ∨ Below w p := by
  unfold under Below
  rw [Bool.or_eq_true, beq_iff_eq, List.isPrefixOf_iff_prefix]
  constructor
  · rintro (h | ⟨r, h⟩)
    · exact Or.inl h
    · exact Or.inr ⟨r, by rw [← h]; simp⟩
  · rintro (h | ⟨r, h⟩)
    · exact Or.inl h
    · exact Or.inr ⟨r, by rw [h]; simp⟩

private theorem not_below_graphs (s p : Path) (h : p.head? ≠ some '.') : ¬ Below (graphsOf s) p := by
  rintro ⟨r, rfl⟩
  apply h
  have : ∃ g, graphsDir = '.' :: g := ⟨graphsDir.tail, by decide⟩
  obtain ⟨g, hg⟩ := this
  rw [graphsOf, hg, List.cons_append, List.cons_append, List.head?_cons]

/-! ### The property -/

/-- **C110, what happens exactly (names that are one word).** Recording a run of the test `s` deletes whatever
is called `s` in the *current* folder, with everything below it, and adds the folder of the graphs; nothing
else changes. -/
theorem recording_exact (s : Path) (h : OneWord s) (t : List Path) (p : Path) :
    p ∈ renewGraphs s t ↔ (p ∈ t ∧ p ≠ s ∧ ¬ Below s p) ∨ p = graphsOf s := by
  unfold renewGraphs
  simp only
  rw [words_rm s h.2.1, words_mkdir s h.2.1]
  simp only [List.foldl_cons, List.foldl_nil, mkdir, rmrf, trim_slash]
  have hm : ∀ q, q ∈ t.filter (fun p => !under s p) ↔ q ∈ t ∧ q ≠ s ∧ ¬ Below s q := by
    intro q
    rw [List.mem_filter, Bool.not_eq_true', ← Bool.not_eq_true, under_iff, not_or]
  split_ifs with hin
  · rw [hm]
    constructor
    · exact Or.inl
    · rintro (h1 | rfl)
      · exact h1
      · exact (hm _).1 hin
  · rw [List.mem_append, hm, List.mem_singleton]
    rfl

/-- Two folders: the graphs of `a`, and something unrelated called `a` in the current folder. -/
example : OneWord "a".toList ∧
    renewGraphs "a".toList ["a".toList, "a/notes".toList, "b".toList, graphsDir ++ "a/a_time.png".toList] =
      ["b".toList, graphsDir ++ "a/a_time.png".toList, graphsDir ++ "a".toList] := by
  refine ⟨⟨by decide, by decide, by decide⟩, by decide +kernel⟩

/-- **C110 (partial: the folder of the graphs is new, and nothing in the current folder has the name of the
test).** -/
theorem graphs_renewed_partial (s : Path) (h : OneWord s) (t : List Path)
    (hnew : ∀ p ∈ t, ¬ Below (graphsOf s) p) (hcwd : ∀ p ∈ t, p ≠ s ∧ ¬ Below s p) :
    GraphsRenewed s t (renewGraphs s t) := by
  refine ⟨(recording_exact s h t _).2 (Or.inr rfl), fun p hp => ?_, fun p hp _ => ?_⟩
  · rcases (recording_exact s h t p).1 hp with hp | rfl
    · exact hnew p hp.1
    · rintro ⟨r, hr⟩
      have := congrArg List.length hr
      simp at this
  · rw [recording_exact s h t]
    constructor
    · rintro (hp' | hp')
      · exact hp'.1
      · exact absurd hp' hp
    · intro hp'
      exact Or.inl ⟨hp', hcwd p hp'⟩

example : (∀ p ∈ ["b".toList], ¬ Below (graphsOf "a".toList) p) ∧
    ∀ p ∈ ["b".toList], p ≠ "a".toList ∧ ¬ Below "a".toList p := by
  constructor
  · intro p hp
    rw [List.mem_singleton] at hp
    subst hp
    exact not_below_graphs _ _ (by decide)
  · intro p hp
    rw [List.mem_singleton] at hp
    subst hp
    refine ⟨by decide, ?_⟩
    rintro ⟨r, hr⟩
    have := congrArg List.head? hr
    revert this
    simp

/-- **C110 is false of the code, first reason.** Old graphs stay: the folder that is deleted is not the folder
with the graphs. -/
theorem old_graphs_stay_refuted : ¬ ∀ s t, OneWord s → GraphsRenewed s t (renewGraphs s t) := by
  intro h
  have h1 := (h "a".toList [graphsDir ++ "a/a_time.png".toList] ⟨by decide, by decide, by decide⟩).2.1
  exact h1 (graphsDir ++ "a/a_time.png".toList) (by decide +kernel) ⟨"a_time.png".toList, by decide⟩

/-- **C110 is false of the code, second reason.** A file or folder of the user that is called like the test and
lies in the current folder is deleted. -/
theorem other_folder_deleted_refuted :
    ¬ ∀ s t, OneWord s → ∀ p ∈ t, p ≠ graphsOf s → ¬ Below (graphsOf s) p → p ∈ renewGraphs s t := by
  intro h
  have h1 := h "a".toList ["a/notes".toList] ⟨by decide, by decide, by decide⟩ "a/notes".toList
    (by decide) (by decide +kernel) (not_below_graphs _ _ (by decide))
  revert h1
  decide +kernel

/-- **C110 is false of the code, third reason.** The name is not quoted: for a test called `a b` the folder `a`
is deleted as well, and two folders are made, neither of them for the graphs of the test. -/
theorem blank_in_name_refuted :
    renewGraphs "a b".toList ["a".toList, "a/notes".toList] = [graphsDir ++ "a".toList, "b".toList] := by
  decide +kernel

end Feign.Tools.Site
