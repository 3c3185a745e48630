import Verif.Tools.Tester
import Mathlib.Data.Nat.Digits.Lemmas
import Mathlib.Tactic.Linarith

/-!
# C55, C77: the unit-test runner and the command line
-/

namespace Feign.Tools

/-! ### Specification -/

/-- A run is within its threshold: the error is a number and at most the threshold `1`. -/
def Within (e : Err) : Prop := ∃ r, e = some r ∧ r ≤ 1

/-- The listed property for a single test. -/
def SingleCorrect : Prop := ∀ e, runTest false e = true ↔ Within e

/-- The listed property for all tests. -/
def AllCorrect : Prop := ∀ runs entries eval, 0 < runs →
  ((runAll false runs entries eval).1 = true ↔
    ∀ n ∈ (runAll false runs entries eval).2, ∀ k < runs, Within (eval n k))

/-! ### Helpers -/

private theorem fails_eq (e : Err) :
    ({ TestData.new with error := e } : TestData).fails = gt e 1 := rfl

private theorem foldl_runs (l : List Nat) (f : Nat → Bool) (p : Bool) :
    l.foldl (fun p k => if f k then false else p) p = true ↔ p = true ∧ ∀ k ∈ l, f k = false := by
  induction l generalizing p with
  | nil => simp
  | cons a l ih =>
    rw [List.foldl_cons, ih]
    by_cases ha : f a = true
    · simp [ha]
    · simp only [ha]
      simp [Bool.eq_false_iff.2 ha]

theorem runScene_true (runs : Nat) (eval : Nat → Err) (p : Bool) :
    runScene runs eval p = true ↔ p = true ∧ ∀ k < runs, gt (eval k) 1 = false := by
  unfold runScene
  rw [foldl_runs (List.range runs) (fun k => ({ TestData.new with error := eval k } : TestData).fails)]
  simp [fails_eq]

theorem runAll_true (runs : Nat) (entries : Option (List (List Char))) (eval : List Char → Nat → Err) :
    (runAll false runs entries eval).1 = true ↔
      ∀ n ∈ (runAll false runs entries eval).2, ∀ k < runs, gt (eval n k) 1 = false := by
  have key : ∀ (l : List (List Char)) (p : Bool),
      l.foldl (fun p n => if (false : Bool) then p else runScene runs (eval n) p) p = true ↔
        p = true ∧ ∀ n ∈ l, ∀ k < runs, gt (eval n k) 1 = false := by
    intro l
    induction l with
    | nil => intro p; simp
    | cons a l ih =>
      intro p
      rw [List.foldl_cons, ih]
      simp only [Bool.false_eq_true, if_false, runScene_true, List.mem_cons, forall_eq_or_imp]
      tauto
  have := key ((entries.getD []).filter isTest) true
  simpa [runAll] using this

theorem gt_false_iff (r : Rat) : gt (some r) 1 = false ↔ Within (some r) := by
  unfold gt Within
  simp

/-! ### C55 -/

/-- **C55 for all tests (partial: errors that are numbers).** Running all tests reports success exactly when
every run of every executed test is within its threshold. The executed tests are exactly the directory
entries that end in `.json` and have something before it. Missing for the full property: a NaN error counts
as a success (`nan_error_passes_refuted`). -/
theorem run_all_partial (runs : Nat) (entries : List (List Char)) (eval : List Char → Nat → Err)
    (hnum : ∀ n ∈ entries, ∀ k < runs, eval n k ≠ none) :
    ((runAll false runs (some entries) eval).1 = true ↔
      ∀ n ∈ (runAll false runs (some entries) eval).2, ∀ k < runs, Within (eval n k)) ∧
    ∀ n, n ∈ (runAll false runs (some entries) eval).2 ↔
      n ∈ entries ∧ ∃ stem, stem ≠ [] ∧ n = stem ++ ".json".toList := by
  have hmem : ∀ n, n ∈ (runAll false runs (some entries) eval).2 ↔
      n ∈ entries ∧ ∃ stem, stem ≠ [] ∧ n = stem ++ ".json".toList := by
    intro n
    have : n ∈ (runAll false runs (some entries) eval).2 ↔ n ∈ entries ∧ isTest n = true := by
      simp [runAll]
    rw [this]
    refine and_congr_right fun _ => ?_
    unfold isTest
    rw [Bool.and_eq_true, decide_eq_true_eq, beq_iff_eq]
    constructor
    · rintro ⟨h1, h2⟩
      refine ⟨n.take (n.length - 5), ?_, ?_⟩
      · intro h
        have := congrArg List.length h
        rw [List.length_take, List.length_nil] at this
        omega
      · rw [← h2, List.take_append_drop]
    · rintro ⟨stem, h1, rfl⟩
      have hl : (stem ++ ".json".toList).length = stem.length + 5 := by
        rw [List.length_append]; rfl
      have hp : 0 < stem.length := List.length_pos_iff.2 h1
      refine ⟨by omega, ?_⟩
      rw [hl, Nat.add_sub_cancel, List.drop_left]
  refine ⟨?_, hmem⟩
  rw [runAll_true]
  refine forall_congr' fun n => forall_congr' fun hn => forall_congr' fun k => forall_congr' fun hk => ?_
  have hne := hnum n ((hmem n).1 hn).1 k hk
  cases he : eval n k with
  | none => exact absurd he hne
  | some r => exact gt_false_iff r

/-- A test whose error is NaN (for instance an image with a NaN pixel) counts as passed, so the property
for all tests is false of the code. -/
theorem nan_error_passes_refuted : ¬ AllCorrect := by
  intro h
  have h1 := (h 1 (some ["a.json".toList]) (fun _ _ => none) (by decide)).1 (by decide)
  obtain ⟨r, hr, -⟩ := h1 "a.json".toList (by decide) 0 (by decide)
  cases hr

/-- When the directory of test scenes cannot be opened, nothing is run and success is reported. -/
theorem missing_directory_passes (ref : Bool) (runs : Nat) (eval : List Char → Nat → Err) :
    runAll ref runs none eval = (true, []) := rfl

/-- **C55 for a single test, what the code does instead.** Running one test reports the opposite of its
verdict: for an error that is a number, it returns `true` exactly when the error is above the threshold. -/
theorem run_test_inverted (r : Rat) : runTest false (some r) = true ↔ ¬ Within (some r) := by
  rw [← gt_false_iff]
  show gt (some r) 1 = true ↔ _
  simp

/-- **C55 for a single test is false of the code.** -/
theorem single_test_refuted : ¬ SingleCorrect := by
  intro h
  have := (h (some 0)).2 ⟨0, rfl, by norm_num⟩
  revert this
  decide

/-- Replacing one reference image always reports failure. -/
theorem single_reference_reports_failure (e : Err) : runTest true e = false := by
  show gt (some 0) 1 = false
  decide

/-- Replacing all reference images always reports success. -/
theorem all_references_report_success (runs : Nat) (entries : Option (List (List Char)))
    (eval : List Char → Nat → Err) : (runAll true runs entries eval).1 = true := by
  have : ∀ l : List (List Char),
      l.foldl (fun p n => if (true : Bool) then p else runScene runs (eval n) p) true = true := by
    intro l
    induction l with
    | nil => rfl
    | cons a l ih => rw [List.foldl_cons]; exact ih
  exact this _

/-- Distinct indices name distinct test files. -/
theorem test_file_names_injective (m n : Nat) (h : zeroPadded m = zeroPadded n) : m = n := by
  have val : ∀ n, Nat.ofDigits 10 (zeroPadded n).reverse = n := by
    intro n
    unfold zeroPadded
    by_cases hn : n = 0
    · subst hn; decide
    · simp only [if_neg hn, List.reverse_append, List.reverse_reverse, List.reverse_replicate]
      rw [Nat.ofDigits_append, Nat.ofDigits_digits]
      have : ∀ k, Nat.ofDigits 10 (List.replicate k 0) = 0 := by
        intro k
        induction k with
        | zero => rfl
        | succ k ih => rw [List.replicate_succ, Nat.ofDigits_cons, ih]
      rw [this]
      simp
  rw [← val m, ← val n, h]

/-- Every index names a file with at least three digits, exactly three below 1000. -/
theorem test_file_name_width (n : Nat) :
    3 ≤ (zeroPadded n).length ∧ (n < 1000 → (zeroPadded n).length = 3) := by
  have hl : (zeroPadded n).length = 3 - (if n = 0 then [0] else (Nat.digits 10 n).reverse).length +
      (if n = 0 then [0] else (Nat.digits 10 n).reverse).length := by
    simp only [zeroPadded, List.length_append, List.length_replicate]
  refine ⟨by omega, fun h => ?_⟩
  have : (if n = 0 then [0] else (Nat.digits 10 n).reverse).length ≤ 3 := by
    split
    · simp
    · rw [List.length_reverse]
      exact (Nat.digits_length_le_iff (b := 10) (k := 3) (by norm_num) n).2 (by norm_num; exact h)
  omega

/-! ### C77: the command line -/

/-- The arguments that are options. -/
def isOption (a : String) : Prop := a = "-u" ∨ a = "-ui" ∨ a = "-ur" ∨ a = "-uri" ∨ a = "-s"

/-- **C77.** Arguments that are not options are skipped. -/
theorem unknown_arguments_skipped (stoi : String → Option Int) (single : Bool → Int → Bool)
    (all : Bool → Bool) (pre rest : List String) (scene : String) (h : ∀ a ∈ pre, ¬ isOption a) :
    mainLoop stoi single all (pre ++ rest) scene = mainLoop stoi single all rest scene := by
  induction pre with
  | nil => rfl
  | cons a pre ih =>
    have ha := h a (by simp)
    unfold isOption at ha
    push Not at ha
    obtain ⟨h1, h2, h3, h4, h5⟩ := ha
    rw [List.cons_append, mainLoop.eq_def]
    simp only
    rw [if_neg h1, if_neg h2, if_neg h3, if_neg h4, if_neg h5]
    exact ih fun a ha => h a (by simp [ha])

/-- **C77.** Scene files given one after the other: the last one is rendered, whatever is named in between. -/
theorem last_scene_wins (stoi : String → Option Int) (single : Bool → Int → Bool)
    (all : Bool → Bool) (scenes : List String) (scene : String) :
    mainLoop stoi single all (scenes.flatMap fun s => ["-s", s]) scene =
      .ok (.render (scenes.getLast?.getD scene)) := by
  induction scenes generalizing scene with
  | nil => rfl
  | cons s scenes ih =>
    rw [List.flatMap_cons]
    show mainLoop stoi single all ("-s" :: s :: scenes.flatMap fun s => ["-s", s]) scene = _
    rw [mainLoop.eq_def]
    simp only
    rw [if_neg (by decide), if_neg (by decide), if_neg (by decide), if_neg (by decide), if_pos trivial, ih]
    cases scenes with
    | nil => rfl
    | cons t ts => rw [List.getLast?_cons_cons, List.getLast?_cons]; rfl

/-- **C77.** With all tests requested first, the exit status is `0` exactly when `run_all_tests` reports
success; anything after that option is ignored. -/
theorem exit_status_all (stoi : String → Option Int) (single : Bool → Int → Bool) (all : Bool → Bool)
    (rest : List String) (scene : String) :
    mainLoop stoi single all ("-u" :: rest) scene = .ok (.status 0) ↔ all false = true := by
  rw [mainLoop.eq_def]
  simp only
  rw [if_pos trivial]
  cases all false <;> simp

/-- C77 for one test as listed: the exit status is `0` exactly when the test is within its threshold. -/
def SingleExitCorrect : Prop := ∀ (stoi : String → Option Int) (all : Bool → Bool) (eval : Int → Err) (i : Int)
    (x : String), stoi x = some i →
  (main stoi (fun ref i => runTest ref (eval i)) all ["-ui", x] = .ok (.status 0) ↔ Within (eval i))

/-- What the code does instead: the exit status is `0` exactly when the test fails (error a number). -/
theorem exit_status_single_inverted (stoi : String → Option Int) (all : Bool → Bool) (eval : Int → Err)
    (i : Int) (x : String) (hx : stoi x = some i) (r : Rat) (hr : eval i = some r) :
    main stoi (fun ref i => runTest ref (eval i)) all ["-ui", x] = .ok (.status 0) ↔
      ¬ Within (eval i) := by
  rw [hr, ← run_test_inverted]
  unfold main
  rw [mainLoop.eq_def]
  simp only [hx, hr]
  rw [if_neg (by decide), if_pos trivial]
  cases runTest false (some r) <;> simp

theorem exit_status_single_refuted : ¬ SingleExitCorrect := by
  intro h
  have h1 := h (fun _ => some 3) (fun _ => true) (fun _ => some 0) 3 "3" rfl
  rw [exit_status_single_inverted (fun _ => some 3) (fun _ => true) (fun _ => some 0) 3 "3" rfl 0 rfl] at h1
  have : Within (some 0) := ⟨0, rfl, by norm_num⟩
  exact h1.2 this this

/-- **C77.** Replacing reference images: for all tests the exit status is 0; for one test it is -1 although the
replacement took place. -/
theorem exit_status_references (stoi : String → Option Int) (runs : Nat) (entries : Option (List (List Char)))
    (evalAll : List Char → Nat → Err) (eval : Int → Err) (i : Int) (x : String) (hx : stoi x = some i)
    (rest : List String) (scene : String) :
    mainLoop stoi (fun ref i => runTest ref (eval i)) (fun ref => (runAll ref runs entries evalAll).1)
      ("-ur" :: rest) scene = .ok (.status 0) ∧
    mainLoop stoi (fun ref i => runTest ref (eval i)) (fun ref => (runAll ref runs entries evalAll).1)
      ("-uri" :: x :: rest) scene = .ok (.status (-1)) := by
  constructor
  · rw [mainLoop.eq_def]
    simp only
    rw [if_neg (by decide), if_neg (by decide), if_pos trivial, all_references_report_success, if_pos rfl]
  · rw [mainLoop.eq_def]
    simp only [hx]
    rw [if_neg (by decide), if_neg (by decide), if_neg (by decide), if_pos trivial, single_reference_reports_failure]
    rfl

/-- **C77.** The exit status of a full run or a single test is 0 or -1 and nothing else. -/
theorem exit_status_values (stoi : String → Option Int) (single : Bool → Int → Bool) (all : Bool → Bool) :
    ∀ (args : List String) (scene : String) (c : Int), mainLoop stoi single all args scene = .ok (.status c) →
      c = 0 ∨ c = -1 := by
  have key : ∀ (b : Bool) (c : Int), (Res.ok (Exit.status (if b then 0 else -1)) : Res Exit) = .ok (.status c) →
      c = 0 ∨ c = -1 := by
    intro b c h
    cases b <;> simp at h <;> omega
  intro args
  induction hn : args.length using Nat.strong_induction_on generalizing args with
  | _ n ih =>
    subst hn
    intro scene c h
    cases args with
    | nil => rw [mainLoop.eq_def] at h; simp at h
    | cons a rest =>
      rw [mainLoop.eq_def] at h
      simp only at h
      by_cases h1 : a = "-u"
      · rw [if_pos h1] at h; exact key _ _ h
      rw [if_neg h1] at h
      by_cases h2 : a = "-ui"
      · rw [if_pos h2] at h
        cases rest with
        | nil => cases h
        | cons x rest =>
          simp only at h
          cases hx : stoi x with
          | none => rw [hx] at h; cases h
          | some i => rw [hx] at h; exact key _ _ h
      rw [if_neg h2] at h
      by_cases h3 : a = "-ur"
      · rw [if_pos h3] at h; exact key _ _ h
      rw [if_neg h3] at h
      by_cases h4 : a = "-uri"
      · rw [if_pos h4] at h
        cases rest with
        | nil => cases h
        | cons x rest =>
          simp only at h
          cases hx : stoi x with
          | none => rw [hx] at h; cases h
          | some i => rw [hx] at h; exact key _ _ h
      rw [if_neg h4] at h
      by_cases h5 : a = "-s"
      · rw [if_pos h5] at h
        cases rest with
        | nil => cases h
        | cons x rest => exact ih _ (by simp) _ rfl _ _ h
      rw [if_neg h5] at h
      exact ih _ (by simp) _ rfl _ _ h

/-- An option that needs a value and is the last argument reads past the arguments. -/
theorem missing_value_ub (stoi : String → Option Int) (single : Bool → Int → Bool) (all : Bool → Bool)
    (o : String) (ho : o = "-ui" ∨ o = "-uri" ∨ o = "-s") :
    (main stoi single all [o]).isUb = true := by
  rcases ho with rfl | rfl | rfl <;> rfl

/-! ### Non-vacuity -/

example : runAll false 2 (some ["a.json".toList, ".json".toList, "notes.txt".toList, "b.json".toList])
    (fun n k => if n = "b.json".toList ∧ k = 1 then some 2 else some (1/2)) =
    (false, ["a.json".toList, "b.json".toList]) := by decide +kernel

example : zeroPadded 7 = [0, 0, 7] ∧ zeroPadded 1234 = [1, 2, 3, 4] := by decide +kernel

example : main (fun _ => some 4) (fun _ _ => true) (fun _ => false) ["x", "-s", "a.json", "-s", "b.json", "y"] =
    .ok (.render "b.json") := by decide

end Feign.Tools
