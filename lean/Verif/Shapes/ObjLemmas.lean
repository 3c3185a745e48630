import Verif.Shapes.ObjSpec
import Mathlib.Data.List.TakeWhile

/-! # Helper lemmas for the OBJ reader -/

set_option linter.unusedSectionVars false
set_option linter.unusedSimpArgs false

namespace Feign.Shapes

/-! ### Words -/

theorem wordsOf_nil : wordsOf [] = [] := by simp [wordsOf]

theorem wordsOf_ws {c : Char} (h : isWs c = true) (l : List Char) : wordsOf (c :: l) = wordsOf l := by
  unfold wordsOf
  rw [List.splitOnP_cons_eq_if_modifyHead, if_pos h]
  simp

theorem wordsOf_drop (l : List Char) : wordsOf (l.dropWhile isWs) = wordsOf l := by
  induction l with
  | nil => rfl
  | cons c l ih =>
    by_cases h : isWs c = true
    · rw [List.dropWhile_cons_of_pos h, ih, wordsOf_ws h]
    · rw [List.dropWhile_cons_of_neg h]

theorem wordsOf_first {w : List Char} (hw : ∀ c ∈ w, isWs c = false) (hne : w ≠ []) {q : List Char}
    (hq : ∀ c ∈ q.head?, isWs c = true) : wordsOf (w ++ q) = w :: wordsOf q := by
  cases q with
  | nil =>
    unfold wordsOf
    rw [List.append_nil, List.splitOnP_eq_singleton hw]
    simp [hne]
  | cons c q =>
    have hc : isWs c = true := hq c (by simp)
    rw [wordsOf_ws hc]
    unfold wordsOf
    rw [List.splitOnP_append_cons_of_forall_mem hw c hc]
    simp [hne]

theorem head_dropWhile {p : Char → Bool} (l : List Char) : ∀ c ∈ (l.dropWhile p).head?, p c = false := by
  intro c hc
  induction l with
  | nil => simp at hc
  | cons a l ih =>
    by_cases h : p a = true
    · rw [List.dropWhile_cons_of_pos h] at hc; exact ih hc
    · rw [List.dropWhile_cons_of_neg h] at hc
      simp only [List.head?_cons, Option.mem_def, Option.some.injEq] at hc
      rw [← hc]; simpa using h

/-- How a line splits into its first word and the rest. -/
theorem wordsOf_cases (l : List Char) :
    (l.dropWhile isWs = [] ∧ wordsOf l = []) ∨
    (∃ w q, l.dropWhile isWs = w ++ q ∧ w ≠ [] ∧ (∀ c ∈ w, isWs c = false) ∧ (∀ c ∈ q.head?, isWs c = true) ∧
      (l.dropWhile isWs).takeWhile (fun c => !isWs c) = w ∧ (l.dropWhile isWs).dropWhile (fun c => !isWs c) = q ∧
      wordsOf l = w :: wordsOf q) := by
  rw [← wordsOf_drop l]
  cases hr : l.dropWhile isWs with
  | nil => exact Or.inl ⟨rfl, wordsOf_nil⟩
  | cons c r =>
    right
    have hc : isWs c = false := head_dropWhile (p := isWs) l c (by rw [hr]; simp)
    have hsplit := List.takeWhile_append_dropWhile (p := fun c => !isWs c) (l := c :: r)
    have hne : (c :: r).takeWhile (fun c => !isWs c) ≠ [] := by
      rw [List.takeWhile_cons_of_pos (by simp [hc])]; simp
    have hw : ∀ x ∈ (c :: r).takeWhile (fun c => !isWs c), isWs x = false := by
      intro x hx
      have := List.mem_takeWhile_imp hx
      simpa using this
    have hq : ∀ x ∈ ((c :: r).dropWhile (fun c => !isWs c)).head?, isWs x = true := by
      intro x hx
      have := head_dropWhile (p := fun c => !isWs c) _ x hx
      simpa using this
    refine ⟨_, _, hsplit.symm, hne, hw, hq, rfl, rfl, ?_⟩
    rw [← wordsOf_first hw hne hq, hsplit]

/-- The words left in a stream. -/
def Left (i : Inp) (ws : List (List Char)) : Prop :=
  (i.good = true ∧ wordsOf i.rest = ws) ∨ (i.good = false ∧ ws = [])

theorem left_of (l : List Char) : Left (Inp.of l) (wordsOf l) := Or.inl ⟨rfl, rfl⟩

theorem left_rest (q : List Char) : Left ⟨q, !q.isEmpty⟩ (wordsOf q) := by
  cases q with
  | nil => exact Or.inr ⟨rfl, wordsOf_nil⟩
  | cons c q => exact Or.inl ⟨rfl, rfl⟩

theorem word_cons {i : Inp} {w : List Char} {ws : List (List Char)} (h : Left i (w :: ws)) (old : List Char) :
    ∃ i', i.word old = (w, i') ∧ Left i' ws := by
  rcases h with ⟨hg, hw⟩ | ⟨-, h⟩
  · rcases wordsOf_cases i.rest with ⟨-, h⟩ | ⟨w', q, hr, hne, -, -, ht, hd, hwo⟩
    · rw [h] at hw; cases hw
    · rw [hwo] at hw
      cases hw
      refine ⟨⟨q, !q.isEmpty⟩, ?_, left_rest q⟩
      unfold Inp.word
      have hnn : i.rest.dropWhile isWs ≠ [] := by rw [hr]; simp [hne]
      simp [hg, hnn, ht, hd]
  · cases h

theorem word_nil {i : Inp} (h : Left i []) (old : List Char) : ∃ i', i.word old = (old, i') ∧ Left i' [] := by
  rcases h with ⟨hg, hw⟩ | ⟨hg, -⟩
  · rcases wordsOf_cases i.rest with ⟨hr, -⟩ | ⟨w', q, -, -, -, -, -, -, hwo⟩
    · exact ⟨⟨[], false⟩, by simp [Inp.word, hg, hr], Or.inr ⟨rfl, rfl⟩⟩
    · rw [hwo] at hw; cases hw
  · exact ⟨i, by simp [Inp.word, hg], Or.inr ⟨hg, rfl⟩⟩

section
variable {K : Type} {scan : List Char → K × Option (List Char)}

theorem num_cons {i : Inp} {w : List Char} {ws : List (List Char)} (h : Left i (w :: ws)) {x : K} (hx : Reads scan w x)
    (old : K) : ∃ i', i.num scan old = (x, i') ∧ Left i' ws := by
  rcases h with ⟨hg, hw⟩ | ⟨-, h⟩
  · rcases wordsOf_cases i.rest with ⟨-, h⟩ | ⟨w', q, hr, hne, -, hq, ht, hd, hwo⟩
    · rw [h] at hw; cases hw
    · rw [hwo] at hw
      cases hw
      refine ⟨⟨q, !q.isEmpty⟩, ?_, left_rest q⟩
      unfold Inp.num
      have hnn : i.rest.dropWhile isWs ≠ [] := by rw [hr]; simp [hne]
      have hs : scan (i.rest.dropWhile isWs) = (x, some q) := by rw [hr]; exact hx q hq
      simp [hg, hnn, hs]
  · cases h

theorem num_nil {i : Inp} (h : Left i []) (old : K) : ∃ i', i.num scan old = (old, i') ∧ Left i' [] := by
  rcases h with ⟨hg, hw⟩ | ⟨hg, -⟩
  · rcases wordsOf_cases i.rest with ⟨hr, -⟩ | ⟨w', q, -, -, -, -, -, -, hwo⟩
    · exact ⟨⟨[], false⟩, by simp [Inp.num, hg, hr], Or.inr ⟨rfl, rfl⟩⟩
    · rw [hwo] at hw; cases hw
  · exact ⟨i, by simp [Inp.num, hg], Or.inr ⟨hg, rfl⟩⟩

end

/-! ### Faces -/

theorem digit_ws {c : Char} (h : c.isDigit = true) : isWs c = false := by
  by_contra hc
  have hc : isWs c = true := by simpa using hc
  simp only [isWs, Bool.or_eq_true, decide_eq_true_eq] at hc
  rcases hc with ((((rfl | rfl) | rfl) | rfl) | rfl) | rfl <;> revert h <;> decide

theorem digit_slash {c : Char} (h : c.isDigit = true) : c ≠ '/' ∧ c ≠ '-' ∧ c ≠ '+' ∧ c ≠ '\n' := by
  refine ⟨?_, ?_, ?_, ?_⟩ <;> rintro rfl <;> revert h <;> decide

theorem digits_all (n : ℕ) : ∀ c ∈ Nat.toDigits 10 n, c.isDigit = true :=
  fun _ hc => Nat.isDigit_of_mem_toDigits (by decide) (by decide) hc

theorem takeWhile_all {p : Char → Bool} {l : List Char} (h : ∀ c ∈ l, p c = true) : l.takeWhile p = l := by
  simpa [List.takeWhile_eq_self_iff] using h

theorem stoi_digits {n : ℕ} (h : n < 2 ^ 31) : stoi (Nat.toDigits 10 n) = .ok n := by
  have hd := digits_all n
  have hne : Nat.toDigits 10 n ≠ [] := Nat.toDigits_ne_nil
  unfold stoi
  generalize hl : Nat.toDigits 10 n = l at hd hne
  cases l with
  | nil => exact absurd rfl hne
  | cons c l =>
    have hc := hd c List.mem_cons_self
    have h1 : (c :: l).dropWhile isWs = c :: l := List.dropWhile_cons_of_neg (by simp [digit_ws hc])
    have h2 := digit_slash hc
    have h3 : (c :: l).takeWhile Char.isDigit = c :: l := takeWhile_all hd
    have h4 : Nat.ofDigitChars 10 (c :: l) 0 = n := by rw [← hl]; exact Nat.ofDigitChars_ten_toDigits
    simp only [h1, List.head?_cons, Option.some.injEq, h2.2.1, h2.2.2.1, or_self, if_false, h3, h4]
    rw [if_neg (by simp), if_pos (by constructor <;> omega)]

theorem index_digits {n : ℕ} (h1 : 1 ≤ n) (h : n < 2 ^ 31) : index (Nat.toDigits 10 n) = .ok (n - 1) := by
  unfold index
  rw [stoi_digits h]
  simp only [Res.bind_ok]
  rw [if_neg (by omega)]
  congr 1
  omega

theorem part_slash {d q : List Char} (h : '/' ∉ d) (old : List Char) :
    Inp.part ⟨d ++ '/' :: q, true⟩ old = (d, ⟨q, true⟩) := by
  unfold Inp.part
  have h1 : (d ++ '/' :: q).dropWhile (· ≠ '/') = '/' :: q := by
    induction d with
    | nil => simp
    | cons c d ih =>
      have : c ≠ '/' := fun e => h (e ▸ List.mem_cons_self)
      rw [List.cons_append, List.dropWhile_cons_of_pos (by simpa using this)]
      exact ih fun hm => h (List.mem_cons_of_mem _ hm)
  have h2 : (d ++ '/' :: q).takeWhile (· ≠ '/') = d := by
    induction d with
    | nil => simp
    | cons c d ih =>
      have : c ≠ '/' := fun e => h (e ▸ List.mem_cons_self)
      have hnd : '/' ∉ d := fun hm => h (List.mem_cons_of_mem _ hm)
      rw [List.cons_append, List.takeWhile_cons_of_pos (by simpa using this), ih hnd]
      rw [List.cons_append, List.dropWhile_cons_of_pos (by simpa using this)] at h1
      exact h1
  simp only [h1, h2]
  simp

theorem part_end {d : List Char} (h : '/' ∉ d) (old : List Char) : Inp.part ⟨d, true⟩ old = (d, ⟨[], false⟩) := by
  unfold Inp.part
  have h1 : d.dropWhile (· ≠ '/') = [] := by
    rw [List.dropWhile_eq_nil_iff]
    intro c hc
    simpa using fun e : c = '/' => h (e ▸ hc)
  simp only [h1]
  simp

theorem part_bad (l old : List Char) : Inp.part ⟨l, false⟩ old = (old, ⟨l, false⟩) := by simp [Inp.part]

theorem no_slash (n : ℕ) : '/' ∉ Nat.toDigits 10 n := fun h => (digit_slash (digits_all n _ h)).1 rfl

theorem corner_full {c : ℕ × ℕ × ℕ} (h : CornerOk c) (old : List Char) :
    ∃ t, corner (cornerText c) old = .ok ((c.1 - 1, c.2.1 - 1, c.2.2 - 1), t) := by
  obtain ⟨⟨a1, a2⟩, ⟨b1, b2⟩, ⟨c1, c2⟩⟩ := h
  refine ⟨Nat.toDigits 10 c.2.2, ?_⟩
  unfold corner cornerText Inp.of
  simp only [part_slash (no_slash _), part_end (no_slash _), index_digits a1 a2, index_digits b1 b2,
    index_digits c1 c2, Res.bind_ok]

theorem read5_three {i : Inp} {a b c : List Char} (h : Left i [a, b, c]) : read5 i = (a, b, c, [], []) := by
  obtain ⟨i1, e1, h1⟩ := word_cons h []
  obtain ⟨i2, e2, h2⟩ := word_cons h1 []
  obtain ⟨i3, e3, h3⟩ := word_cons h2 []
  obtain ⟨i4, e4, h4⟩ := word_nil h3 []
  obtain ⟨i5, e5, h5⟩ := word_nil h4 []
  simp only [read5, e1, e2, e3, e4, e5]

/-! ### Lines -/

theorem fileLines_line {l : List Char} (h : '\n' ∉ l) (cs : List Char) :
    fileLines (l ++ '\n' :: cs) = l :: fileLines cs := by
  induction l with
  | nil => simp [fileLines]
  | cons c l ih =>
    have hc : c ≠ '\n' := fun e => h (e ▸ List.mem_cons_self)
    have := ih fun hm => h (List.mem_cons_of_mem _ hm)
    rw [List.cons_append, fileLines, if_neg hc, this]

end Feign.Shapes
