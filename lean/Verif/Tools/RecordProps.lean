import Verif.Tools.Record
import Mathlib.Data.Nat.Digits.Lemmas
import Mathlib.Tactic.Linarith
import Mathlib.Tactic.FieldSimp
import Mathlib.Tactic.Ring
import Mathlib.Algebra.Order.Floor.Ring
import Mathlib.Algebra.BigOperators.Group.List.Basic

/-!
# C56, C78: recorded timings
-/

set_option linter.unusedSectionVars false
set_option linter.unusedSimpArgs false

namespace Feign.Tools

/-! ### Specification -/

/-- C56 as listed: parsing what was written gives back the same date and the timings to the six decimals
that were written. -/
def RoundTrip (fl : Rat → Rat) (micro : Rat → Int) : Prop :=
  ∀ r : Results, r.times.length = count →
    ∃ s r', toText fl micro r = .ok s ∧ parse fl s = .ok r' ∧
      r'.month = r.month ∧ r'.day = r.day ∧ r'.year = r.year ∧
      r'.times = r.times.map fun t => fl ((micro t : Rat) / 1000000)

/-! ### Reading back printed numbers (helpers) -/

private theorem digitChar_toNat (d : Nat) (h : d < 10) : (digitChar d).toNat = 48 + d := by
  interval_cases d <;> rfl

theorem readDigits_map (ds : List Nat) (h : ∀ d ∈ ds, d < 10) (rest : List Char)
    (hr : ∀ c, rest.head? = some c → ¬ (48 ≤ c.toNat ∧ c.toNat ≤ 57)) (a k : Nat) :
    readDigits (ds.map digitChar ++ rest) a k =
      (ds.foldl (fun a d => 10 * a + d) a, k + ds.length, rest) := by
  induction ds generalizing a k with
  | nil =>
    cases rest with
    | nil => rfl
    | cons c cs => simp only [List.map_nil, List.nil_append, readDigits, if_neg (hr c rfl)]; rfl
  | cons d ds ih =>
    have hd := digitChar_toNat d (h d (by simp))
    have hd10 := h d (by simp)
    rw [List.map_cons, List.cons_append, readDigits, hd, if_pos (by omega), ih (fun x hx => h x (by simp [hx]))]
    simp only [List.foldl_cons, List.length_cons]
    congr 2
    · congr 1; omega
    · omega

/-- The digits `fmtNat` prints. -/
private def natDigits (n : Nat) : List Nat := if n = 0 then [0] else (Nat.digits 10 n).reverse

private theorem natDigits_lt (n : Nat) : ∀ d ∈ natDigits n, d < 10 := by
  intro d hd
  unfold natDigits at hd
  split at hd
  · simp at hd; omega
  · exact Nat.digits_lt_base (by norm_num) (List.mem_reverse.1 hd)

private theorem natDigits_val (n : Nat) : (natDigits n).foldl (fun a d => 10 * a + d) 0 = n := by
  unfold natDigits
  split
  · rename_i h; simp [h]
  · rw [List.foldl_reverse]
    conv_rhs => rw [← Nat.ofDigits_digits 10 n, Nat.ofDigits_eq_foldr]
    congr 1
    funext a b
    simp
    omega

private theorem natDigits_length_pos (n : Nat) : 0 < (natDigits n).length := by
  unfold natDigits
  split
  · simp
  · rename_i h
    rw [List.length_reverse]
    exact List.length_pos_iff.2 (Nat.digits_ne_nil_iff_ne_zero.2 h)

private theorem natDigits_head (n : Nat) (rest : List Char) :
    ((natDigits n).map digitChar ++ rest).head? ≠ some '-' := by
  have h := natDigits_length_pos n
  cases e : natDigits n with
  | nil => rw [e] at h; simp at h
  | cons d ds =>
    have hd : d < 10 := natDigits_lt n d (by rw [e]; simp)
    simp only [List.map_cons, List.cons_append, List.head?_cons, ne_eq, Option.some.injEq]
    interval_cases d <;> decide

private theorem digitChar_ne_comma (d : Nat) (h : d < 10) : digitChar d ≠ ',' := by
  interval_cases d <;> decide

theorem fmtNat_no_comma (n : Nat) : ',' ∉ fmtNat n := by
  show ',' ∉ (natDigits n).map digitChar
  rw [List.mem_map]
  rintro ⟨d, hd, e⟩
  exact digitChar_ne_comma d (natDigits_lt n d hd) e

theorem fmtInt_no_comma (z : Int) : ',' ∉ fmtInt z := by
  unfold fmtInt
  rw [List.mem_append]
  rintro (h | h)
  · split at h <;> simp at h
  · exact fmtNat_no_comma _ h

theorem fmtFixed_no_comma (z : Int) : ',' ∉ fmtFixed z := by
  unfold fmtFixed
  simp only [List.mem_append]
  rintro (((h | h) | h) | h)
  · split at h <;> simp at h
  · exact fmtNat_no_comma _ h
  · simp at h
  · rw [List.mem_map] at h
    obtain ⟨d, hd, e⟩ := h
    refine digitChar_ne_comma d ?_ e
    simp only [List.mem_cons, List.not_mem_nil, or_false] at hd
    omega

/-- A printed integer is read back. -/
theorem stofExact_fmtInt (z : Int) : stofExact (fmtInt z) = some (z : Rat) := by
  have hd : readDigits (fmtNat z.natAbs) 0 0 = (z.natAbs, 0 + (natDigits z.natAbs).length, []) := by
    have := readDigits_map (natDigits z.natAbs) (natDigits_lt _) [] (by simp) 0 0
    rw [List.append_nil, natDigits_val] at this
    exact this
  have hpos := natDigits_length_pos z.natAbs
  unfold stofExact fmtInt
  by_cases hz : z < 0
  · simp only [if_pos hz, List.cons_append, List.nil_append, List.head?_cons, beq_self_eq_true, if_true,
      List.tail_cons, hd]
    rw [if_neg (by omega)]
    have : ((z.natAbs : Nat) : Int) = -z := by omega
    have hq : ((z.natAbs : Nat) : Rat) = -(z : Rat) := by
      rw [← Int.cast_natCast, this, Int.cast_neg]
    rw [hq]
    simp
  · have hh : (fmtNat z.natAbs).head? ≠ some '-' := by
      have := natDigits_head z.natAbs []
      rwa [List.append_nil] at this
    have hb : ((fmtNat z.natAbs).head? == some '-') = false := by simpa using hh
    simp only [if_neg hz, List.nil_append, hb, Bool.false_eq_true, if_false, hd]
    rw [if_neg (by omega)]
    have : ((z.natAbs : Nat) : Int) = z := by omega
    have hq : ((z.natAbs : Nat) : Rat) = (z : Rat) := by
      rw [← Int.cast_natCast, this]
    rw [hq]
    simp

/-- A number printed with six decimals is read back to those decimals. -/
theorem stofExact_fmtFixed (z : Int) : stofExact (fmtFixed z) = some ((z : Rat) / 1000000) := by
  set n := z.natAbs with hn
  set six : List Nat := [n % 1000000 / 100000 % 10, n % 1000000 / 10000 % 10, n % 1000000 / 1000 % 10,
    n % 1000000 / 100 % 10, n % 1000000 / 10 % 10, n % 1000000 % 10] with hsix
  have hd : readDigits (fmtNat (n / 1000000) ++ '.' :: six.map digitChar) 0 0 =
      (n / 1000000, 0 + (natDigits (n / 1000000)).length, '.' :: six.map digitChar) := by
    have := readDigits_map (natDigits (n / 1000000)) (natDigits_lt _) ('.' :: six.map digitChar)
      (by simp) 0 0
    rw [natDigits_val] at this
    exact this
  have h6 : readDigits (six.map digitChar) (n / 1000000) 0 = (n, 6, []) := by
    have := readDigits_map six (by
      intro d hd
      simp only [hsix, List.mem_cons, List.not_mem_nil, or_false] at hd
      omega) [] (by simp) (n / 1000000) 0
    rw [List.append_nil] at this
    rw [this]
    have hv : six.foldl (fun a d => 10 * a + d) (n / 1000000) = n := by
      simp only [hsix, List.foldl_cons, List.foldl_nil]
      omega
    rw [hv]
    rfl
  have hbody : fmtFixed z = (if z < 0 then ['-'] else []) ++ (fmtNat (n / 1000000) ++ '.' :: six.map digitChar) := by
    simp only [fmtFixed, List.append_assoc, hsix, ← hn]
    rfl
  have hpos := natDigits_length_pos (n / 1000000)
  rw [hbody]
  unfold stofExact
  by_cases hz : z < 0
  · simp only [if_pos hz, List.cons_append, List.nil_append, List.head?_cons, beq_self_eq_true, if_true,
      List.tail_cons, hd, h6]
    rw [if_neg (by omega)]
    have : ((n : Nat) : Int) = -z := by omega
    have hq : ((n : Nat) : Rat) = -(z : Rat) := by
      rw [← Int.cast_natCast, this, Int.cast_neg]
    rw [hq]
    congr 1
    norm_num
    ring
  · have hh := natDigits_head (n / 1000000) ('.' :: six.map digitChar)
    have hb : ((fmtNat (n / 1000000) ++ '.' :: six.map digitChar).head? == some '-') = false := by
      have hh' : (fmtNat (n / 1000000) ++ '.' :: six.map digitChar).head? ≠ some '-' := hh
      exact beq_eq_false_iff_ne.2 hh'
    simp only [if_neg hz, List.nil_append, hb, Bool.false_eq_true, if_false, hd, h6]
    rw [if_neg (by omega)]
    have : ((n : Nat) : Int) = z := by omega
    have hq : ((n : Nat) : Rat) = (z : Rat) := by
      rw [← Int.cast_natCast, this]
    rw [hq]
    congr 1
    norm_num

private theorem readTimes_spec (fl : Rat → Rat) (vals : List (List Char)) (ts : List Rat) (i : Nat)
    (hlen : i + ts.length ≤ vals.length)
    (h : ∀ k (hk : k < ts.length), field fl vals (3 + (i + k)) = .ok ts[k]) :
    readTimes fl vals i ts.length = .ok ts := by
  induction ts generalizing i with
  | nil => rfl
  | cons t ts ih =>
    rw [List.length_cons] at hlen
    have h0 := h 0 (by simp)
    simp only [Nat.add_zero, List.getElem_cons_zero] at h0
    have h1 := ih (i + 1) (by omega) (fun k hk => by
      have := h (k + 1) (by simpa using hk)
      rw [List.getElem_cons_succ] at this
      rw [← this]
      congr 1
      omega)
    show readTimes fl vals i (ts.length + 1) = _
    simp only [readTimes, readTime, if_pos (show i < vals.length by omega), h0, h1, Res.bind_ok]

theorem toInt_int (z : Int) : toInt (z : Rat) = z := by
  unfold toInt
  split <;> simp

/-- `z` is `q` without its fraction: not further from zero, less than one away, and not on the other side of zero. -/
def Truncates (q : Rat) (z : Int) : Prop := |(z : Rat)| ≤ |q| ∧ |q - z| < 1 ∧ 0 ≤ q * z

theorem toInt_truncates (q : Rat) : Truncates q (toInt q) := by
  unfold toInt Truncates
  split
  · rename_i h
    have h1 := Int.le_ceil q
    have h2 := Int.ceil_lt_add_one q
    have h3 : ((⌈q⌉ : Int) : Rat) ≤ 0 := by exact_mod_cast Int.ceil_le.2 (by simpa using h.le)
    refine ⟨?_, ?_, mul_nonneg_of_nonpos_of_nonpos h.le h3⟩
    · rw [abs_of_nonpos h3, abs_of_neg h]; linarith
    · rw [abs_lt]; constructor <;> linarith
  · rename_i h
    have h0 : 0 ≤ q := not_lt.1 h
    have h1 := Int.floor_le q
    have h2 := Int.lt_floor_add_one q
    have h3 : (0 : Rat) ≤ ((⌊q⌋ : Int) : Rat) := by exact_mod_cast Int.floor_nonneg.2 h0
    refine ⟨?_, ?_, mul_nonneg h0 h3⟩
    · rw [abs_of_nonneg h3, abs_of_nonneg h0]; exact h1
    · rw [abs_lt]; constructor <;> linarith

/-! ### C56 -/

/-- **C56 (partial: what the reader has computed before its last statement).** Every timing is read back to
the six decimals written, but the three date fields are exchanged: the writer puts the year first, the
reader takes the month first. Missing for the full property: the order of the date, and the last statement
of the reader (`parse_never_returns`). Dates must fit a float exactly (`hfl`). -/
theorem record_round_trip_partial (fl : Rat → Rat) (micro : Rat → Int) (r : Results)
    (hlen : r.times.length = count) (hfl : ∀ z ∈ [r.year, r.month, r.day], fl (z : Rat) = z) :
    ∃ s, toText fl micro r = .ok s ∧
      parseBody fl s = .ok
        { month := r.year, day := r.month, year := r.day
          times := r.times.map fun t => fl ((micro t : Rat) / 1000000) } := by
  have hl : r.times.length = 24 := hlen
  have h3 : timeAt r.times 3 = .ok r.times[3] := by simp [timeAt, hl]
  have h1 : timeAt r.times 1 = .ok r.times[1] := by simp [timeAt, hl]
  have h0 : timeAt r.times 0 = .ok r.times[0] := by simp [timeAt, hl]
  set total := fmtFixed (micro (fl (fl (r.times[3] + r.times[1]) + r.times[0]))) with ht
  set fs : List (List Char) := [fmtInt r.year, fmtInt r.month, fmtInt r.day] ++
    r.times.map (fun t => fmtFixed (micro t)) ++ [total] with hfs
  have hfields : fields fl micro r = .ok fs := by
    simp only [fields, h3, h1, h0, Res.bind_ok]
    rw [hfs, ht]
  have hsplit : ([','].intercalate fs).splitOn ',' = fs := by
    apply List.splitOn_intercalate
    · intro l hl
      simp only [hfs, List.mem_append, List.mem_cons, List.mem_map, List.not_mem_nil, or_false] at hl
      rcases hl with (hl | ⟨t, -, rfl⟩) | rfl
      · rcases hl with rfl | rfl | rfl <;> exact fmtInt_no_comma _
      · exact fmtFixed_no_comma _
      · exact fmtFixed_no_comma _
    · simp [hfs]
  have hflen : fs.length = 28 := by simp [hfs, hl]
  refine ⟨[','].intercalate fs, by simp only [toText, hfields, Res.bind_ok], ?_⟩
  have f0 : field fl fs 0 = .ok (r.year : Rat) := by
    simp [field, hfs, stof, stofExact_fmtInt, hfl r.year (by simp)]
  have f1 : field fl fs 1 = .ok (r.month : Rat) := by
    simp [field, hfs, stof, stofExact_fmtInt, hfl r.month (by simp)]
  have f2 : field fl fs 2 = .ok (r.day : Rat) := by
    simp [field, hfs, stof, stofExact_fmtInt, hfl r.day (by simp)]
  have ft : readTimes fl fs 0 count = .ok (r.times.map fun t => fl ((micro t : Rat) / 1000000)) := by
    have := readTimes_spec fl fs (r.times.map fun t => fl ((micro t : Rat) / 1000000)) 0
      (by simp [hflen, hl]) (by
        intro k hk
        rw [List.length_map] at hk
        have hget : fs[3 + (0 + k)]? = some (fmtFixed (micro r.times[k])) := by
          rw [hfs, List.append_assoc, List.getElem?_append_right (by simp)]
          rw [List.getElem?_append_left (by simp; omega)]
          simp [hk]
        simp only [field, hget, stof, stofExact_fmtFixed, Option.map_some, List.getElem_map])
    rw [List.length_map, hlen] at this
    exact this
  simp only [parseBody, hsplit, f0, f1, f2, ft, Res.bind_ok, toInt_int]

/-- **C56, dates of any text.** Whatever text is read, whole numbers or not, the three date fields are the first three numbers of the text
without their fractions. -/
theorem record_dates_truncate (fl : Rat → Rat) (s : List Char) (r : Results) (h : parseBody fl s = .ok r) :
    ∃ m d y, field fl (s.splitOn ',') 0 = .ok m ∧ field fl (s.splitOn ',') 1 = .ok d ∧ field fl (s.splitOn ',') 2 = .ok y ∧
      Truncates m r.month ∧ Truncates d r.day ∧ Truncates y r.year := by
  unfold parseBody at h
  obtain ⟨m, hm, h⟩ := Res.bind_eq_ok.1 h
  obtain ⟨d, hd, h⟩ := Res.bind_eq_ok.1 h
  obtain ⟨y, hy, h⟩ := Res.bind_eq_ok.1 h
  obtain ⟨ts, -, h⟩ := Res.bind_eq_ok.1 h
  cases h
  exact ⟨m, d, y, hm, hd, hy, toInt_truncates m, toInt_truncates d, toInt_truncates y⟩

/-- Texts that are read: those that are written (`record_round_trip_partial`). -/
example : ∃ s r, parseBody id s = .ok r := by
  obtain ⟨s, -, h⟩ := record_round_trip_partial id (fun t => ⌊t⌋) ⟨List.replicate count 0, 1, 2, 3⟩ (by simp) (by simp)
  exact ⟨s, _, h⟩

/-- **C56 is false of the code, first reason.** The reader never returns normally, whatever the text: it
ends by storing one entry past the end of the timings. -/
theorem parse_never_returns (fl : Rat → Rat) (s : List Char) : (parse fl s).isOk = false := by
  have hlen : ∀ vals i n ts, readTimes fl vals i n = .ok ts → ts.length = n := by
    intro vals i n
    induction n generalizing i with
    | zero => intro ts h; cases h; rfl
    | succ n ih =>
      intro ts h
      rw [readTimes] at h
      obtain ⟨t, -, h⟩ := Res.bind_eq_ok.1 h
      obtain ⟨ts', h', h⟩ := Res.bind_eq_ok.1 h
      cases h
      rw [List.length_cons, ih _ _ h']
  cases h : parse fl s with
  | throw m => rfl
  | ub w => rfl
  | ok r =>
    exfalso
    unfold parse at h
    obtain ⟨r1, h1, h2⟩ := Res.bind_eq_ok.1 h
    obtain ⟨ts, h3, -⟩ := Res.bind_eq_ok.1 h2
    unfold parseBody at h1
    obtain ⟨m, -, h1⟩ := Res.bind_eq_ok.1 h1
    obtain ⟨d, -, h1⟩ := Res.bind_eq_ok.1 h1
    obtain ⟨y, -, h1⟩ := Res.bind_eq_ok.1 h1
    obtain ⟨ts', h4, h1⟩ := Res.bind_eq_ok.1 h1
    cases h1
    have := hlen _ _ _ _ h4
    simp [store, this] at h3

theorem round_trip_refuted (fl : Rat → Rat) (micro : Rat → Int) : ¬ RoundTrip fl micro := by
  intro h
  obtain ⟨s, r', -, hp, -⟩ := h ⟨List.replicate count 0, 1, 2, 2026⟩ (by decide)
  have := parse_never_returns fl s
  rw [hp] at this
  cases this

/-- **C56 is false of the code, second reason**: even without its last statement the reader would return a
different date whenever year, month and day are not all equal. -/
theorem date_exchanged (fl : Rat → Rat) (micro : Rat → Int) (r : Results)
    (hlen : r.times.length = count) (hfl : ∀ z ∈ [r.year, r.month, r.day], fl (z : Rat) = z)
    (hne : ¬ (r.year = r.month ∧ r.month = r.day)) :
    ∃ s r', toText fl micro r = .ok s ∧ parseBody fl s = .ok r' ∧
      ¬ (r'.month = r.month ∧ r'.day = r.day ∧ r'.year = r.year) := by
  obtain ⟨s, h1, h2⟩ := record_round_trip_partial fl micro r hlen hfl
  exact ⟨s, _, h1, h2, fun h => hne ⟨h.1, h.2.1⟩⟩

/-- A line with fewer than 27 but at least 4 numbers makes the reader look past the last field: the
length check compares with the wrong index (`src/stats/clocker.cpp:107-108`). -/
theorem short_line_ub (fl : Rat → Rat) (vals : List (List Char)) (i n : Nat) (h : i + 3 ≥ vals.length)
    (hi : i < vals.length) : (readTimes fl vals i (n + 1)).isUb = true := by
  have : field fl vals (3 + i) = .ub "vals out of range" := by
    simp [field, List.getElem?_eq_none (show vals.length ≤ 3 + i by omega)]
  simp only [readTimes, readTime, if_pos hi, this]
  rfl

/-! ### C78 -/

/-- **C78.** The timings recorded for a test are the mean of its runs (exact arithmetic). -/
theorem average_is_mean (runs : List (List Rat)) (_h : runs ≠ []) (hl : ∀ r ∈ runs, r.length = count)
    (i : Nat) (hi : i < count) :
    (average id runs)[i]? = some ((runs.map fun r => r[i]?.getD 0).sum / runs.length) := by
  have key : ∀ (runs : List (List Rat)) (acc : List Rat), acc.length = count →
      (∀ r ∈ runs, r.length = count) →
      (runs.foldl (addTimes id) acc)[i]? =
        some (acc[i]?.getD 0 + (runs.map fun r => r[i]?.getD 0).sum) := by
    intro runs
    induction runs with
    | nil =>
      intro acc ha _
      have : i < acc.length := by omega
      simp [this]
    | cons r runs ih =>
      intro acc ha hr
      have hrl := hr r (by simp)
      have hlen : (addTimes id acc r).length = count := by simp [addTimes, ha, hrl]
      rw [List.foldl_cons, ih _ hlen (fun q hq => hr q (by simp [hq]))]
      have h1 : i < acc.length := by omega
      have h2 : i < r.length := by omega
      simp only [addTimes, id]
      rw [List.getElem?_zipWith]
      simp [h1, h2]
      ring
  have hk := key runs (List.replicate count 0) (by simp) hl
  have h0 : (List.replicate count (0 : Rat))[i]?.getD 0 = 0 := by
    simp [List.getElem?_replicate, hi]
  rw [h0, zero_add] at hk
  simp only [average, scaleTimes, List.getElem?_map, hk, Option.map_some, id]
  congr 1
  ring

/-! ### Non-vacuity -/

example : fmtFixed (-1234567) = "-1.234567".toList := by decide +kernel
example : fmtInt 2026 = "2026".toList := by decide +kernel
example : stofExact "12.50".toList = some (25 / 2) := by decide +kernel

/-- A whole record, written and read. -/
example : (toText id (fun t => ⌊t * 1000000⌋) ⟨List.replicate count (1 / 4), 10, 16, 2026⟩).bind
    (fun s => parseBody id s) = .ok ⟨List.replicate count (1 / 4), 2026, 10, 16⟩ := by decide +kernel

example : average id [List.replicate count 1, List.replicate count 3] = List.replicate count 2 := by
  decide +kernel

end Feign.Tools
