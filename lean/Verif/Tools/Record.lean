import Verif.Basic
import Mathlib.Data.Nat.Digits.Defs
import Mathlib.Data.Rat.Defs
import Mathlib.Algebra.Order.Floor.Defs
import Mathlib.Data.Rat.Floor

/-!
# Recorded timings (model)

Models the text form of `ClockerResults` (`src/stats/clocker.cpp:15-48`, `:89-138`, `:199-215`) and the
averaging in `src/test/tester.cpp:92-118`.

* Numbers are rationals; `fl` rounds to a float. Strings are lists of characters.
* `std::to_string(float)` prints six decimals; `micro t` is the integer number of millionths printed.
* `std::stof` is modelled for plain decimal numbers (optional minus sign, digits, optional fraction, then
  anything); hexadecimal, exponents, `inf`, `nan` and leading blanks are left out: `to_string` writes
  none of them for finite numbers.
-/

namespace Feign.Tools

/-- `ClockerType::COUNT`, `include/feign/stats/clocker.h:16-47`. -/
def count : Nat := 24

/-- `ClockerResults`, `include/feign/stats/clocker.h:131-157`. `times` has `count` entries
(`src/stats/clocker.cpp:17`). -/
structure Results where
  times : List Rat
  month : Int
  day : Int
  year : Int
  deriving DecidableEq, Repr

/-- A decimal digit as a character. -/
def digitChar (d : Nat) : Char := Char.ofNat (48 + d)

/-- Decimal digits of a number, most significant first. -/
def fmtNat (n : Nat) : List Char :=
  (if n = 0 then [0] else (Nat.digits 10 n).reverse).map digitChar

/-- `std::to_string(int)`. -/
def fmtInt (z : Int) : List Char := (if z < 0 then ['-'] else []) ++ fmtNat z.natAbs

/-- `std::to_string(float)`, i.e. `%f`, for `z` millionths. -/
def fmtFixed (z : Int) : List Char :=
  let m := z.natAbs % 1000000
  (if z < 0 then ['-'] else []) ++ fmtNat (z.natAbs / 1000000) ++ ['.'] ++
    [m / 100000 % 10, m / 10000 % 10, m / 1000 % 10, m / 100 % 10, m / 10 % 10, m % 10].map digitChar

/-- Reads digits: the number read (continuing from `a`), how many digits, and the rest. -/
def readDigits : List Char → Nat → Nat → Nat × Nat × List Char
  | [], a, k => (a, k, [])
  | c :: cs, a, k =>
    if 48 ≤ c.toNat ∧ c.toNat ≤ 57 then readDigits cs (10 * a + (c.toNat - 48)) (k + 1) else (a, k, c :: cs)

/-- `std::stof` before rounding to a float; `none` when it throws `std::invalid_argument`. -/
def stofExact (s : List Char) : Option Rat :=
  let neg := s.head? == some '-'
  let body := if neg then s.tail else s
  let (a, k, rest) := readDigits body 0 0
  let (b, k') :=
    match rest with
    | '.' :: r => let (b, k', _) := readDigits r a 0; (b, k')
    | _ => (a, 0)
  if k + k' = 0 then none
  else some ((if neg then -1 else 1) * ((b : Rat) / 10 ^ k'))

/-- `std::stof`. -/
def stof (fl : Rat → Rat) (s : List Char) : Option Rat := (stofExact s).map fl

/-- Conversion of a float to `int`: towards zero. -/
def toInt (q : Rat) : Int := if q < 0 then ⌈q⌉ else ⌊q⌋

/-- `times[i]`. -/
def timeAt (ts : List Rat) (i : Nat) : Res Rat :=
  match ts[i]? with
  | none => .ub "times out of range"
  | some t => .ok t

/-- `ClockerResults::to_string`, `src/stats/clocker.cpp:118-137`, as the comma-separated fields. The
timers `SCENE_PARSE`, `RENDERING` and `API` are 3, 1 and 0. -/
def fields (fl : Rat → Rat) (micro : Rat → Int) (r : Results) : Res (List (List Char)) := do
  let a ← timeAt r.times 3
  let b ← timeAt r.times 1
  let c ← timeAt r.times 0
  .ok ([fmtInt r.year, fmtInt r.month, fmtInt r.day] ++ r.times.map (fun t => fmtFixed (micro t)) ++
    [fmtFixed (micro (fl (fl (a + b) + c)))])

/-- The text written by `to_string`. -/
def toText (fl : Rat → Rat) (micro : Rat → Int) (r : Results) : Res (List Char) := do
  let fs ← fields fl micro r
  .ok ([','].intercalate fs)

/-- `std::stof(vals[i])`. -/
def field (fl : Rat → Rat) (vals : List (List Char)) (i : Nat) : Res Rat :=
  match vals[i]? with
  | none => .ub "vals out of range"
  | some s =>
    match stof fl s with
    | none => .throw "std::invalid_argument: stof"
    | some q => .ok q

/-- Body of the loop, `src/stats/clocker.cpp:107-111`. -/
def readTime (fl : Rat → Rat) (vals : List (List Char)) (i : Nat) : Res Rat :=
  if i < vals.length then field fl vals (3 + i) else .ok 0

/-- The loop `src/stats/clocker.cpp:106-112` from entry `i` with `n` entries to go. -/
def readTimes (fl : Rat → Rat) (vals : List (List Char)) : Nat → Nat → Res (List Rat)
  | _, 0 => .ok []
  | i, n + 1 => do
    let t ← readTime fl vals i
    let ts ← readTimes fl vals (i + 1) n
    .ok (t :: ts)

/-- `parse_from_string` up to its last statement, `src/stats/clocker.cpp:91-112`. The `getline` loop splits
at every comma. -/
def parseBody (fl : Rat → Rat) (s : List Char) : Res Results := do
  let vals := s.splitOn ','
  let m ← field fl vals 0
  let d ← field fl vals 1
  let y ← field fl vals 2
  let ts ← readTimes fl vals 0 count
  .ok ⟨ts, toInt m, toInt d, toInt y⟩

/-- `v[i] = t` on a vector. -/
def store (ts : List Rat) (i : Nat) (t : Rat) : Res (List Rat) :=
  if i < ts.length then .ok (ts.set i t) else .ub "times out of range"

/-- `ClockerResults::parse_from_string`, `src/stats/clocker.cpp:91-115`: the last statement stores into
`times[COUNT]`. -/
def parse (fl : Rat → Rat) (s : List Char) : Res Results := do
  let r ← parseBody fl s
  let ts ← store r.times count 0
  .ok { r with times := ts }

/-- `operator+=`, `src/stats/clocker.cpp:199-203` (both vectors have `count` entries). -/
def addTimes (fl : Rat → Rat) (a b : List Rat) : List Rat := a.zipWith (fun x y => fl (x + y)) b

/-- `operator*=`, `src/stats/clocker.cpp:211-215`. -/
def scaleTimes (fl : Rat → Rat) (a : List Rat) (v : Rat) : List Rat := a.map fun x => fl (x * v)

/-- The averaged timings of the runs of a test, `src/test/tester.cpp:93-112`. -/
def average (fl : Rat → Rat) (runs : List (List Rat)) : List Rat :=
  scaleTimes fl (runs.foldl (addTimes fl) (List.replicate count 0)) (fl (1 / runs.length))

end Feign.Tools
