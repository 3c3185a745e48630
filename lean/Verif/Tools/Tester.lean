import Verif.Basic
import Mathlib.Data.Nat.Digits.Defs
import Mathlib.Order.Basic
import Mathlib.Data.Rat.Defs

/-!
# The unit-test runner and the command line (model)

Models `src/test/tester.cpp`, `include/feign/test/tester.h` and `src/main.cpp`.

* Rendering a test scene and comparing it with its reference is external: an oracle gives the resulting
  `image_error`; `none` stands for a NaN error (every comparison with NaN is false).
* A test can also throw or crash inside the renderer; such runs do not return and are not part of this model.
* Strings are lists of characters where their shape matters (file names), `String` otherwise.
-/

namespace Feign.Tools

/-- Error of a rendered image: a number or NaN. -/
abbrev Err := Option Rat

/-- `image_error > threshold`, `include/feign/test/tester.h:45`: false when a side is NaN. -/
def gt : Err → Rat → Bool
  | none, _ => false
  | some e, t => decide (t < e)

/-- `UnitTestData`, `include/feign/test/tester.h:16-57` (only what the verdict depends on). -/
structure TestData where
  error : Err
  threshold : Rat
  deriving DecidableEq, Repr

/-- The constructors, `include/feign/test/tester.h:18-42`. -/
def TestData.new : TestData := ⟨some 0, 1⟩

/-- `does_it_fail`, `include/feign/test/tester.h:45`. -/
def TestData.fails (d : TestData) : Bool := gt d.error d.threshold

/-- `std::setw(3) << std::setfill('0') << num` for a non-negative number, `src/test/tester.cpp:28-33`. The
characters are the decimal digits, most significant first. -/
def zeroPadded (n : Nat) : List Nat :=
  let ds := if n = 0 then [0] else (Nat.digits 10 n).reverse
  List.replicate (3 - ds.length) 0 ++ ds

/-- `UnitTestManager::run_test`, `src/test/tester.cpp:37-54`. `eval` is the error that
`evaluate_unit_test` stores; in a reference run the error stays as constructed. -/
def runTest (referenceRun : Bool) (eval : Err) : Bool :=
  let d := TestData.new
  let d := if referenceRun then d else { d with error := eval }
  d.fails

/-- Does `run_all_tests` run the directory entry? `src/test/tester.cpp:70-75`. -/
def isTest (name : List Char) : Bool :=
  decide (name.length > 5) && (name.drop (name.length - 5) == ".json".toList)

/-- The runs of one test scene, `src/test/tester.cpp:92-105`: `eval k` is the error of run `k` of
`NUM_TESTS_PER_RECORD` runs. Returns the new value of `passes`. -/
def runScene (runs : Nat) (eval : Nat → Err) (passes : Bool) : Bool :=
  (List.range runs).foldl (fun p k => if ({ TestData.new with error := eval k } : TestData).fails then false else p)
    passes

/-- `UnitTestManager::run_all_tests`, `src/test/tester.cpp:56-127`. `entries` are the directory entries in
the order `readdir` gives them; `none` when the directory cannot be opened. Returns the value and the names
of the scenes that were run. -/
def runAll (referenceRun : Bool) (runs : Nat) (entries : Option (List (List Char)))
    (eval : List Char → Nat → Err) : Bool × List (List Char) :=
  let names := (entries.getD []).filter isTest
  (names.foldl (fun p n => if referenceRun then p else runScene runs (eval n) p) true, names)

/-- What the process does: exit with a status, or start rendering a scene file. -/
inductive Exit
  | status (code : Int)
  | render (scene : String)
  deriving DecidableEq, Repr

/-- `main`, `src/main.cpp:35-117`. `argv[argc]` is a null pointer: making a `std::string` from it is
undefined behaviour. `stoi` is `std::stoi`, `none` when it throws. `single ref i` and `all ref` are the
values of `run_test(i)` and `run_all_tests()` with that `reference_run`. -/
def mainLoop (stoi : String → Option Int) (single : Bool → Int → Bool) (all : Bool → Bool) :
    List String → String → Res Exit
  | [], scene => .ok (.render scene)
  | a :: rest, scene =>
    if a = "-u" then .ok (.status (if all false then 0 else -1))
    else if a = "-ui" then
      match rest with
      | [] => .ub "std::stoi(nullptr)"
      | x :: _ =>
        match stoi x with
        | none => .throw "std::invalid_argument: stoi"
        | some i => .ok (.status (if single false i then 0 else -1))
    else if a = "-ur" then .ok (.status (if all true then 0 else -1))
    else if a = "-uri" then
      match rest with
      | [] => .ub "std::stoi(nullptr)"
      | x :: _ =>
        match stoi x with
        | none => .throw "std::invalid_argument: stoi"
        | some i => .ok (.status (if single true i then 0 else -1))
    else if a = "-s" then
      match rest with
      | [] => .ub "std::string(nullptr)"
      | x :: rest' => mainLoop stoi single all rest' x
    else mainLoop stoi single all rest scene

/-- The whole program for the arguments after the program name. -/
def main (stoi : String → Option Int) (single : Bool → Int → Bool) (all : Bool → Bool)
    (args : List String) : Res Exit :=
  mainLoop stoi single all args ""

end Feign.Tools
