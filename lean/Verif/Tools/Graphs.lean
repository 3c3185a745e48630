import Verif.Tools.Site

/-!
# Folders of timing graphs (model)

Models the two commands on folders in `UnitTestSiteAssembler::append_to_test_records`,
`src/test/site_assembler.cpp:320-326`.

* The files and folders that exist are a list of paths, relative to the current folder, without a `/` at the
  end.
* The shell is modelled for commands that hold no special character except blanks: a command is cut into
  words at blanks. `rm -rf w` removes `w` and everything below; `mkdir w` adds the folder `w` if there is
  nothing of that name and fails without effect otherwise (its result is not looked at, `:324`).
* The script that draws the graphs (`:325-326`) is external and not modelled.
-/

namespace Feign.Tools.Site

/-- `"../scenes/unit_tests/web_viewer/clocking_logs/"`, `src/test/site_assembler.cpp:323`. -/
def graphsDir : Path := "../scenes/unit_tests/web_viewer/clocking_logs/".toList

/-- The words of a command: `cur` is the word read so far, back to front. -/
def wordsFrom : List Char → List Char → List Path
  | [], cur => if cur = [] then [] else [cur.reverse]
  | c :: cs, cur =>
    if c = ' ' then (if cur = [] then wordsFrom cs [] else cur.reverse :: wordsFrom cs [])
    else wordsFrom cs (c :: cur)

/-- The words of a command. -/
def words (s : List Char) : List Path := wordsFrom s []

/-- A path without a `/` at the end. -/
def trimSlash (w : Path) : Path := if w.getLast? = some '/' then w.dropLast else w

/-- Is `p` the path `w` or below it? -/
def under (w p : Path) : Bool := p == w || (w ++ ['/']).isPrefixOf p

/-- `rm -rf w`. -/
def rmrf (t : List Path) (w : Path) : List Path := t.filter fun p => !under (trimSlash w) p

/-- `mkdir w`. -/
def mkdir (t : List Path) (w : Path) : List Path := if trimSlash w ∈ t then t else t ++ [trimSlash w]

/-- `src/test/site_assembler.cpp:321-324` for the test called `s`. The words after the command's name and
options are its operands. -/
def renewGraphs (s : Path) (t : List Path) : List Path :=
  let t := (words ("rm -rf ".toList ++ s ++ "/".toList)).drop 2 |>.foldl rmrf t
  (words ("mkdir ".toList ++ graphsDir ++ s ++ "/".toList)).drop 1 |>.foldl mkdir t

end Feign.Tools.Site
