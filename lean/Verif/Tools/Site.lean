import Verif.Tools.Tester
import Mathlib.Data.List.Lex
import Mathlib.Data.Char

/-!
# References, test images and the results site (model)

Models `src/test/test.cpp`, the parts of `src/test/tester.cpp` that read and write files, and
`src/test/site_assembler.cpp`.

* Files are addressed by the path the program writes down; two paths are the same file exactly when they are
  spelled alike. Writing a file always succeeds.
* Rendering a scene file is external: an oracle gives the image, `none` when the file cannot be opened
  (`src/parsers/json_parser.cpp:41-43` passes the null pointer on).
* The `imedit` library (a submodule whose source is not there) is external: an EXR file gives back the image
  that was written to it, `png` is what a PNG file keeps of an image, `load none` is whatever reading a
  missing file does, and the three error measures and the two error images are arbitrary functions.
* Of an HTML page the model keeps what refers to something else or reports something: links, images in the
  order they are shown (outside HTML comments), the rows they are arranged in, and the reported errors. The
  constant text is left out.
* Of `append_to_test_records` the shell commands on folders are modelled in `Tools/Graphs.lean`; the line
  appended to the timing file is `Tools/Record.lean`.
-/

namespace Feign.Tools.Site

open Feign.Tools

/-- Names and paths. -/
abbrev Path := List Char

/-- `"../scenes/unit_tests/scenes/"`, `src/test/test.cpp:24`, `src/test/tester.cpp:66`. -/
def scenesDir : Path := "../scenes/unit_tests/scenes/".toList
/-- `"../scenes/unit_tests/images/"`, `src/test/test.cpp:36`. -/
def imagesDir : Path := "../scenes/unit_tests/images/".toList
/-- `"../scenes/unit_tests/web_viewer/"`, `src/test/site_assembler.cpp:50`. -/
def viewerDir : Path := "../scenes/unit_tests/web_viewer/".toList

/-- `find_last_of(".")`; `none` is `npos`. -/
def lastDot : List Char → Option Nat
  | [] => none
  | c :: cs =>
    match lastDot cs with
    | some k => some (k + 1)
    | none => if c = '.' then some 0 else none

/-- `test_name.substr(0, loc)`, `src/test/test.cpp:32-34`: `npos` becomes `-1` as an `int` and the largest
length again as a count, so a name without a dot stays whole. -/
def stem (n : Path) : Path :=
  match lastDot n with
  | none => n
  | some k => n.take k

/-- `test_name.substr(0, test_name.length() - 5)`, `src/test/site_assembler.cpp:121`: for names shorter than
five characters the count wraps around. -/
def pageStem (n : Path) : Path := if n.length < 5 then n else n.take (n.length - 5)

/-- What the test runner takes from outside. -/
structure World (Img : Type) where
  /-- the image a scene file renders to -/
  render : Path → Option Img
  /-- reading an EXR file -/
  load : Option Img → Res Img
  /-- what a PNG file keeps -/
  png : Img → Img
  /-- `mean_absolute_difference`, `mean_sqr_error`, `mean_absolute_relative_difference` -/
  meanAbs : Img → Img → Err
  meanSqr : Img → Img → Err
  meanRel : Img → Img → Err
  /-- the images of the positive and the negative part of reference minus image -/
  posPart : Img → Img → Img
  negPart : Img → Img → Img

/-- Rows of a page: a `<div>` opens, holds items, closes. -/
inductive Tok (α : Type) where
  | openRow
  | item (a : α)
  | closeRow
  deriving DecidableEq, Repr

/-- The loops `src/test/site_assembler.cpp:66-87` and `:255-274`: `per` items a row, `count` items in the
current row. -/
def rowLoop {α : Type} (per : Nat) : Nat → List α → List (Tok α)
  | count, [] => if count ≠ 0 then [.closeRow] else []
  | count, a :: as =>
    (if count = 0 then [.openRow] else []) ++ .item a ::
      (if count + 1 = per then .closeRow :: rowLoop per 0 as else rowLoop per (count + 1) as)

/-- One entry of the home page: where it leads and the picture it shows. -/
structure Link where
  href : Path
  img : Path
  deriving DecidableEq, Repr

/-- The page of one test: its title, the images of the fixed part, the rows of timing graphs, and the three
numbers of the list. -/
structure TestPage where
  title : Path
  images : List Path
  graphs : List (Tok Path)
  meanAbs : Err
  meanSqr : Err
  meanRel : Err
  deriving DecidableEq, Repr

/-- A page of the site. -/
inductive Page where
  | home (rows : List (Tok Link))
  | test (p : TestPage)
  deriving DecidableEq, Repr

/-- The files the runner works with. -/
structure Disk (Img : Type) where
  images : Path → Option Img
  pages : Path → Option Page

variable {Img : Type}

/-- Writing an image. -/
def Disk.putImage (d : Disk Img) (p : Path) (i : Img) : Disk Img :=
  { d with images := fun q => if q = p then some i else d.images q }

/-- Writing a page. -/
def Disk.putPage (d : Disk Img) (p : Path) (g : Page) : Disk Img :=
  { d with pages := fun q => if q = p then some g else d.pages q }

/-- `UnitTestData`, `include/feign/test/tester.h:16-57`: the constructors leave `image_sqr_error` and
`image_rel_error` without a value (`none`). -/
structure Log where
  path : Path
  name : Path
  error : Err
  sqr : Option Err
  rel : Option Err
  deriving DecidableEq, Repr

/-- The constructors, `include/feign/test/tester.h:18-42`. -/
def Log.new (path name : Path) : Log := ⟨path, name, some 0, none, none⟩

/-- `does_it_fail`. -/
def Log.fails (l : Log) : Bool := ({ error := l.error, threshold := TestData.new.threshold } : TestData).fails

/-- `evaluate_unit_test`, `src/test/test.cpp:17-71`. -/
def evaluate (w : World Img) (l : Log) (d : Disk Img) : Res (Log × Disk Img) :=
  match w.render (scenesDir ++ l.name) with
  | none => .ub "reading a scene through a null FILE pointer"
  | some image => do
    let s := stem l.name
    let ref ← w.load (d.images (imagesDir ++ s ++ "_ref.exr".toList))
    let l := { l with error := w.meanAbs image ref, rel := some (w.meanRel image ref),
                      sqr := some (w.meanSqr image ref) }
    let d := d.putImage (imagesDir ++ s ++ ".exr".toList) image
    let d := d.putImage (imagesDir ++ s ++ ".png".toList) (w.png image)
    let d := d.putImage (imagesDir ++ s ++ "_pos_error.png".toList) (w.png (w.posPart image ref))
    let d := d.putImage (imagesDir ++ s ++ "_neg_error.png".toList) (w.png (w.negPart image ref))
    pure (l, d)

/-- `replace_reference`, `src/test/test.cpp:73-91`: renders the scene at the *path* of the test. -/
def replace (w : World Img) (l : Log) (d : Disk Img) : Res (Disk Img) :=
  match w.render l.path with
  | none => .ub "reading a scene through a null FILE pointer"
  | some image =>
    let s := stem l.name
    let d := d.putImage (imagesDir ++ s ++ "_ref.exr".toList) image
    let d := d.putImage (imagesDir ++ s ++ "_ref.png".toList) (w.png image)
    .ok d

/-- The timing graphs, `src/test/site_assembler.cpp:229-252`. -/
def timeMeasures : List Path :=
  ["_api", "_camera_ray", "_embree", "_filter", "_integrator_eval", "_integrator_intersect", "_integrator_nee",
   "_integrator_pre_process", "_integrator_rr", "_integrator", "_rendering", "_scene_parse",
   "_shader_media_eval", "_shader_media_pre_process", "_shader_media_sample", "_shader_media",
   "_shader_surface_eval", "_shader_surface_pre_process", "_shader_surface_sample", "_shader_surface",
   "_shader", "_debug_one", "_debug_two", "_debug_three"].map String.toList

/-- The images of the fixed part of a test's page, `src/test/site_assembler.cpp:147-209`. -/
def pageImages (s : Path) : List Path :=
  let im := "../images/".toList
  let graph := "clocking_logs/".toList ++ s ++ "/".toList ++ s
  [im ++ s ++ ".png".toList, im ++ s ++ "_ref.png".toList,
   im ++ s ++ ".png".toList, im ++ s ++ "_ref.png".toList,
   "../images/test_001_pos_error.png".toList, im ++ s ++ "_neg_error.png".toList,
   graph ++ "_time.png".toList, graph ++ "_error.png".toList, graph ++ "_MSE.png".toList,
   graph ++ "_rel_error.png".toList]

/-- `UnitTestSiteAssembler::create_test_html_page`, `src/test/site_assembler.cpp:117-303`. Printing a number
that was never set is undefined. -/
def testPage (l : Log) (d : Disk Img) : Res (Disk Img) :=
  match l.sqr, l.rel with
  | some sqr, some rel =>
    let s := pageStem l.name
    .ok (d.putPage (viewerDir ++ s ++ ".html".toList) (.test
      { title := s, images := pageImages s
        graphs := rowLoop 2 0 (timeMeasures.map fun m =>
          "clocking_logs/".toList ++ s ++ "/".toList ++ s ++ m ++ ".png".toList)
        meanAbs := l.error, meanSqr := sqr, meanRel := rel }))
  | _, _ => .ub "printing an error that was never set"

/-- The names on the home page, `src/test/site_assembler.cpp:35-46`. -/
def homeNames (entries : List Path) : List Path :=
  ((entries.filter isTest).map fun n => n.take (n.length - 5)).mergeSort fun a b => decide (a ≤ b)

/-- The rows of the home page, `src/test/site_assembler.cpp:65-87`. -/
def homeRows (entries : List Path) : List (Tok Link) :=
  rowLoop 3 0 ((homeNames entries).map fun s =>
    { href := s ++ ".html".toList, img := "../images/".toList ++ s ++ ".png".toList })

/-- `UnitTestSiteAssembler::create_global_html_page`, `src/test/site_assembler.cpp:22-115`. -/
def homePage (entries : List Path) (d : Disk Img) : Disk Img :=
  d.putPage (viewerDir ++ "home.html".toList) (.home (homeRows entries))

/-- The runs of one test scene, `src/test/tester.cpp:92-105`: `runs` times, with the same log. -/
def evalRuns (w : World Img) : Nat → Log → Bool → Disk Img → Res (Log × Bool × Disk Img)
  | 0, l, passes, d => .ok (l, passes, d)
  | k + 1, l, passes, d => do
    let (l, d) ← evaluate w l d
    evalRuns w k l (if l.fails then false else passes) d

/-- One pass of the loop over the tests, `src/test/tester.cpp:81-122`. -/
def runOne (w : World Img) (referenceRun : Bool) (runs : Nat) (n : Path) (passes : Bool) (d : Disk Img) :
    Res (Bool × Disk Img) := do
  let l := Log.new (scenesDir ++ n) n
  if referenceRun then
    let d ← replace w l d
    let d ← testPage l d
    pure (passes, d)
  else
    let (l, passes, d) ← evalRuns w runs l passes d
    let d ← testPage l d
    pure (passes, d)

/-- The loop over the tests. -/
def runTests (w : World Img) (referenceRun : Bool) (runs : Nat) :
    List Path → Bool → Disk Img → Res (Bool × Disk Img)
  | [], passes, d => .ok (passes, d)
  | n :: ns, passes, d => do
    let (passes, d) ← runOne w referenceRun runs n passes d
    runTests w referenceRun runs ns passes d

/-- `UnitTestManager::run_all_tests`, `src/test/tester.cpp:56-127`, for a directory that can be opened: the
directory is read once for the tests (`entries`) and again for the home page (`entries'`). -/
def runAll (w : World Img) (referenceRun : Bool) (runs : Nat) (entries entries' : List Path) (d : Disk Img) :
    Res (Bool × Disk Img) := do
  let (passes, d) ← runTests w referenceRun runs (entries.filter isTest) true d
  pure (passes, homePage entries' d)

/-- `UnitTestManager::run_test`, `src/test/tester.cpp:37-54`, with its files: both path and name of the test
are its file name. -/
def runSingle (w : World Img) (referenceRun : Bool) (index : Nat) (d : Disk Img) : Res (Bool × Disk Img) := do
  let n := "test_".toList ++ (zeroPadded index).map (fun k => Char.ofNat (48 + k)) ++ ".json".toList
  let l := Log.new n n
  if referenceRun then
    let d ← replace w l d
    pure (l.fails, d)
  else
    let (l, d) ← evaluate w l d
    pure (l.fails, d)

end Feign.Tools.Site
