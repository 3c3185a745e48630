import Verif.Tools.SiteLemmas
import Mathlib.Data.List.Perm.Basic
import Mathlib.Data.List.Sort
import Mathlib.Data.List.Count

/-!
# C108, C109: the results site and the reference images
-/

set_option linter.unusedSimpArgs false
set_option linter.unusedVariables false

namespace Feign.Tools.Site

open Feign.Tools

variable {Img : Type}

/-! ### Specification -/

/-- A page holds the items in order, in rows that open and close: no row is empty, none has more than `per`
items, and all but the last are full. -/
def InRows {α : Type} (per : Nat) (items : List α) (page : List (Tok α)) : Prop :=
  ∃ rows : List (List α), rows.flatten = items ∧ (∀ r ∈ rows, r ≠ [] ∧ r.length ≤ per) ∧
    (∀ r ∈ rows.dropLast, r.length = per) ∧
    page = rows.flatMap fun r => Tok.openRow :: (r.map Tok.item ++ [Tok.closeRow])

/-- Where a reference on a page of the viewer leads. -/
def resolve (p : Path) : Path :=
  if p.take 3 = "../".toList then "../scenes/unit_tests/".toList ++ p.drop 3 else viewerDir ++ p

/-- The page that a finished test run leaves for the test `s`. -/
def pageAt (d : Disk Img) (s : Path) : Option Page := d.pages (viewerDir ++ s ++ ".html".toList)

/-- The listed property of the site (C108): after a test run, the page of every test is there, reports the
errors of this run against the reference and shows the images of this run. -/
def SiteCorrect (Img : Type) : Prop :=
  ∀ (w : World Img) (k : Nat) (entries : List Path) (passes : Bool) (d d' : Disk Img),
    runAll w false (k + 1) entries entries d = .ok (passes, d') → ∀ s, s ≠ [] → file s ∈ entries →
    ∃ image ref page, w.render (scenesDir ++ file s) = some image ∧
      w.load (d.images (imagesDir ++ s ++ "_ref.exr".toList)) = .ok ref ∧
      pageAt d' s = some (.test page) ∧
      (page.title, page.meanAbs, page.meanSqr, page.meanRel) =
        (s, w.meanAbs image ref, w.meanSqr image ref, w.meanRel image ref) ∧
      ∀ i ∈ [image, w.posPart image ref, w.negPart image ref],
        ∃ p ∈ page.images, d'.images (resolve p) = some (w.png i)

/-- The listed property of the references (C109): a test run changes no reference image. -/
def ReferencesKept (Img : Type) : Prop :=
  ∀ (w : World Img) (k : Nat) (entries : List Path) (passes : Bool) (d d' : Disk Img),
    runAll w false (k + 1) entries entries d = .ok (passes, d') → ∀ s, s ≠ [] → file s ∈ entries →
    d'.images (imagesDir ++ s ++ "_ref.exr".toList) = d.images (imagesDir ++ s ++ "_ref.exr".toList)

/-- The listed property of replacing one reference (C109): afterwards it is the image of the scene that the
test of this number renders. -/
def SingleReference (Img : Type) : Prop :=
  ∀ (w : World Img) (index : Nat) (verdict : Bool) (d d' : Disk Img),
    runSingle w true index d = .ok (verdict, d') →
    ∀ (w' : World Img) (verdict' : Bool) (d'' : Disk Img), w'.render = w.render →
      (∀ i, w'.load (some i) = .ok i) →
      (∀ i, w'.meanAbs i i = some 0) →
      runSingle w' false index d' = .ok (verdict', d'') → verdict' = false

/-! ### Helpers -/

/-- The names of the tests among the entries, in directory order. -/
def stems (entries : List Path) : List Path := (entries.filter isTest).map fun n => n.take (n.length - 5)

private theorem take_file (s : Path) : (file s).take ((file s).length - 5) = s := by
  have h2 : (".json".toList : List Char).length = 5 := rfl
  unfold file
  rw [List.length_append, h2, Nat.add_sub_cancel, List.take_left]

private theorem stems_file (entries : List Path) : (stems entries).map file = entries.filter isTest := by
  unfold stems
  rw [List.map_map]
  conv_rhs => rw [← List.map_id (entries.filter isTest)]
  apply List.map_congr_left
  intro n hn
  obtain ⟨s, -, rfl⟩ := (isTest_iff n).1 (List.mem_filter.1 hn).2
  simp only [Function.comp_apply, id_eq]
  rw [take_file]

private theorem mem_stems (entries : List Path) (s : Path) : s ∈ stems entries ↔ s ≠ [] ∧ file s ∈ entries := by
  unfold stems
  rw [List.mem_map]
  constructor
  · rintro ⟨n, hn, rfl⟩
    obtain ⟨h1, h2⟩ := List.mem_filter.1 hn
    obtain ⟨s, hs, rfl⟩ := (isTest_iff n).1 h2
    rw [take_file]
    exact ⟨hs, h1⟩
  · rintro ⟨h1, h2⟩
    exact ⟨file s, List.mem_filter.2 ⟨h2, (isTest_iff _).2 ⟨s, h1, rfl⟩⟩, take_file s⟩

private theorem count_stems (entries : List Path) (s : Path) (hs : s ≠ []) :
    (stems entries).count s = entries.count (file s) := by
  have h1 : (stems entries).count s = ((stems entries).map file).count (file s) :=
    (List.count_map_of_injective _ file (fun _ _ h => file_injective h) s).symm
  rw [h1, stems_file, List.count_filter ((isTest_iff _).2 ⟨s, hs, rfl⟩)]

private theorem runAll_split (w : World Img) (b : Bool) (runs : Nat) (entries entries' : List Path) (passes : Bool)
    (d d' : Disk Img) (h : runAll w b runs entries entries' d = .ok (passes, d')) :
    ∃ d1, runTests w b runs ((stems entries).map file) true d = .ok (passes, d1) ∧ d' = homePage entries' d1 := by
  unfold runAll at h
  rw [Res.bind_eq_ok] at h
  obtain ⟨⟨p1, d1⟩, h1, h2⟩ := h
  simp only [Res.pure_eq, Res.ok.injEq, Prod.mk.injEq] at h2
  obtain ⟨rfl, rfl⟩ := h2
  exact ⟨d1, by rw [stems_file]; exact h1, rfl⟩

/-! ### The home page -/

/-- **C108, rows.** Whatever is listed, the loop arranges it in rows of `per`: every row that opens closes,
none is empty and only the last can be short. -/
theorem rows_closed {α : Type} (per : Nat) (hp : 0 < per) (items : List α) :
    InRows per items (rowLoop per 0 items) := by
  induction hn : items.length using Nat.strong_induction_on generalizing items with
  | _ n ih =>
    subst hn
    by_cases h0 : items = []
    · subst h0
      exact ⟨[], rfl, by simp, by simp, by simp [rowLoop]⟩
    by_cases hl : items.length < per
    · refine ⟨[items], by simp, ?_, by simp, ?_⟩
      · intro r hr
        rw [List.mem_singleton] at hr
        subst hr
        exact ⟨h0, hl.le⟩
      · rw [rowLoop_last per items h0 hl]
        simp
    · have hlen : (items.take per).length = per := by rw [List.length_take]; omega
      have hsplit : items = items.take per ++ items.drop per := (List.take_append_drop per items).symm
      obtain ⟨rows, r1, r2, r3, r4⟩ := ih (items.drop per).length
        (by rw [List.length_drop]; omega) (items.drop per) rfl
      refine ⟨items.take per :: rows, ?_, ?_, ?_, ?_⟩
      · rw [List.flatten_cons, r1]; exact hsplit.symm
      · intro r hr
        rcases List.mem_cons.1 hr with rfl | hr
        · refine ⟨fun e => ?_, hlen.le⟩
          rw [e] at hlen
          simp at hlen
          omega
        · exact r2 r hr
      · intro r hr
        cases rows with
        | nil => simp at hr
        | cons r' rows =>
          rw [List.dropLast_cons_cons] at hr
          rcases List.mem_cons.1 hr with rfl | hr
          · exact hlen
          · exact r3 r hr
      · conv_lhs => rw [hsplit]
        rw [rowLoop_full per _ _ hp hlen, r4]
        simp

/-- Seven items in rows of three. -/
example : InRows 3 [1, 2, 3, 4, 5, 6, 7] (rowLoop 3 0 [1, 2, 3, 4, 5, 6, 7]) ∧
    (rowLoop 3 0 [1, 2, 3, 4, 5, 6, 7]).length = 13 := ⟨rows_closed 3 (by norm_num) _, by decide⟩

/-- **C108, the home page.** The home page lists the tests in alphabetical order, in rows of three, each as
often as its file is in the directory (so once) and nothing else, whatever else the directory holds and in
whatever order it is read; each entry leads to the page of its test and shows the image of its test. -/
theorem home_page (entries : List Path) :
    ∃ names : List Path, names.Pairwise (· ≤ ·) ∧
      (∀ s, s ≠ [] → names.count s = entries.count (s ++ ".json".toList)) ∧ ([] : Path) ∉ names ∧
      InRows 3 (names.map fun s => (⟨s ++ ".html".toList, "../images/".toList ++ s ++ ".png".toList⟩ : Link))
        (homeRows entries) := by
  have hperm : (homeNames entries).Perm (stems entries) := List.mergeSort_perm _ _
  refine ⟨homeNames entries, ?_, ?_, ?_, rows_closed 3 (by norm_num) _⟩
  · have := List.pairwise_mergeSort (le := fun a b : Path => decide (a ≤ b))
      (fun a b c h1 h2 => by
        simp only [decide_eq_true_eq] at *
        exact le_trans h1 h2)
      (fun a b => by
        simp only [Bool.or_eq_true, decide_eq_true_eq]
        exact le_total a b)
      (stems entries)
    simp only [decide_eq_true_eq] at this
    exact this
  · intro s hs
    rw [hperm.count_eq, count_stems entries s hs]
    rfl
  · intro h
    exact ((mem_stems entries []).1 (hperm.mem_iff.1 h)).1 rfl

/-! ### The page of a test -/

/-- **C108 (partial: names without clashes, and not the positive error image).** After a test run that
finishes, the home page is the one of `home_page`, and the page of every test reports the three errors of
this run's image against the reference that was there before the run, and shows this run's image, the
reference and the negative error image. Missing: a test called `home` loses its page
(`home_test_refuted`), and the positive error image is always that of `test_001`
(`pos_error_image_refuted`). `Plain` excludes names that end in `_ref`, `_pos_error` or `_neg_error`. -/
theorem results_site_partial (w : World Img) (k : Nat) (entries entries' : List Path) (passes : Bool)
    (d d' : Disk Img) (h : runAll w false (k + 1) entries entries' d = .ok (passes, d'))
    (hp : ∀ s, s ≠ [] → file s ∈ entries → Plain s) :
    pageAt d' "home".toList = some (.home (homeRows entries')) ∧
    ∀ s, s ≠ [] → file s ∈ entries → s ≠ "home".toList →
      ∃ image ref page, w.render (scenesDir ++ file s) = some image ∧
        w.load (d.images (imagesDir ++ s ++ "_ref.exr".toList)) = .ok ref ∧
        pageAt d' s = some (.test page) ∧
        (page.title, page.meanAbs, page.meanSqr, page.meanRel) =
          (s, w.meanAbs image ref, w.meanSqr image ref, w.meanRel image ref) ∧
        (∀ i ∈ [image, w.negPart image ref], ∃ p ∈ page.images, d'.images (resolve p) = some (w.png i)) ∧
        (∃ p ∈ page.images, p = "../images/".toList ++ s ++ "_ref.png".toList ∧
          d'.images (resolve p) = d.images (resolve p)) ∧
        InRows 2 (timeMeasures.map fun m =>
          "clocking_logs/".toList ++ s ++ "/".toList ++ s ++ m ++ ".png".toList) page.graphs := by
  obtain ⟨d1, h1, rfl⟩ := runAll_split w false _ entries entries' passes d d' h
  have hplain : ∀ s ∈ stems entries, Plain s := fun s hs => by
    obtain ⟨a, b⟩ := (mem_stems entries s).1 hs
    exact hp s a b
  obtain ⟨j1, j2, j3, j4⟩ := runTests_ok w k (stems entries) hplain true passes d d1 h1
  refine ⟨by rw [pageAt, home_path]; exact putPage_self _ _ _, fun s hs hm hh => ?_⟩
  obtain ⟨image, ref, a1, a2, a3, a4, a5, a6, a7⟩ := j4 s ((mem_stems entries s).2 ⟨hs, hm⟩)
  have himages : (homePage entries' d1).images = d1.images := rfl
  have hres : ∀ e : Path, resolve ("../images/".toList ++ s ++ e) = imagesDir ++ s ++ e := by
    intro e
    rfl
  have hpage : ∃ page, pageOf w s image ref = .test page ∧ page.images = pageImages s ∧
      (page.title, page.meanAbs, page.meanSqr, page.meanRel) =
        (s, w.meanAbs image ref, w.meanSqr image ref, w.meanRel image ref) ∧
      page.graphs = rowLoop 2 0 (timeMeasures.map fun m =>
        "clocking_logs/".toList ++ s ++ "/".toList ++ s ++ m ++ ".png".toList) := ⟨_, rfl, rfl, rfl, rfl⟩
  obtain ⟨page, g1, g2, g3, g4⟩ := hpage
  refine ⟨image, ref, page, a1, a2, ?_, g3, ?_, ?_, by rw [g4]; exact rows_closed 2 (by norm_num) _⟩
  · unfold pageAt homePage
    rw [putPage_ne, a3, g1]
    intro e
    rw [← home_path] at e
    exact hh (page_inj e)
  · intro i hi
    rw [himages]
    rcases List.mem_cons.1 hi with rfl | hi
    · exact ⟨"../images/".toList ++ s ++ ".png".toList, by simp only [g2, pageImages, List.mem_cons, true_or], by rw [hres, a5]⟩
    · rw [List.mem_singleton] at hi
      subst hi
      exact ⟨"../images/".toList ++ s ++ "_neg_error.png".toList, by simp only [g2, pageImages, List.mem_cons, true_or, or_true], by rw [hres, a7]⟩
  · refine ⟨"../images/".toList ++ s ++ "_ref.png".toList,
      by simp only [g2, pageImages, List.mem_cons, true_or, or_true], rfl, ?_⟩
    rw [himages, hres]
    exact j1 _ fun t ht => ref_not_written (f := ".png".toList) (hp s hs hm) (hplain t ht) (by decide)

/-- A world with two images `0` and `1`: every scene renders to `1`, the error is the difference. -/
def demoWorld : World Nat where
  render _ := some 1
  load o := match o with | some i => .ok i | none => .throw "missing"
  png i := i
  meanAbs i r := some ((i : Rat) - r)
  meanSqr i r := some (((i : Rat) - r) ^ 2)
  meanRel i r := some ((i : Rat) - r)
  posPart i r := 10 + (r - i)
  negPart i r := 20 + (i - r)

/-- All reference images are `0`. -/
def demoDisk : Disk Nat where
  images _ := some 0
  pages _ := none

private theorem demo_run (entries : List Path) (hp : ∀ n ∈ entries, isTest n = true) :
    ∃ passes d', runTests demoWorld false 1 entries true demoDisk = .ok (passes, d') := by
  suffices ∀ (entries : List Path) (hp : ∀ n ∈ entries, isTest n = true) (b : Bool) (d : Disk Nat)
      (hd : ∀ q, ∃ i, d.images q = some i), ∃ passes d', runTests demoWorld false 1 entries b d = .ok (passes, d') from
    this entries hp true demoDisk fun q => ⟨0, rfl⟩
  intro entries
  induction entries with
  | nil => intro _ b d _; exact ⟨b, d, rfl⟩
  | cons n ns ih =>
    intro hp b d hd
    obtain ⟨s, -, rfl⟩ := (isTest_iff n).1 (hp n (by simp))
    obtain ⟨i, hi⟩ := hd (imagesDir ++ s ++ "_ref.exr".toList)
    have hone := (runOne_ok demoWorld s 0 b d _).2 ⟨1, i, rfl, by rw [hi]; rfl, rfl⟩
    rw [runTests, hone, Res.bind_ok]
    apply ih fun m hm => hp m (List.mem_cons_of_mem _ hm)
    intro q
    show ∃ j, (shot demoWorld s 1 i d).images q = some j
    rw [shot_images]
    split_ifs
    · exact ⟨_, rfl⟩
    · exact ⟨_, rfl⟩
    · exact ⟨_, rfl⟩
    · exact ⟨_, rfl⟩
    · exact hd q

/-- Runs as in `results_site_partial` exist. -/
example : ∃ passes d', runAll demoWorld false 1 ["a.json".toList, "b.json".toList] ["b.json".toList, "a.json".toList]
    demoDisk = .ok (passes, d') := by
  obtain ⟨p, d1, h⟩ := demo_run ["a.json".toList, "b.json".toList] (by decide)
  refine ⟨p, homePage ["b.json".toList, "a.json".toList] d1, ?_⟩
  have : (["a.json".toList, "b.json".toList] : List Path).filter isTest = ["a.json".toList, "b.json".toList] := by
    decide
  rw [runAll, this, h]
  rfl

/-- What one test called `s` leaves behind in the demonstration world. -/
private theorem demo_single (s : Path) (hs : s ≠ []) :
    runAll demoWorld false 1 [file s] [file s] demoDisk =
      .ok ((true && !gt (demoWorld.meanAbs 1 0) 1), homePage [file s] ((shot demoWorld s 1 0 demoDisk).putPage
        (viewerDir ++ s ++ ".html".toList) (pageOf demoWorld s 1 0))) := by
  have hf : ([file s] : List Path).filter isTest = [file s] := by
    rw [List.filter_cons_of_pos ((isTest_iff _).2 ⟨s, hs, rfl⟩)]
    rfl
  have hone := (runOne_ok demoWorld s 0 true demoDisk _).2 ⟨1, 0, rfl, rfl, rfl⟩
  rw [runAll, hf, runTests, hone]
  rfl

/-- **C108 is false of the code, first reason.** The page of a test called `home` is overwritten by the home
page (`src/test/site_assembler.cpp:50` and `:124`). -/
theorem home_test_refuted : ¬ SiteCorrect Nat := by
  intro h
  obtain ⟨image, ref, page, -, -, h3, -⟩ := h demoWorld 0 ["home.json".toList] _ demoDisk _
    (demo_single "home".toList (by decide)) "home".toList (by decide) (by decide)
  have : pageAt (homePage [file "home".toList] ((shot demoWorld "home".toList 1 0 demoDisk).putPage
      (viewerDir ++ "home".toList ++ ".html".toList) (pageOf demoWorld "home".toList 1 0))) "home".toList =
      some (.home (homeRows [file "home".toList])) := by
    rw [pageAt, home_path]
    exact putPage_self _ _ _
  rw [this] at h3
  exact Page.noConfusion (Option.some.inj h3)

/-- The property for tests that are not called `home`. -/
def SiteCorrectButHome (Img : Type) : Prop :=
  ∀ (w : World Img) (k : Nat) (entries : List Path) (passes : Bool) (d d' : Disk Img),
    runAll w false (k + 1) entries entries d = .ok (passes, d') → ∀ s, s ≠ [] → s ≠ "home".toList →
    file s ∈ entries →
    ∃ image ref page, w.render (scenesDir ++ file s) = some image ∧
      w.load (d.images (imagesDir ++ s ++ "_ref.exr".toList)) = .ok ref ∧
      pageAt d' s = some (.test page) ∧
      ∀ i ∈ [image, w.posPart image ref, w.negPart image ref],
        ∃ p ∈ page.images, d'.images (resolve p) = some (w.png i)

/-- **C108 is false of the code, second reason.** The page of every test shows the positive error image of
`test_001` (`src/test/site_assembler.cpp:179`): after a run of a test called `a` no image on its page is its
positive error image. -/
theorem pos_error_image_refuted : ¬ SiteCorrectButHome Nat := by
  intro h
  obtain ⟨image, ref, page, h1, h2, h3, h4⟩ := h demoWorld 0 ["a.json".toList] _ demoDisk _
    (demo_single "a".toList (by decide)) "a".toList (by decide) (by decide) (by decide)
  have e1 : image = 1 := (Option.some.inj h1).symm
  have e2 : ref = 0 := (Res.ok.inj h2).symm
  subst e1 e2
  have hpage : pageAt (homePage [file "a".toList] ((shot demoWorld "a".toList 1 0 demoDisk).putPage
      (viewerDir ++ "a".toList ++ ".html".toList) (pageOf demoWorld "a".toList 1 0))) "a".toList =
      some (pageOf demoWorld "a".toList 1 0) := by
    have : viewerDir ++ "a".toList ++ ".html".toList ≠ viewerDir ++ "home.html".toList := by decide
    rw [pageAt, homePage, putPage_ne _ _ _ _ this]
    exact putPage_self _ _ _
  rw [hpage] at h3
  have himg : page.images = pageImages "a".toList := by
    have h5 := Option.some.inj h3
    simp only [pageOf, Page.test.injEq] at h5
    rw [← h5]
  obtain ⟨p, hp, hq⟩ := h4 10 (by decide)
  rw [himg] at hp
  revert hq
  revert p
  have : ∀ p ∈ pageImages "a".toList, (shot demoWorld "a".toList 1 0 demoDisk).images (resolve p) ≠ some 10 := by
    decide +kernel
  intro p hp hq
  exact this p hp hq

/-- **C108, what the pages show instead**: the positive error image on every page is that of `test_001`. -/
theorem pos_error_image_fixed (s : Path) :
    (pageImages s)[4]? = some "../images/test_001_pos_error.png".toList ∧
    resolve "../images/test_001_pos_error.png".toList = imagesDir ++ "test_001".toList ++ "_pos_error.png".toList :=
  ⟨rfl, by decide⟩

/-! ### References -/

/-- **C109, test runs (partial: names without clashes).** A test run that finishes leaves every reference image
as it was, and its verdict is that every test's image is within the threshold of its own reference. Missing:
names that end in `_ref` (`references_kept_refuted`). -/
theorem references_kept_partial (w : World Img) (k : Nat) (entries entries' : List Path) (passes : Bool)
    (d d' : Disk Img) (h : runAll w false (k + 1) entries entries' d = .ok (passes, d'))
    (hp : ∀ s, s ≠ [] → file s ∈ entries → Plain s) :
    (∀ s, s ≠ [] → file s ∈ entries → d'.images (imagesDir ++ s ++ "_ref.exr".toList) =
      d.images (imagesDir ++ s ++ "_ref.exr".toList)) ∧
    (passes = true ↔ ∀ s, s ≠ [] → file s ∈ entries → ∃ image ref,
      w.render (scenesDir ++ file s) = some image ∧
      w.load (d.images (imagesDir ++ s ++ "_ref.exr".toList)) = .ok ref ∧ gt (w.meanAbs image ref) 1 = false) := by
  obtain ⟨d1, h1, rfl⟩ := runAll_split w false _ entries entries' passes d d' h
  have hplain : ∀ s ∈ stems entries, Plain s := fun s hs => by
    obtain ⟨a, b⟩ := (mem_stems entries s).1 hs
    exact hp s a b
  obtain ⟨j1, j2, j3, j4⟩ := runTests_ok w k (stems entries) hplain true passes d d1 h1
  refine ⟨fun s hs hm => ?_, ?_⟩
  · show d1.images _ = _
    exact j1 _ fun t ht => ref_not_written (f := ".exr".toList) (hp s hs hm) (hplain t ht) (by decide)
  · rw [j3]
    constructor
    · rintro ⟨-, h2⟩ s hs hm
      obtain ⟨image, ref, a1, a2, -⟩ := j4 s ((mem_stems entries s).2 ⟨hs, hm⟩)
      exact ⟨image, ref, a1, a2, h2 s ((mem_stems entries s).2 ⟨hs, hm⟩) image ref a1 a2⟩
    · intro h2
      refine ⟨rfl, fun s hs image ref a1 a2 => ?_⟩
      obtain ⟨hs', hm⟩ := (mem_stems entries s).1 hs
      obtain ⟨image', ref', b1, b2, b3⟩ := h2 s hs' hm
      rw [a1] at b1
      rw [a2] at b2
      rw [Option.some.inj b1, Res.ok.inj b2]
      exact b3

/-- **C109 is false of the code, first reason.** With tests `a` and `a_ref` the test run replaces the reference
of `a` by the image of `a_ref`. -/
theorem references_kept_refuted : ¬ ReferencesKept Nat := by
  intro h
  have ha := (runOne_ok demoWorld "a".toList 0 true demoDisk _).2 ⟨1, 0, rfl, rfl, rfl⟩
  have hb := (runOne_ok demoWorld "a_ref".toList 0 (true && !gt (demoWorld.meanAbs 1 0) 1)
    ((shot demoWorld "a".toList 1 0 demoDisk).putPage
      (viewerDir ++ "a".toList ++ ".html".toList) (pageOf demoWorld "a".toList 1 0)) _).2
    ⟨1, 0, rfl, by decide +kernel, rfl⟩
  have hf : (["a.json".toList, "a_ref.json".toList] : List Path).filter isTest =
      [file "a".toList, file "a_ref".toList] := by decide
  have hrun : ∃ passes d', runAll demoWorld false 1 ["a.json".toList, "a_ref.json".toList]
      ["a.json".toList, "a_ref.json".toList] demoDisk = .ok (passes, d') ∧
      d'.images (imagesDir ++ "a".toList ++ "_ref.exr".toList) = some 1 := by
    rw [runAll, hf, runTests, ha, Res.bind_ok]
    simp only
    rw [runTests, hb, Res.bind_ok]
    simp only
    rw [runTests, Res.bind_ok]
    refine ⟨_, _, rfl, ?_⟩
    show (shot demoWorld "a_ref".toList 1 0 ((shot demoWorld "a".toList 1 0 demoDisk).putPage
      (viewerDir ++ "a".toList ++ ".html".toList) (pageOf demoWorld "a".toList 1 0))).images
      (imagesDir ++ "a".toList ++ "_ref.exr".toList) = some 1
    rw [shot_images]
    decide +kernel
  obtain ⟨passes, d', hrun, himg⟩ := hrun
  have := h demoWorld 0 _ passes demoDisk d' hrun "a".toList (by decide) (by decide)
  rw [himg] at this
  revert this
  decide

/-- **C109 is false of the code, second reason.** Replacing all references prints numbers that were never set
as soon as there is one test: the run has undefined behaviour, or has failed before (`tester.h:18-42` leaves
`image_sqr_error` and `image_rel_error` unset, `src/test/site_assembler.cpp:190-191` prints them). -/
theorem reference_run_undefined (w : World Img) (runs : Nat) (entries entries' : List Path) (d : Disk Img)
    (ht : ∃ s, s ≠ [] ∧ file s ∈ entries) : (runAll w true runs entries entries' d).isUb = true := by
  have hne : entries.filter isTest ≠ [] := by
    obtain ⟨s, hs, hm⟩ := ht
    intro e
    have : file s ∈ entries.filter isTest := List.mem_filter.2 ⟨hm, (isTest_iff _).2 ⟨s, hs, rfl⟩⟩
    rw [e] at this
    exact absurd this List.not_mem_nil
  unfold runAll
  generalize entries.filter isTest = ns at hne
  match ns, hne with
  | n :: ns, _ =>
    have : (runOne w true runs n true d).isUb = true := by
      unfold runOne replace
      simp only [if_true]
      cases w.render (Log.new (scenesDir ++ n) n).path <;> rfl
    rw [runTests]
    cases hr : runOne w true runs n true d with
    | ub why => rfl
    | ok r => rw [hr] at this; exact absurd this (by simp [Res.isUb])
    | throw m => rw [hr] at this; exact absurd this (by simp [Res.isUb])

example : ∃ s : Path, s ≠ [] ∧ file s ∈ ["a.json".toList] := ⟨"a".toList, by decide, by decide⟩

/-- Replacing the references of the tests `ss` one after the other, leaving out the pages. -/
def replaceAll (w : World Img) : List Path → Disk Img → Res (Disk Img)
  | [], d => .ok d
  | s :: ss, d => do
    let d ← replace w (Log.new (scenesDir ++ file s) (file s)) d
    replaceAll w ss d

private theorem replace_ok (w : World Img) (p s : Path) (d d' : Disk Img)
    (h : replace w (Log.new p (file s)) d = .ok d') :
    ∃ image, w.render p = some image ∧
      ∀ q, d'.images q = if q = imagesDir ++ s ++ "_ref.png".toList then some (w.png image)
        else if q = imagesDir ++ s ++ "_ref.exr".toList then some image else d.images q := by
  unfold replace at h
  simp only [Log.new, stem_file] at h
  cases hr : w.render p with
  | none => rw [hr] at h; simp at h
  | some image =>
    rw [hr] at h
    simp only [Res.ok.injEq] at h
    refine ⟨image, rfl, fun q => ?_⟩
    rw [← h]
    rfl

private theorem replaceAll_ok (w : World Img) (ss : List Path) (d d' : Disk Img) (h : replaceAll w ss d = .ok d') :
    (∀ s, s ∉ ss → d'.images (imagesDir ++ s ++ "_ref.exr".toList) = d.images (imagesDir ++ s ++ "_ref.exr".toList)) ∧
    ∀ s ∈ ss, ∃ image, w.render (scenesDir ++ file s) = some image ∧
      d'.images (imagesDir ++ s ++ "_ref.exr".toList) = some image := by
  induction ss generalizing d with
  | nil =>
    simp only [replaceAll, Res.ok.injEq] at h
    subst h
    simp
  | cons s ss ih =>
    rw [replaceAll, Res.bind_eq_ok] at h
    obtain ⟨d1, h1, h2⟩ := h
    obtain ⟨image, r1, r2⟩ := replace_ok w _ s d d1 h1
    obtain ⟨i1, i2⟩ := ih d1 h2
    have png : ∀ t : Path, imagesDir ++ t ++ "_ref.exr".toList ≠ imagesDir ++ s ++ "_ref.png".toList := by
      intro t e
      have := (List.append_inj' e rfl).2
      revert this
      decide
    refine ⟨fun t ht => ?_, fun t ht => ?_⟩
    · rw [List.mem_cons, not_or] at ht
      rw [i1 t ht.2, r2, if_neg (png t), if_neg]
      intro e
      exact ht.1 (List.append_cancel_left (List.append_cancel_right e))
    · by_cases hts : t ∈ ss
      · exact i2 t hts
      · have : t = s := by
          rcases List.mem_cons.1 ht with h | h
          · exact h
          · exact absurd h hts
        subst this
        refine ⟨image, r1, ?_⟩
        rw [i1 t hts, r2, if_neg (png t), if_pos rfl]

/-- **C109, references and tests (partial: names without clashes, and the pages of the reference run left
out).** Once the references of all tests have been replaced with one version of the renderer (`w₀`), a test
run with another version (`w`) passes exactly when every scene's image is within the threshold of what the
first version rendered from the same scene. -/
theorem references_then_tests_partial (w₀ w : World Img) (k : Nat) (entries entries' : List Path) (passes : Bool)
    (d d₁ d' : Disk Img) (hload : ∀ i, w.load (some i) = .ok i)
    (h₀ : replaceAll w₀ (stems entries) d = .ok d₁)
    (h : runAll w false (k + 1) entries entries' d₁ = .ok (passes, d'))
    (hp : ∀ s, s ≠ [] → file s ∈ entries → Plain s) :
    passes = true ↔ ∀ s, s ≠ [] → file s ∈ entries → ∃ image image₀,
      w.render (scenesDir ++ file s) = some image ∧ w₀.render (scenesDir ++ file s) = some image₀ ∧
      gt (w.meanAbs image image₀) 1 = false := by
  rw [(references_kept_partial w k entries entries' passes d₁ d' h hp).2]
  obtain ⟨-, hr⟩ := replaceAll_ok w₀ (stems entries) d d₁ h₀
  constructor
  · intro h2 s hs hm
    obtain ⟨image, ref, a1, a2, a3⟩ := h2 s hs hm
    obtain ⟨image₀, b1, b2⟩ := hr s ((mem_stems entries s).2 ⟨hs, hm⟩)
    rw [b2, hload] at a2
    rw [← Res.ok.inj a2] at a3
    exact ⟨image, image₀, a1, b1, a3⟩
  · intro h2 s hs hm
    obtain ⟨image, image₀, a1, a2, a3⟩ := h2 s hs hm
    obtain ⟨image₁, b1, b2⟩ := hr s ((mem_stems entries s).2 ⟨hs, hm⟩)
    rw [a2] at b1
    rw [← Option.some.inj b1] at b2
    exact ⟨image, image₀, a1, by rw [b2, hload], a3⟩

/-- In particular an unchanged renderer passes all tests against its own references. -/
theorem unchanged_passes_partial (w : World Img) (k : Nat) (entries entries' : List Path) (passes : Bool)
    (d d₁ d' : Disk Img) (hload : ∀ i, w.load (some i) = .ok i) (hself : ∀ i, w.meanAbs i i = some 0)
    (h₀ : replaceAll w (stems entries) d = .ok d₁)
    (h : runAll w false (k + 1) entries entries' d₁ = .ok (passes, d'))
    (hp : ∀ s, s ≠ [] → file s ∈ entries → Plain s) : passes = true := by
  rw [references_then_tests_partial w w k entries entries' passes d d₁ d' hload h₀ h hp]
  intro s hs hm
  obtain ⟨-, hr⟩ := replaceAll_ok w (stems entries) d d₁ h₀
  obtain ⟨image, b1, b2⟩ := hr s ((mem_stems entries s).2 ⟨hs, hm⟩)
  refine ⟨image, image, b1, b1, ?_⟩
  rw [hself]
  decide

/-- The name of test number `index`. -/
def singleName (index : Nat) : Path :=
  "test_".toList ++ (zeroPadded index).map (fun k => Char.ofNat (48 + k))

private theorem single_run (w : World Img) (b : Bool) (index : Nat) (d : Disk Img) :
    runSingle w b index d =
      (if b then (do let d ← replace w (Log.new (file (singleName index)) (file (singleName index))) d
                     pure ((Log.new (file (singleName index)) (file (singleName index))).fails, d))
       else (do let (l, d) ← evaluate w (Log.new (file (singleName index)) (file (singleName index))) d
                pure (l.fails, d))) := rfl

private theorem replace_cwd (w : World Img) (s : Path) (d d1 : Disk Img)
    (h1 : replace w (Log.new (file s) (file s)) d = .ok d1)
    (hcwd : w.render (file s) = w.render (scenesDir ++ file s)) :
    ∃ image, w.render (scenesDir ++ file s) = some image ∧
      d1.images (imagesDir ++ s ++ "_ref.exr".toList) = some image := by
  obtain ⟨image, r1, r2⟩ := replace_ok w _ s d d1 h1
  refine ⟨image, by rw [← hcwd, r1], ?_⟩
  have png : imagesDir ++ s ++ "_ref.exr".toList ≠ imagesDir ++ s ++ "_ref.png".toList := by
    intro e
    have := List.append_cancel_left e
    revert this
    decide
  rw [r2, if_neg png, if_pos rfl]

/-- **C109 for one test (partial: run from the folder with the scenes).** Replacing one reference renders the
file of that name in the current folder. If that is the same scene as the one in the folder of test scenes,
then the reference becomes the image of the scene the test renders. Missing for the full property: every
other current folder (`single_reference_refuted`). -/
theorem single_reference_partial (w : World Img) (index : Nat) (verdict : Bool) (d d' : Disk Img)
    (h : runSingle w true index d = .ok (verdict, d'))
    (hcwd : w.render (file (singleName index)) = w.render (scenesDir ++ file (singleName index))) :
    ∃ image, w.render (scenesDir ++ file (singleName index)) = some image ∧
      d'.images (imagesDir ++ singleName index ++ "_ref.exr".toList) = some image := by
  rw [single_run, if_pos rfl, Res.bind_eq_ok] at h
  obtain ⟨d1, h1, h2⟩ := h
  simp only [Res.pure_eq, Res.ok.injEq, Prod.mk.injEq] at h2
  obtain ⟨-, rfl⟩ := h2
  exact replace_cwd w _ d d1 h1 hcwd

/-- When there is no such file in the current folder, replacing one reference reads through a null pointer. -/
theorem single_reference_missing (w : World Img) (index : Nat) (d : Disk Img)
    (h : w.render (file (singleName index)) = none) : (runSingle w true index d).isUb = true := by
  rw [single_run, if_pos rfl]
  unfold replace
  simp only [Log.new]
  rw [h]
  rfl

/-- A world in which the file in the current folder is another scene. -/
def otherFolder : World Nat :=
  { demoWorld with
    render := fun p => if p = scenesDir ++ "test_001.json".toList then some 7 else some 1
    meanAbs := fun i r => some ((i : Rat) - r) }

/-- **C109 is false of the code, third reason.** With a different file of the same name in the current folder,
a test fails directly after its own reference was replaced (`src/test/tester.cpp:39-40` makes the bare file
name the path; `src/test/test.cpp:80` renders the path, `:24` the folder with the name). -/
theorem single_reference_refuted : ¬ SingleReference Nat := by
  intro h
  have n1 : singleName 1 = "test_001".toList := by decide +kernel
  have h1 : ∃ d', runSingle otherFolder true 1 demoDisk = .ok (false, d') ∧
      d'.images (imagesDir ++ "test_001".toList ++ "_ref.exr".toList) = some 1 := by
    rw [single_run, if_pos rfl, n1]
    refine ⟨_, rfl, ?_⟩
    decide +kernel
  obtain ⟨d', h1, h2⟩ := h1
  have he := (evaluate_ok otherFolder (Log.new (file "test_001".toList) (file "test_001".toList)) "test_001".toList
    rfl d' _).2 ⟨7, 1, by decide +kernel, by rw [h2]; rfl, rfl⟩
  have h3 : runSingle otherFolder false 1 d' = .ok (true, shot otherFolder "test_001".toList 7 1 d') := by
    rw [single_run, if_neg (by decide), n1, he, Res.bind_ok]
    have : (filled otherFolder (Log.new (file "test_001".toList) (file "test_001".toList)) 7 1).fails = true := by
      rw [filled_fails]
      decide +kernel
    simp only [this]
    rfl
  have := h otherFolder 1 false demoDisk d' h1 otherFolder true _ rfl (fun _ => rfl)
    (fun i => by show some ((i : Rat) - i) = some 0; rw [sub_self]) h3
  exact absurd this (by decide)

end Feign.Tools.Site
