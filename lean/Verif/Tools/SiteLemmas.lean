import Verif.Tools.Site
import Verif.Tools.TesterProps
import Mathlib.Data.List.Basic
import Mathlib.Order.Lex
import Mathlib.Data.Char

/-!
# Helper lemmas for `SiteProps`
-/

set_option linter.unusedSimpArgs false
set_option linter.unusedVariables false

namespace Feign.Tools.Site

open Feign.Tools

/-- The file name of the test called `s`. -/
def file (s : Path) : Path := s ++ ".json".toList

theorem isTest_iff (n : Path) : isTest n = true ↔ ∃ s, s ≠ [] ∧ n = file s := by
  unfold isTest file
  rw [Bool.and_eq_true, decide_eq_true_eq, beq_iff_eq]
  constructor
  · rintro ⟨h, e⟩
    refine ⟨n.take (n.length - 5), ?_, ?_⟩
    · intro h0
      have := congrArg List.length h0
      rw [List.length_take, List.length_nil] at this
      omega
    · conv_lhs => rw [← List.take_append_drop (n.length - 5) n]
      rw [e]
  · rintro ⟨s, hs, rfl⟩
    have h1 : 0 < s.length := List.length_pos_iff.2 hs
    have h2 : (".json".toList : List Char).length = 5 := rfl
    refine ⟨by rw [List.length_append, h2]; omega, ?_⟩
    rw [List.length_append, h2, Nat.add_sub_cancel, List.drop_left]

theorem lastDot_append (s r : Path) (k : Nat) (h : lastDot r = some k) : lastDot (s ++ r) = some (s.length + k) := by
  induction s with
  | nil => simpa using h
  | cons c cs ih =>
    rw [List.cons_append, lastDot, ih]
    simp only [List.length_cons]
    congr 1
    omega

theorem stem_file (s : Path) : stem (file s) = s := by
  have h : lastDot (file s) = some (s.length + 0) := lastDot_append s _ 0 (by decide)
  simp only [stem, h]
  simp [file]

theorem pageStem_file (s : Path) : pageStem (file s) = s := by
  have h2 : (".json".toList : List Char).length = 5 := rfl
  unfold pageStem file
  rw [if_neg (by rw [List.length_append, h2]; omega), List.length_append, h2, Nat.add_sub_cancel, List.take_left]

theorem file_injective {s t : Path} (h : file s = file t) : s = t := List.append_cancel_right h

/-! ### Rows -/

theorem rowLoop_fill {α : Type} (per : Nat) (pre rest : List α) (count : Nat) (h0 : 0 < count)
    (hp : pre ≠ []) (h : count + pre.length = per) :
    rowLoop per count (pre ++ rest) = pre.map Tok.item ++ Tok.closeRow :: rowLoop per 0 rest := by
  induction pre generalizing count with
  | nil => exact absurd rfl hp
  | cons a pre ih =>
    rw [List.cons_append, rowLoop, if_neg (by omega), List.nil_append]
    by_cases hpre : pre = []
    · subst hpre
      rw [if_pos (by simpa using h)]
      simp
    · have hl : 0 < pre.length := List.length_pos_iff.2 hpre
      rw [List.length_cons] at h
      rw [if_neg (by omega), ih (count + 1) (by omega) hpre (by omega)]
      simp

theorem rowLoop_short {α : Type} (per : Nat) (pre : List α) (count : Nat) (h0 : 0 < count)
    (h : count + pre.length < per) :
    rowLoop per count pre = pre.map Tok.item ++ [Tok.closeRow] := by
  induction pre generalizing count with
  | nil => simp [rowLoop]; omega
  | cons a pre ih =>
    rw [List.length_cons] at h
    rw [rowLoop, if_neg (by omega), if_neg (by omega), ih (count + 1) (by omega) (by omega)]
    simp

theorem rowLoop_full {α : Type} (per : Nat) (pre rest : List α) (hp : 0 < per) (h : pre.length = per) :
    rowLoop per 0 (pre ++ rest) =
      Tok.openRow :: (pre.map Tok.item ++ Tok.closeRow :: rowLoop per 0 rest) := by
  match pre, h with
  | [], h => simp at h; omega
  | a :: pre, h =>
    rw [List.length_cons] at h
    rw [List.cons_append, rowLoop, if_pos rfl]
    by_cases hpre : pre = []
    · subst hpre
      rw [if_pos (by simpa using h)]
      simp
    · have hl : 0 < pre.length := List.length_pos_iff.2 hpre
      rw [if_neg (by omega), rowLoop_fill per pre rest 1 (by omega) hpre (by omega)]
      simp

theorem rowLoop_last {α : Type} (per : Nat) (pre : List α) (hp : pre ≠ []) (h : pre.length < per) :
    rowLoop per 0 pre = Tok.openRow :: (pre.map Tok.item ++ [Tok.closeRow]) := by
  match pre, hp with
  | a :: pre, _ =>
    rw [List.length_cons] at h
    rw [rowLoop, if_pos rfl, if_neg (by omega), rowLoop_short per pre 1 (by omega) (by omega)]
    simp

/-! ### Paths of images -/

/-- The endings of image files between stem and format. -/
def marks : List Path := [[], "_pos_error".toList, "_neg_error".toList, "_ref".toList]

/-- The formats. -/
def formats : List Path := [".exr".toList, ".png".toList]

/-- A test name that is not another name with an ending the runner adds. -/
def Plain (s : Path) : Prop := ∀ m ∈ marks, m ≠ [] → ∀ t, s ≠ t ++ m

theorem marks_split {s t a b : Path} (hs : Plain s) (ht : Plain t) (ha : a ∈ marks) (hb : b ∈ marks)
    (h : s ++ a = t ++ b) : s = t ∧ a = b := by
  have key : ∀ (u v x y x' y' : Path), u ++ x = v ++ y → (∃ p, x = p ++ x') → (∃ q, y = q ++ y') →
      x'.length = y'.length → x' = y' := by
    rintro u v _ _ x' y' e ⟨p, rfl⟩ ⟨q, rfl⟩ hl
    rw [← List.append_assoc, ← List.append_assoc] at e
    exact (List.append_inj' e hl).2
  by_cases hab : a = b
  · subst hab; exact ⟨List.append_cancel_right h, rfl⟩
  exfalso
  by_cases ha0 : a = []
  · subst ha0
    rw [List.append_nil] at h
    exact hs b hb (fun e => hab e.symm) t h
  by_cases hb0 : b = []
  · subst hb0
    rw [List.append_nil] at h
    exact ht a ha ha0 s h.symm
  have hne : a.drop (a.length - 4) ≠ b.drop (b.length - 4) ∨ a.length = b.length := by
    revert hab ha0 hb0
    simp only [marks, List.mem_cons, List.not_mem_nil, or_false] at ha hb
    rcases ha with rfl | rfl | rfl | rfl <;> rcases hb with rfl | rfl | rfl | rfl <;> decide
  have hlen : (a.drop (a.length - 4)).length = (b.drop (b.length - 4)).length := by
    revert hab ha0 hb0
    simp only [marks, List.mem_cons, List.not_mem_nil, or_false] at ha hb
    rcases ha with rfl | rfl | rfl | rfl <;> rcases hb with rfl | rfl | rfl | rfl <;> decide
  rcases hne with hne | hl
  · exact hne (key s t a b _ _ h ⟨a.take (a.length - 4), (List.take_append_drop _ _).symm⟩
      ⟨b.take (b.length - 4), (List.take_append_drop _ _).symm⟩ hlen)
  · exact hab (List.append_inj' h hl).2

/-- Where an image of a test is. -/
def imagePath (s m f : Path) : Path := imagesDir ++ s ++ (m ++ f)

theorem imagePath_inj {s t a b e f : Path} (hs : Plain s) (ht : Plain t) (ha : a ∈ marks) (hb : b ∈ marks)
    (he : e ∈ formats) (hf : f ∈ formats) (h : imagePath s a e = imagePath t b f) : s = t ∧ a = b ∧ e = f := by
  unfold imagePath at h
  rw [List.append_assoc, List.append_assoc] at h
  have h1 := List.append_cancel_left h
  rw [← List.append_assoc, ← List.append_assoc] at h1
  have hl : e.length = f.length := by
    simp only [formats, List.mem_cons, List.not_mem_nil, or_false] at he hf
    rcases he with rfl | rfl <;> rcases hf with rfl | rfl <;> rfl
  obtain ⟨h2, h3⟩ := List.append_inj' h1 hl
  obtain ⟨h4, h5⟩ := marks_split hs ht ha hb h2
  exact ⟨h4, h5, h3⟩

/-! ### One test -/

variable {Img : Type}

/-- The files after a test run of the test `s` with image and reference. -/
def shot (w : World Img) (s : Path) (image ref : Img) (d : Disk Img) : Disk Img :=
  (((d.putImage (imagesDir ++ s ++ ".exr".toList) image).putImage (imagesDir ++ s ++ ".png".toList)
    (w.png image)).putImage (imagesDir ++ s ++ "_pos_error.png".toList) (w.png (w.posPart image ref))).putImage
    (imagesDir ++ s ++ "_neg_error.png".toList) (w.png (w.negPart image ref))

/-- The log after a test run. -/
def filled (w : World Img) (l : Log) (image ref : Img) : Log :=
  { l with error := w.meanAbs image ref, rel := some (w.meanRel image ref), sqr := some (w.meanSqr image ref) }

theorem evaluate_ok (w : World Img) (l : Log) (s : Path) (hl : l.name = file s) (d : Disk Img) (r : Log × Disk Img) :
    evaluate w l d = .ok r ↔ ∃ image ref, w.render (scenesDir ++ file s) = some image ∧
      w.load (d.images (imagesDir ++ s ++ "_ref.exr".toList)) = .ok ref ∧
      r = (filled w l image ref, shot w s image ref d) := by
  obtain ⟨path, name, e, sq, rl⟩ := l
  simp only at hl
  subst hl
  unfold evaluate
  simp only [stem_file]
  cases hr : w.render (scenesDir ++ file s) with
  | none => simp
  | some image =>
    simp only [Option.some.injEq]
    rw [Res.bind_eq_ok]
    constructor
    · rintro ⟨ref, h1, h2⟩
      refine ⟨image, ref, rfl, h1, ?_⟩
      simp only [Res.pure_eq, Res.ok.injEq] at h2
      rw [← h2]
      rfl
    · rintro ⟨image', ref, h0, h1, h2⟩
      subst h0
      refine ⟨ref, h1, ?_⟩
      rw [h2]
      rfl

theorem shot_pages (w : World Img) (s : Path) (image ref : Img) (d : Disk Img) :
    (shot w s image ref d).pages = d.pages := rfl

theorem shot_images (w : World Img) (s : Path) (image ref : Img) (d : Disk Img) (q : Path) :
    (shot w s image ref d).images q =
      if q = imagesDir ++ s ++ "_neg_error.png".toList then some (w.png (w.negPart image ref))
      else if q = imagesDir ++ s ++ "_pos_error.png".toList then some (w.png (w.posPart image ref))
      else if q = imagesDir ++ s ++ ".png".toList then some (w.png image)
      else if q = imagesDir ++ s ++ ".exr".toList then some image
      else d.images q := rfl

theorem shot_ref (w : World Img) (s : Path) (image ref : Img) (d : Disk Img) :
    (shot w s image ref d).images (imagesDir ++ s ++ "_ref.exr".toList) =
      d.images (imagesDir ++ s ++ "_ref.exr".toList) := by
  rw [shot_images, if_neg, if_neg, if_neg, if_neg]
  all_goals
    intro h
    have := List.append_cancel_left h
    revert this
    decide

theorem shot_twice (w : World Img) (s : Path) (image ref : Img) (d : Disk Img) :
    shot w s image ref (shot w s image ref d) = shot w s image ref d := by
  have : ∀ q, (shot w s image ref (shot w s image ref d)).images q = (shot w s image ref d).images q := by
    intro q
    simp only [shot_images]
    split_ifs <;> rfl
  have h2 : (shot w s image ref (shot w s image ref d)).pages = (shot w s image ref d).pages := rfl
  generalize shot w s image ref (shot w s image ref d) = x at *
  generalize shot w s image ref d = y at *
  cases x; cases y
  simp only at this h2
  rw [h2, funext this]

theorem filled_twice (w : World Img) (l : Log) (image ref : Img) :
    filled w (filled w l image ref) image ref = filled w l image ref := rfl

theorem filled_fails (w : World Img) (l : Log) (image ref : Img) :
    (filled w l image ref).fails = gt (w.meanAbs image ref) 1 := rfl

theorem evalRuns_ok (w : World Img) (s : Path) (k : Nat) (l : Log) (hl : l.name = file s) (passes : Bool)
    (d : Disk Img) (r : Log × Bool × Disk Img) :
    evalRuns w (k + 1) l passes d = .ok r ↔ ∃ image ref, w.render (scenesDir ++ file s) = some image ∧
      w.load (d.images (imagesDir ++ s ++ "_ref.exr".toList)) = .ok ref ∧
      r = (filled w l image ref, (passes && !gt (w.meanAbs image ref) 1), shot w s image ref d) := by
  have step : ∀ (l : Log) (image ref : Img) (passes : Bool),
      (if (filled w l image ref).fails then false else passes) = (passes && !gt (w.meanAbs image ref) 1) := by
    intro l image ref passes
    rw [filled_fails]
    cases gt (w.meanAbs image ref) 1 <;> simp
  have again : ∀ (k : Nat) (l : Log) (hl : l.name = file s) (passes : Bool) (d : Disk Img) (image ref : Img),
      w.render (scenesDir ++ file s) = some image →
      w.load (d.images (imagesDir ++ s ++ "_ref.exr".toList)) = .ok ref →
      evalRuns w k (filled w l image ref) (passes && !gt (w.meanAbs image ref) 1) (shot w s image ref d) =
        .ok (filled w l image ref, (passes && !gt (w.meanAbs image ref) 1), shot w s image ref d) := by
    intro k
    induction k with
    | zero => intros; rfl
    | succ k ih =>
      intro l hl passes d image ref h1 h2
      have he : evaluate w (filled w l image ref) (shot w s image ref d) =
          .ok (filled w l image ref, shot w s image ref d) := by
        rw [evaluate_ok w (filled w l image ref) s hl]
        exact ⟨image, ref, h1, by rw [shot_ref]; exact h2, by rw [filled_twice, shot_twice]⟩
      rw [evalRuns, he, Res.bind_ok]
      simp only
      rw [step, Bool.and_assoc, Bool.and_self]
      exact ih l hl passes d image ref h1 h2
  rw [evalRuns, Res.bind_eq_ok]
  constructor
  · rintro ⟨⟨l', d'⟩, he, hr⟩
    rw [evaluate_ok w l s hl] at he
    obtain ⟨image, ref, h1, h2, h3⟩ := he
    obtain ⟨rfl, rfl⟩ := Prod.mk.inj h3
    refine ⟨image, ref, h1, h2, ?_⟩
    simp only at hr
    rw [step, again k l hl passes d image ref h1 h2] at hr
    exact (Res.ok.inj hr).symm
  · rintro ⟨image, ref, h1, h2, rfl⟩
    refine ⟨_, (evaluate_ok w l s hl d _).2 ⟨image, ref, h1, h2, rfl⟩, ?_⟩
    simp only
    rw [step, again k l hl passes d image ref h1 h2]

/-- The page of the test `s` for an image and a reference. -/
def pageOf (w : World Img) (s : Path) (image ref : Img) : Page :=
  .test { title := s, images := pageImages s
          graphs := rowLoop 2 0 (timeMeasures.map fun m =>
            "clocking_logs/".toList ++ s ++ "/".toList ++ s ++ m ++ ".png".toList)
          meanAbs := w.meanAbs image ref, meanSqr := w.meanSqr image ref, meanRel := w.meanRel image ref }

theorem runOne_ok (w : World Img) (s : Path) (k : Nat) (passes : Bool) (d : Disk Img) (r : Bool × Disk Img) :
    runOne w false (k + 1) (file s) passes d = .ok r ↔ ∃ image ref, w.render (scenesDir ++ file s) = some image ∧
      w.load (d.images (imagesDir ++ s ++ "_ref.exr".toList)) = .ok ref ∧
      r = ((passes && !gt (w.meanAbs image ref) 1),
        (shot w s image ref d).putPage (viewerDir ++ s ++ ".html".toList) (pageOf w s image ref)) := by
  unfold runOne
  simp only [Bool.false_eq_true, if_false]
  rw [Res.bind_eq_ok]
  have page : ∀ (l : Log) (hl : l.name = file s) (image ref : Img) (d : Disk Img),
      testPage (filled w l image ref) d =
        .ok (d.putPage (viewerDir ++ s ++ ".html".toList) (pageOf w s image ref)) := by
    intro l hl image ref d
    have : pageStem (filled w l image ref).name = s := by
      show pageStem l.name = s
      rw [hl, pageStem_file]
    simp only [testPage, filled]
    show Res.ok _ = _
    rw [hl, pageStem_file]
    rfl
  constructor
  · rintro ⟨⟨l', p', d'⟩, he, hr⟩
    rw [evalRuns_ok w s k _ rfl] at he
    obtain ⟨image, ref, h1, h2, h3⟩ := he
    obtain ⟨rfl, h4⟩ := Prod.mk.inj h3
    obtain ⟨rfl, rfl⟩ := Prod.mk.inj h4
    refine ⟨image, ref, h1, h2, ?_⟩
    simp only at hr
    rw [page _ rfl, Res.bind_ok] at hr
    exact (Res.ok.inj hr).symm
  · rintro ⟨image, ref, h1, h2, rfl⟩
    refine ⟨_, (evalRuns_ok w s k _ rfl passes d _).2 ⟨image, ref, h1, h2, rfl⟩, ?_⟩
    simp only
    rw [page _ rfl, Res.bind_ok]
    rfl

/-- The images a test run of `s` writes. -/
def written (s : Path) : List Path :=
  [imagesDir ++ s ++ ".exr".toList, imagesDir ++ s ++ ".png".toList, imagesDir ++ s ++ "_pos_error.png".toList,
   imagesDir ++ s ++ "_neg_error.png".toList]

theorem shot_frame (w : World Img) (s : Path) (image ref : Img) (d : Disk Img) (q : Path) (h : q ∉ written s) :
    (shot w s image ref d).images q = d.images q := by
  simp only [written, List.mem_cons, List.not_mem_nil, or_false, not_or] at h
  rw [shot_images, if_neg h.2.2.2, if_neg h.2.2.1, if_neg h.2.1, if_neg h.1]

theorem mem_written (s q : Path) : q ∈ written s ↔ ∃ m f, m ∈ marks ∧ f ∈ formats ∧ q = imagePath s m f ∧
    m ≠ "_ref".toList ∧ (m = [] ∨ f = ".png".toList) := by
  constructor
  · intro h
    simp only [written, List.mem_cons, List.not_mem_nil, or_false] at h
    rcases h with rfl | rfl | rfl | rfl
    · exact ⟨[], ".exr".toList, by decide, by decide, rfl, by decide, Or.inl rfl⟩
    · exact ⟨[], ".png".toList, by decide, by decide, rfl, by decide, Or.inl rfl⟩
    · exact ⟨"_pos_error".toList, ".png".toList, by decide, by decide, rfl, by decide, Or.inr rfl⟩
    · exact ⟨"_neg_error".toList, ".png".toList, by decide, by decide, rfl, by decide, Or.inr rfl⟩
  · rintro ⟨m, f, hm, hf, rfl, h1, h2⟩
    simp only [marks, formats, List.mem_cons, List.not_mem_nil, or_false] at hm hf
    rcases hm with rfl | rfl | rfl | rfl <;> rcases hf with rfl | rfl
    all_goals first
      | exact absurd rfl h1
      | (exfalso; rcases h2 with h2 | h2 <;> exact absurd h2 (by decide))
      | (simp only [written, imagePath, List.mem_cons]; tauto)

theorem written_disjoint {s t q : Path} (hs : Plain s) (ht : Plain t) (h1 : q ∈ written s) (h2 : q ∈ written t) :
    s = t := by
  rw [mem_written] at h1 h2
  obtain ⟨m, f, hm, hf, rfl, -, -⟩ := h1
  obtain ⟨m', f', hm', hf', h, -, -⟩ := h2
  exact (imagePath_inj hs ht hm hm' hf hf' h).1

theorem ref_not_written {s t f : Path} (hs : Plain s) (ht : Plain t) (hf : f ∈ formats) :
    imagesDir ++ s ++ ("_ref".toList ++ f) ∉ written t := by
  intro h
  rw [mem_written] at h
  obtain ⟨m, f', hm, hf', h, h1, -⟩ := h
  exact h1 (imagePath_inj hs ht (by decide) hm hf hf' h).2.1.symm

theorem page_inj {s t : Path} (h : viewerDir ++ s ++ ".html".toList = viewerDir ++ t ++ ".html".toList) : s = t :=
  List.append_cancel_left (List.append_cancel_right h)

theorem putPage_self (d : Disk Img) (p : Path) (g : Page) : (d.putPage p g).pages p = some g := if_pos rfl

theorem putPage_ne (d : Disk Img) (p q : Path) (g : Page) (h : q ≠ p) : (d.putPage p g).pages q = d.pages q :=
  if_neg h

theorem putImage_self (d : Disk Img) (p : Path) (i : Img) : (d.putImage p i).images p = some i := if_pos rfl

theorem putImage_ne (d : Disk Img) (p q : Path) (i : Img) (h : q ≠ p) : (d.putImage p i).images q = d.images q :=
  if_neg h

theorem home_path : viewerDir ++ "home".toList ++ ".html".toList = viewerDir ++ "home.html".toList := by decide

/-! ### All tests -/

/-- What a test run of all tests leaves behind. -/
theorem runTests_ok (w : World Img) (k : Nat) (ss : List Path) (hp : ∀ s ∈ ss, Plain s) (passes passes' : Bool)
    (d d' : Disk Img) (h : runTests w false (k + 1) (ss.map file) passes d = .ok (passes', d')) :
    (∀ q, (∀ s ∈ ss, q ∉ written s) → d'.images q = d.images q) ∧
    (∀ q, (∀ s ∈ ss, q ≠ viewerDir ++ s ++ ".html".toList) → d'.pages q = d.pages q) ∧
    (passes' = true ↔ passes = true ∧ ∀ s ∈ ss, ∀ image ref, w.render (scenesDir ++ file s) = some image →
      w.load (d.images (imagesDir ++ s ++ "_ref.exr".toList)) = .ok ref → gt (w.meanAbs image ref) 1 = false) ∧
    ∀ s ∈ ss, ∃ image ref, w.render (scenesDir ++ file s) = some image ∧
      w.load (d.images (imagesDir ++ s ++ "_ref.exr".toList)) = .ok ref ∧
      d'.pages (viewerDir ++ s ++ ".html".toList) = some (pageOf w s image ref) ∧
      d'.images (imagesDir ++ s ++ ".exr".toList) = some image ∧
      d'.images (imagesDir ++ s ++ ".png".toList) = some (w.png image) ∧
      d'.images (imagesDir ++ s ++ "_pos_error.png".toList) = some (w.png (w.posPart image ref)) ∧
      d'.images (imagesDir ++ s ++ "_neg_error.png".toList) = some (w.png (w.negPart image ref)) := by
  induction ss generalizing passes d with
  | nil =>
    simp only [List.map_nil, runTests, Res.ok.injEq, Prod.mk.injEq] at h
    obtain ⟨rfl, rfl⟩ := h
    simp
  | cons s ss ih =>
    rw [List.map_cons, runTests, Res.bind_eq_ok] at h
    obtain ⟨⟨p1, d1⟩, h1, h2⟩ := h
    rw [runOne_ok] at h1
    obtain ⟨image, ref, r1, r2, r3⟩ := h1
    obtain ⟨hp1, hd1⟩ := Prod.mk.inj r3
    simp only at h2
    have hs := hp s (by simp)
    have hss : ∀ t ∈ ss, Plain t := fun t ht => hp t (List.mem_cons_of_mem _ ht)
    obtain ⟨i1, i2, i3, i4⟩ := ih hss p1 d1 h2
    have hrefs : ∀ t ∈ s :: ss, d1.images (imagesDir ++ t ++ "_ref.exr".toList) =
        d.images (imagesDir ++ t ++ "_ref.exr".toList) := by
      intro t ht
      rw [hd1]
      exact shot_frame w s image ref d _ (ref_not_written (f := ".exr".toList) (hp t ht) hs (by decide))
    refine ⟨?_, ?_, ?_, ?_⟩
    · intro q hq
      rw [i1 q fun t ht => hq t (List.mem_cons_of_mem _ ht), hd1]
      exact shot_frame w s image ref d q (hq s (by simp))
    · intro q hq
      rw [i2 q fun t ht => hq t (List.mem_cons_of_mem _ ht), hd1]
      simp only [Disk.putPage]
      rw [if_neg (hq s (by simp)), shot_pages]
    · rw [i3, hp1, Bool.and_eq_true, List.forall_mem_cons]
      constructor
      · rintro ⟨⟨a1, a2⟩, a3⟩
        refine ⟨a1, ?_, fun t ht im rf b1 b2 => a3 t ht im rf b1 ?_⟩
        · intro im rf b1 b2
          rw [r1] at b1
          rw [r2] at b2
          rw [← Option.some.inj b1, ← Res.ok.inj b2]
          simpa using a2
        · rw [hrefs t (List.mem_cons_of_mem _ ht)]; exact b2
      · rintro ⟨a1, a2, a3⟩
        refine ⟨⟨a1, by simpa using a2 image ref r1 r2⟩, fun t ht im rf b1 b2 => a3 t ht im rf b1 ?_⟩
        rw [hrefs t (List.mem_cons_of_mem _ ht)] at b2; exact b2
    · intro t ht
      by_cases hts : t ∈ ss
      · obtain ⟨im, rf, c1, c2, c3⟩ := i4 t hts
        rw [hrefs t ht] at c2
        exact ⟨im, rf, c1, c2, c3⟩
      · have : t = s := by
          rcases List.mem_cons.1 ht with h | h
          · exact h
          · exact absurd h hts
        subst this
        have himg : ∀ q ∈ written t, d'.images q = (shot w t image ref d).images q := by
          intro q hq
          rw [i1 q, hd1]
          · rfl
          · intro u hu hq'
            exact hts (written_disjoint hs (hss u hu) hq hq' ▸ hu)
        refine ⟨image, ref, r1, r2, ?_, ?_, ?_, ?_, ?_⟩
        · rw [i2, hd1]
          · simp [Disk.putPage]
          · intro u hu e
            exact hts (page_inj e ▸ hu)
        · rw [himg _ (by simp [written]), shot_images, if_neg, if_neg, if_neg, if_pos rfl]
          all_goals
            intro e
            have := List.append_cancel_left e
            revert this
            decide
        · rw [himg _ (by simp [written]), shot_images, if_neg, if_neg, if_pos rfl]
          all_goals
            intro e
            have := List.append_cancel_left e
            revert this
            decide
        · rw [himg _ (by simp [written]), shot_images, if_neg, if_pos rfl]
          intro e
          have := List.append_cancel_left e
          revert this
          decide
        · rw [himg _ (by simp [written]), shot_images, if_pos rfl]

end Feign.Tools.Site
