import Verif.Shapes.ObjLemmas
import Verif.Math.VecRealLemmas

/-!
# C81: meshes are read from OBJ files as the format describes
-/

set_option linter.unusedSectionVars false
set_option linter.unusedSimpArgs false

namespace Feign.Shapes

section
variable {P N K : Type} [Zero K] {scan : List Char → K × Option (List Char)} {place : V3 K → P} {orient : V3 K → N}

theorem read3_reads {i : Inp} {x y z : List Char} {more : List (List Char)} {p : V3 K}
    (h : Left i (x :: y :: z :: more)) (hx : Reads scan x p.x) (hy : Reads scan y p.y) (hz : Reads scan z p.z) :
    read3 scan i = p := by
  obtain ⟨i1, e1, h1⟩ := num_cons h hx 0
  obtain ⟨i2, e2, h2⟩ := num_cons h1 hy 0
  obtain ⟨i3, e3, h3⟩ := num_cons h2 hz 0
  simp only [read3, e1, e2, e3]

theorem read2_reads {i : Inp} {x y : List Char} {more : List (List Char)} {p : V2 K}
    (h : Left i (x :: y :: more)) (hx : Reads scan x p.x) (hy : Reads scan y p.y) : read2 scan i = p := by
  obtain ⟨i1, e1, h1⟩ := num_cons h hx 0
  obtain ⟨i2, e2, h2⟩ := num_cons h1 hy 0
  simp only [read2, e1, e2]

/-- One line adds what it states. -/
theorem line_states {l : List Char} {it : Item K} (h : States scan (wordsOf l) it) (acc : ObjAcc P N K) :
    objLine scan place orient acc l = .ok
      ⟨acc.vs ++ (it.vertex?.map place).toList, acc.ns ++ (it.normal?.map orient).toList,
        acc.uvs ++ it.coord?.toList, acc.tris ++ it.face?.toList⟩ := by
  have hl := left_of l
  cases it with
  | vertex p =>
    obtain ⟨x, y, z, more, hw, hx, hy, hz⟩ := h
    rw [hw] at hl
    obtain ⟨i, e, hi⟩ := word_cons hl []
    simp [objLine, e, read3_reads hi hx hy hz, Item.vertex?, Item.normal?, Item.coord?, Item.face?]
  | coord t =>
    obtain ⟨x, y, more, hw, hx, hy⟩ := h
    rw [hw] at hl
    obtain ⟨i, e, hi⟩ := word_cons hl []
    simp [objLine, e, read2_reads hi hx hy, Item.vertex?, Item.normal?, Item.coord?, Item.face?]
  | normal n =>
    obtain ⟨x, y, z, more, hw, hx, hy, hz⟩ := h
    rw [hw] at hl
    obtain ⟨i, e, hi⟩ := word_cons hl []
    simp [objLine, e, read3_reads hi hx hy hz, Item.vertex?, Item.normal?, Item.coord?, Item.face?]
  | face a b c =>
    obtain ⟨hw, ha, hb, hc⟩ := h
    rw [hw] at hl
    obtain ⟨i, e, hi⟩ := word_cons hl []
    have hf : faceLine i = .ok
        { v := ![a.1 - 1, b.1 - 1, c.1 - 1], uv := ![a.2.1 - 1, b.2.1 - 1, c.2.1 - 1],
          n := ![a.2.2 - 1, b.2.2 - 1, c.2.2 - 1] } := by
      unfold faceLine
      rw [read5_three hi]
      obtain ⟨t1, e1⟩ := corner_full ha []
      obtain ⟨t2, e2⟩ := corner_full hb t1
      obtain ⟨t3, e3⟩ := corner_full hc t2
      simp [e1, e2, e3]
    simp [objLine, e, hf, Item.vertex?, Item.normal?, Item.coord?, Item.face?]
  | other =>
    have key : ∀ w i, (Inp.of l).word [] = (w, i) → w ∉ [['v'], ['v', 't'], ['v', 'n'], ['f']] →
        objLine scan place orient acc l = .ok acc := by
      intro w i e hn
      simp only [List.mem_cons, List.not_mem_nil, or_false, not_or] at hn
      simp [objLine, e, hn]
    have : objLine scan place orient acc l = .ok acc := by
      cases hw : wordsOf l with
      | nil =>
        rw [hw] at hl
        obtain ⟨i, e, -⟩ := word_nil hl []
        exact key _ _ e (by simp)
      | cons w ws =>
        rw [hw] at hl
        obtain ⟨i, e, -⟩ := word_cons hl []
        exact key _ _ e (h w (by rw [hw]; simp))
    rw [this]
    simp [Item.vertex?, Item.normal?, Item.coord?, Item.face?]

theorem lines_state {ls : List (List Char)} {items : List (Item K)}
    (h : List.Forall₂ (fun l it => States scan (wordsOf l) it) ls items) (acc : ObjAcc P N K) :
    objLines scan place orient acc ls = .ok
      ⟨acc.vs ++ (items.filterMap Item.vertex?).map place, acc.ns ++ (items.filterMap Item.normal?).map orient,
        acc.uvs ++ items.filterMap Item.coord?, acc.tris ++ items.filterMap Item.face?⟩ := by
  induction h generalizing acc with
  | nil => simp [objLines]
  | @cons l it ls items h _ ih =>
    simp only [objLines, line_states h, Res.bind_ok, ih]
    cases it <;> simp [List.filterMap_cons, Item.vertex?, Item.normal?, Item.coord?, Item.face?]

/-- **C81 (reading).** A file whose lines make the given statements — with any spacing and line ends, other
lines in between, in any order — is read as exactly these vertices (transformed), normals (transformed,
flipped on request, normalised), texture coordinates and triangles, in the order of the file and with numbers
counted from 0. -/
theorem obj_reads {cs : List Char} {items : List (Item K)}
    (h : List.Forall₂ (fun l it => States scan (wordsOf l) it) (fileLines cs) items) :
    parseObj scan place orient (some cs) = .ok
      ⟨(items.filterMap Item.vertex?).map place, (items.filterMap Item.normal?).map orient,
        items.filterMap Item.coord?, items.filterMap Item.face?⟩ := by
  simp only [parseObj, lines_state h]
  simp

/-! ### Writing and reading back -/

/-- The number's text is a word that reads as the number. -/
def Shows (scan : List Char → K × Option (List Char)) (sh : K → List Char) : Prop :=
  ∀ x, Reads scan (sh x) x ∧ sh x ≠ [] ∧ ∀ c ∈ sh x, isWs c = false

theorem corner_word (c : ℕ × ℕ × ℕ) : cornerText c ≠ [] ∧ ∀ x ∈ cornerText c, isWs x = false := by
  constructor
  · simp [cornerText]
  · intro x hx
    simp only [cornerText, List.mem_append, List.mem_cons] at hx
    rcases hx with hx | rfl | hx | rfl | hx
    · exact digit_ws (digits_all _ _ hx)
    · decide
    · exact digit_ws (digits_all _ _ hx)
    · decide
    · exact digit_ws (digits_all _ _ hx)

/-- Faces with numbers from 1. -/
def Item.Ok : Item K → Prop
  | .face a b c => CornerOk a ∧ CornerOk b ∧ CornerOk c
  | _ => True

theorem wordsOf_cons {w q : List Char} (hw : w ≠ [] ∧ ∀ c ∈ w, isWs c = false) :
    wordsOf (w ++ ' ' :: q) = w :: wordsOf q := by
  rw [wordsOf_first hw.2 hw.1 (by simp; decide), wordsOf_ws (by decide)]

theorem wordsOf_last {w e : List Char} (hw : w ≠ [] ∧ ∀ c ∈ w, isWs c = false) (he : ∀ c ∈ e, isWs c = true) :
    wordsOf (w ++ e) = [w] := by
  rw [wordsOf_first hw.2 hw.1 (fun c hc => he c (List.mem_of_mem_head? hc))]
  congr 1
  clear hw
  induction e with
  | nil => exact wordsOf_nil
  | cons c e ih =>
    rw [wordsOf_ws (he c List.mem_cons_self)]
    exact ih fun c hc => he c (List.mem_cons_of_mem _ hc)

theorem text_states {sh : K → List Char} (hsh : Shows scan sh) {note : List Char} {it : Item K} (hok : it.Ok)
    {e : List Char} (he : ∀ c ∈ e, isWs c = true) : States scan (wordsOf (it.text sh note ++ e)) it := by
  have hn : ∀ x, sh x ≠ [] ∧ ∀ c ∈ sh x, isWs c = false := fun x => (hsh x).2
  have hv : (['v'] : List Char) ≠ [] ∧ ∀ c ∈ ['v'], isWs c = false := by decide
  have hvt : (['v', 't'] : List Char) ≠ [] ∧ ∀ c ∈ ['v', 't'], isWs c = false := by decide
  have hvn : (['v', 'n'] : List Char) ≠ [] ∧ ∀ c ∈ ['v', 'n'], isWs c = false := by decide
  have hf : (['f'] : List Char) ≠ [] ∧ ∀ c ∈ ['f'], isWs c = false := by decide
  cases it with
  | vertex p =>
    refine ⟨sh p.x, sh p.y, sh p.z, [], ?_, (hsh _).1, (hsh _).1, (hsh _).1⟩
    rw [show (Item.vertex p : Item K).text sh note ++ e = ['v'] ++ ' ' :: (sh p.x ++ ' ' :: (sh p.y ++ ' ' :: (sh p.z ++ e))) by simp [Item.text],
      wordsOf_cons hv, wordsOf_cons (hn _), wordsOf_cons (hn _), wordsOf_last (hn _) he]
  | coord t =>
    refine ⟨sh t.x, sh t.y, [], ?_, (hsh _).1, (hsh _).1⟩
    rw [show (Item.coord t : Item K).text sh note ++ e = ['v', 't'] ++ ' ' :: (sh t.x ++ ' ' :: (sh t.y ++ e)) by simp [Item.text],
      wordsOf_cons hvt, wordsOf_cons (hn _), wordsOf_last (hn _) he]
  | normal p =>
    refine ⟨sh p.x, sh p.y, sh p.z, [], ?_, (hsh _).1, (hsh _).1, (hsh _).1⟩
    rw [show (Item.normal p : Item K).text sh note ++ e = ['v', 'n'] ++ ' ' :: (sh p.x ++ ' ' :: (sh p.y ++ ' ' :: (sh p.z ++ e))) by simp [Item.text],
      wordsOf_cons hvn, wordsOf_cons (hn _), wordsOf_cons (hn _), wordsOf_last (hn _) he]
  | face a b c =>
    refine ⟨?_, hok⟩
    rw [show (Item.face a b c : Item K).text sh note ++ e = ['f'] ++ ' ' :: (cornerText a ++ ' ' :: (cornerText b ++ ' ' :: (cornerText c ++ e))) by simp [Item.text],
      wordsOf_cons hf, wordsOf_cons (corner_word _), wordsOf_cons (corner_word _), wordsOf_last (corner_word _) he]
  | other =>
    intro w hw
    rcases wordsOf_cases (('#' :: note) ++ e) with ⟨-, h⟩ | ⟨w', q, hr, -, -, -, -, -, hwo⟩
    · have hw : w ∈ (wordsOf ('#' :: note ++ e)).head? := hw
      rw [h] at hw; simp at hw
    · have hw : w ∈ (wordsOf ('#' :: note ++ e)).head? := hw
      rw [hwo] at hw
      simp only [List.head?_cons, Option.mem_def, Option.some.injEq] at hw
      subst hw
      have hd : (('#' :: note) ++ e).dropWhile isWs = '#' :: (note ++ e) := by
        rw [List.cons_append, List.dropWhile_cons_of_neg (by decide)]
      rw [hd] at hr
      intro hm
      simp only [List.mem_cons, List.not_mem_nil, or_false] at hm
      rcases hm with rfl | rfl | rfl | rfl <;> simp at hr

/-- **C81 (round trip).** Writing any list of statements, one per line, with any text for numbers the library
reads back and either kind of line end, and reading the file gives the statements' data back. -/
theorem obj_round_trip {sh : K → List Char} (hsh : Shows scan sh) {note : List Char} (hnote : '\n' ∉ note)
    {items : List (Item K)} (hok : ∀ it ∈ items, it.Ok) {e : List Char} (he : e = [] ∨ e = ['\r']) :
    parseObj scan place orient (some (fileText sh note (e ++ ['\n']) items)) = .ok
      ⟨(items.filterMap Item.vertex?).map place, (items.filterMap Item.normal?).map orient,
        items.filterMap Item.coord?, items.filterMap Item.face?⟩ := by
  have hews : ∀ c ∈ e, isWs c = true := by rcases he with rfl | rfl <;> decide
  have hen : '\n' ∉ e := by rcases he with rfl | rfl <;> decide
  refine obj_reads ?_
  induction items with
  | nil => exact List.Forall₂.nil
  | cons it items ih =>
    have ih := ih fun it h => hok it (List.mem_cons_of_mem _ h)
    have hnl : '\n' ∉ it.text sh note ++ e := by
      have hs : ∀ x, '\n' ∉ sh x := fun x h => by
        have := (hsh x).2.2 _ h
        revert this; decide
      have hc : ∀ c, '\n' ∉ cornerText c := fun c h => by
        have := (corner_word c).2 _ h
        revert this; decide
      cases it <;> simp [Item.text, hs, hc, hen, hnote]
    have hfl : fileLines (fileText sh note (e ++ ['\n']) (it :: items)) =
        (it.text sh note ++ e) :: fileLines (fileText sh note (e ++ ['\n']) items) := by
      have : fileText sh note (e ++ ['\n']) (it :: items) =
          (it.text sh note ++ e) ++ '\n' :: fileText sh note (e ++ ['\n']) items := by
        simp [fileText]
      rw [this, fileLines_line hnl]
    rw [hfl]
    exact List.Forall₂.cons (text_states hsh (hok it List.mem_cons_self) hews) ih

/-! ### What is not supported -/

theorem lines_ok {acc acc' : ObjAcc P N K} {ls : List (List Char)} (h : objLines scan place orient acc ls = .ok acc')
    {l : List Char} (hl : l ∈ ls) : ∃ a b, objLine scan place orient a l = .ok b := by
  induction ls generalizing acc with
  | nil => cases hl
  | cons l' ls ih =>
    obtain ⟨b, h1, h2⟩ := Res.bind_eq_ok.1 h
    rcases List.mem_cons.1 hl with rfl | hl
    · exact ⟨_, _, h1⟩
    · exact ih h2 hl

/-- **C81 (rejection).** A file is accepted only if every face line has exactly three corners. -/
theorem faces_are_triangles {cs : List Char} {acc : ObjAcc P N K}
    (h : parseObj scan place orient (some cs) = .ok acc) {l : List Char} (hl : l ∈ fileLines cs)
    {ws : List (List Char)} (hw : wordsOf l = ['f'] :: ws) : ∃ a b c, ws = [a, b, c] := by
  obtain ⟨a, b, hab⟩ := lines_ok h hl
  have hL := left_of l
  rw [hw] at hL
  obtain ⟨i, e, hi⟩ := word_cons hL []
  simp only [objLine, e] at hab
  simp only [List.cons.injEq, List.cons_ne_self, reduceCtorEq, and_false, if_false, if_true, Char.reduceEq,
    false_and, and_true] at hab
  obtain ⟨f, hf, -⟩ := Res.bind_eq_ok.1 hab
  have emp : ∀ old, corner [] old = .throw "invalid_argument" := fun old => rfl
  unfold faceLine at hf
  match ws, hi with
  | [], hi =>
    obtain ⟨i1, e1, h1⟩ := word_nil hi []
    obtain ⟨i2, e2, h2⟩ := word_nil h1 []
    obtain ⟨i3, e3, h3⟩ := word_nil h2 []
    obtain ⟨i4, e4, h4⟩ := word_nil h3 []
    obtain ⟨i5, e5, h5⟩ := word_nil h4 []
    simp [read5, e1, e2, e3, e4, e5, emp] at hf
  | [w], hi =>
    obtain ⟨i1, e1, h1⟩ := word_cons hi []
    obtain ⟨i2, e2, h2⟩ := word_nil h1 []
    obtain ⟨i3, e3, h3⟩ := word_nil h2 []
    obtain ⟨i4, e4, h4⟩ := word_nil h3 []
    obtain ⟨i5, e5, h5⟩ := word_nil h4 []
    simp only [read5, e1, e2, e3, e4, e5, ne_eq, not_true_eq_false, if_false] at hf
    obtain ⟨x, -, hf⟩ := Res.bind_eq_ok.1 hf
    simp [emp] at hf
  | [w, w'], hi =>
    obtain ⟨i1, e1, h1⟩ := word_cons hi []
    obtain ⟨i2, e2, h2⟩ := word_cons h1 []
    obtain ⟨i3, e3, h3⟩ := word_nil h2 []
    obtain ⟨i4, e4, h4⟩ := word_nil h3 []
    obtain ⟨i5, e5, h5⟩ := word_nil h4 []
    simp only [read5, e1, e2, e3, e4, e5, ne_eq, not_true_eq_false, if_false] at hf
    obtain ⟨x, -, hf⟩ := Res.bind_eq_ok.1 hf
    obtain ⟨y, -, hf⟩ := Res.bind_eq_ok.1 hf
    simp [emp] at hf
  | [a, b, c], _ => exact ⟨a, b, c, rfl⟩
  | w1 :: w2 :: w3 :: w4 :: more, hi =>
    exfalso
    obtain ⟨i1, e1, h1⟩ := word_cons hi []
    obtain ⟨i2, e2, h2⟩ := word_cons h1 []
    obtain ⟨i3, e3, h3⟩ := word_cons h2 []
    obtain ⟨i4, e4, h4⟩ := word_cons h3 []
    have hne : w4 ≠ [] := by
      rcases h3 with ⟨-, h3⟩ | ⟨-, h3⟩
      · have : w4 ∈ wordsOf i3.rest := by rw [h3]; simp
        unfold wordsOf at this
        simpa using (List.mem_filter.1 this).2
      · cases h3
    simp only [read5, e1, e2, e3, e4] at hf
    split_ifs at hf

/-- **C81 (rejection).** Faces without texture coordinates (`i//k`) are rejected. -/
theorem corner_no_coord {i : ℕ} (h1 : 1 ≤ i) (h2 : i < 2 ^ 31) (k old : List Char) :
    corner (Nat.toDigits 10 i ++ '/' :: '/' :: k) old = .throw "invalid_argument" := by
  unfold corner Inp.of
  have hs : ∀ o, Inp.part ⟨'/' :: k, true⟩ o = ([], ⟨k, true⟩) := fun o => part_slash (d := []) (by simp) o
  simp only [part_slash (no_slash _), index_digits h1 h2, hs, Res.bind_ok]
  rfl

/-- What the code does with faces that give vertices only: the vertex numbers are used for texture coordinates
and normals as well. -/
theorem corner_vertex_only {i : ℕ} (h1 : 1 ≤ i) (h2 : i < 2 ^ 31) (old : List Char) :
    corner (Nat.toDigits 10 i) old = .ok ((i - 1, i - 1, i - 1), Nat.toDigits 10 i) := by
  unfold corner Inp.of
  simp only [part_end (no_slash _), part_bad, index_digits h1 h2, Res.bind_ok]

/-- … and with faces without normals (`i/j`): the texture coordinate's number is used for the normal. -/
theorem corner_no_normal {i j : ℕ} (h1 : 1 ≤ i) (h2 : i < 2 ^ 31) (h3 : 1 ≤ j) (h4 : j < 2 ^ 31) (old : List Char) :
    corner (Nat.toDigits 10 i ++ '/' :: Nat.toDigits 10 j) old =
      .ok ((i - 1, j - 1, j - 1), Nat.toDigits 10 j) := by
  unfold corner Inp.of
  simp only [part_slash (no_slash _), part_end (no_slash _), part_bad, index_digits h1 h2, index_digits h3 h4, Res.bind_ok]

/-- … and with the number 0 and with negative numbers, which count from the end in the format: they wrap around
to numbers no mesh has. -/
theorem index_zero : index ['0'] = .ok (2 ^ 32 - 1) := by decide

theorem index_negative {n : ℕ} (h1 : 1 ≤ n) (h2 : n < 2 ^ 31) :
    index ('-' :: Nat.toDigits 10 n) = .ok (2 ^ 32 - 1 - n) := by
  have hst : stoi ('-' :: Nat.toDigits 10 n) = .ok (-(n : Int)) := by
    unfold stoi
    have h1 : ('-' :: Nat.toDigits 10 n).dropWhile isWs = '-' :: Nat.toDigits 10 n :=
      List.dropWhile_cons_of_neg (by decide)
    have h3 : (Nat.toDigits 10 n).takeWhile Char.isDigit = Nat.toDigits 10 n := takeWhile_all (digits_all n)
    have hne : Nat.toDigits 10 n ≠ [] := Nat.toDigits_ne_nil
    simp only [h1, List.head?_cons, true_or, if_true, List.tail_cons, h3, hne, if_false,
      Nat.ofDigitChars_ten_toDigits]
    rw [if_pos (by constructor <;> omega)]
  unfold index
  rw [hst]
  simp only [Res.bind_ok]
  rw [if_neg (by omega)]
  congr 1
  omega

/-- A vertex line with two numbers only gets 0 as the third. -/
theorem short_vertex {l x y : List Char} {a b : K} (hw : wordsOf l = [['v'], x, y]) (hx : Reads scan x a)
    (hy : Reads scan y b) (acc : ObjAcc P N K) :
    objLine scan place orient acc l = .ok { acc with vs := acc.vs ++ [place ⟨a, b, 0⟩] } := by
  have hl := left_of l
  rw [hw] at hl
  obtain ⟨i, e, hi⟩ := word_cons hl []
  obtain ⟨i1, e1, h1⟩ := num_cons hi hx 0
  obtain ⟨i2, e2, h2⟩ := num_cons h1 hy 0
  obtain ⟨i3, e3, h3⟩ := num_nil (scan := scan) h2 (0 : K)
  simp [objLine, e, read3, e1, e2, e3]

/-- The claim that what is accepted is meaningful: the numbers of accepted faces exist. -/
def AcceptedFacesExist (scan : List Char → K × Option (List Char)) (place : V3 K → P) (orient : V3 K → N) : Prop :=
  ∀ cs acc, parseObj scan place orient (some cs) = .ok acc → ∀ f ∈ acc.tris, ∀ i,
    f.v i < acc.vs.length ∧ f.n i < acc.ns.length ∧ (acc.uvs ≠ [] → f.uv i < acc.uvs.length)

/-- **C81 (meaning of accepted files) fails**: a file with the only line `f 1 1 1` is accepted. -/
theorem accepted_faces_refuted : ¬ AcceptedFacesExist scan place orient := by
  intro h
  have hp : ∃ acc : ObjAcc P N K, parseObj scan place orient (some ['f', ' ', '1', ' ', '1', ' ', '1']) = .ok acc ∧
      acc.ns = [] ∧ ∃ f, f ∈ acc.tris := ⟨⟨[], [], [], [_]⟩, rfl, rfl, _, List.mem_singleton.2 rfl⟩
  obtain ⟨acc, h1, h2, f, h3⟩ := hp
  have := (h _ acc h1 f h3 0).2.1
  rw [h2] at this
  simp at this

theorem missing_obj_throws : (parseObj scan place orient none).isThrow = true := rfl

end

/-! ### Normals -/

/-- **C81 (normals).** A stored normal has length one; it is missing (not a number) exactly if the transformed
normal is zero. -/
theorem obj_normal_unit (t : Xf ℝ) (flip : Bool) (n : V3 ℝ) :
    (∀ m, objOrient t flip n = some m → m.sqrNorm = 1) ∧ (objOrient t flip n = none ↔ t.normal n = 0) := by
  refine ⟨fun m h => V3.normalized_unit _ _ h, ?_⟩
  unfold objOrient
  rw [V3.normalized_eq_none]
  cases flip
  · simp
  · simp only [if_true, V3.ext_iff]
    show (-(t.normal n).x = 0 ∧ -(t.normal n).y = 0 ∧ -(t.normal n).z = 0) ↔ _
    simp only [neg_eq_zero]
    rfl

/-- **C81 (normals).** Flipping negates every normal. -/
theorem obj_normal_flip (t : Xf ℝ) (n : V3 ℝ) :
    objOrient t true n = (objOrient t false n).map fun m => -m := by
  unfold objOrient V3.normalized
  have hn : (-t.normal n).norm = (t.normal n).norm := by
    show Real.sqrt (-(t.normal n).x * -(t.normal n).x + -(t.normal n).y * -(t.normal n).y +
      -(t.normal n).z * -(t.normal n).z) = _
    simp only [neg_mul_neg]
    rfl
  simp only [if_true, Bool.false_eq_true, if_false, hn]
  split_ifs
  · rfl
  · simp only [Option.map_some, Option.some.injEq]
    ext <;> exact neg_div _ _

/-! ### Non-vacuity -/

/-- A toy scanner: decimal digits. -/
def scanNat (l : List Char) : ℕ × Option (List Char) :=
  (Nat.ofDigitChars 10 (l.takeWhile Char.isDigit) 0, some (l.dropWhile Char.isDigit))

theorem scanNat_shows : Shows scanNat (Nat.toDigits 10) := by
  intro n
  refine ⟨?_, Nat.toDigits_ne_nil, fun c hc => digit_ws (digits_all n c hc)⟩
  intro q hq
  have hqd : q.takeWhile Char.isDigit = [] ∧ q.dropWhile Char.isDigit = q := by
    cases q with
    | nil => simp
    | cons c q =>
      have hc : c.isDigit = false := by
        by_contra h
        have := digit_ws (by simpa using h)
        rw [hq c (by simp)] at this
        cases this
      simp [hc]
  have hd : ∀ l : List Char, (∀ c ∈ l, c.isDigit = true) → (l ++ q).takeWhile Char.isDigit = l ∧
      (l ++ q).dropWhile Char.isDigit = q := by
    intro l hl
    induction l with
    | nil => exact hqd
    | cons c l ih =>
      have hc := hl c List.mem_cons_self
      have := ih fun c hc => hl c (List.mem_cons_of_mem _ hc)
      simp [hc, this]
  unfold scanNat
  rw [(hd _ (digits_all n)).1, (hd _ (digits_all n)).2, Nat.ofDigitChars_ten_toDigits]

/-- A triangle with a comment, written with `\r\n` and read back. -/
example : parseObj scanNat id id (some (fileText (Nat.toDigits 10) ['x'] ['\r', '\n']
      [.other, .vertex ⟨0, 0, 0⟩, .vertex ⟨17, 0, 0⟩, .vertex ⟨0, 5, 0⟩, .normal ⟨0, 0, 1⟩, .coord ⟨0, 1⟩,
        .face (1, 1, 1) (2, 1, 1) (3, 1, 1)])) =
    .ok ⟨[⟨0, 0, 0⟩, ⟨17, 0, 0⟩, ⟨0, 5, 0⟩], [⟨0, 0, 1⟩], [⟨0, 1⟩], [⟨![0, 1, 2], ![0, 0, 0], ![0, 0, 0]⟩]⟩ := by
  rw [show (['\r', '\n'] : List Char) = ['\r'] ++ ['\n'] from rfl, obj_round_trip scanNat_shows (by decide) ?_ (Or.inr rfl)]
  · simp [List.filterMap_cons, Item.vertex?, Item.normal?, Item.coord?, Item.face?]
  · simp [Item.Ok, CornerOk]

end Feign.Shapes
