import Verif.Shapes.Mesh

/-!
# Reading OBJ files (model)

`ObjMesh::parseFromFile`, `src/shapes/objmesh.cpp:122-241`, on the characters of the file. The standard
streams are modelled as far as the code uses them: `getline`, extraction of words and numbers with the state
flags, `stoi`. The library's scanning of a floating point number is a parameter `scan`, applied to the
characters after leading white space (at least one): its value and, unless it failed, the characters left.
Output (`:203`) is left out.
-/

namespace Feign.Shapes

/-- `isspace` in the "C" locale. -/
def isWs (c : Char) : Bool := c = ' ' || c = '\t' || c = '\n' || c = '\x0b' || c = '\x0c' || c = '\r'

/-- The lines `getline(ifs, lineStr)` yields one after the other, `:142-143`. -/
def fileLines : List Char → List (List Char)
  | [] => []
  | c :: cs =>
    if c = '\n' then [] :: fileLines cs
    else match fileLines cs with
      | [] => [[c]]
      | l :: ls => (c :: l) :: ls

/-- A `std::istringstream`: the characters left and whether no state flag (end, failure) is set. -/
structure Inp where
  rest : List Char
  good : Bool
  deriving DecidableEq

/-- A stream on a string. -/
def Inp.of (l : List Char) : Inp := ⟨l, true⟩

/-- `stream >> s` for a string that holds `old`. -/
def Inp.word (i : Inp) (old : List Char) : List Char × Inp :=
  if i.good = false then (old, i)
  else
    let r := i.rest.dropWhile isWs
    if r = [] then (old, ⟨[], false⟩)
    else
      let q := r.dropWhile fun c => !isWs c
      (r.takeWhile fun c => !isWs c, ⟨q, !q.isEmpty⟩)

section numbers
variable {K : Type} (scan : List Char → K × Option (List Char))

/-- `stream >> x` for a floating point number that holds `old`. -/
def Inp.num (i : Inp) (old : K) : K × Inp :=
  if i.good = false then (old, i)
  else
    let r := i.rest.dropWhile isWs
    if r = [] then (old, ⟨[], false⟩)
    else match scan r with
      | (x, some q) => (x, ⟨q, !q.isEmpty⟩)
      | (x, none) => (x, ⟨[], false⟩)

end numbers

/-- `std::getline(stream, token, '/')`: the new token and the stream. -/
def Inp.part (i : Inp) (old : List Char) : List Char × Inp :=
  if i.good = false then (old, i)
  else
    match i.rest.dropWhile (· ≠ '/') with
    | [] => (i.rest, ⟨[], false⟩)
    | _ :: q => (i.rest.takeWhile (· ≠ '/'), ⟨q, true⟩)

/-- `std::stoi`: leading white space, a sign, digits; whatever follows is ignored. -/
def stoi (s : List Char) : Res Int :=
  let r := s.dropWhile isWs
  let neg := r.head? = some '-'
  let d := if r.head? = some '-' ∨ r.head? = some '+' then r.tail else r
  let ds := d.takeWhile Char.isDigit
  if ds = [] then .throw "invalid_argument"
  else
    let z : Int := if neg then -(Nat.ofDigitChars 10 ds 0 : Int) else Nat.ofDigitChars 10 ds 0
    if -2 ^ 31 ≤ z ∧ z < 2 ^ 31 then .ok z else .throw "out_of_range"

/-- `x = stoi(token) - 1` with `x` of type `uint32_t`. -/
def index (s : List Char) : Res ℕ := do
  let z ← stoi s
  if z = -2 ^ 31 then .ub "signed overflow" else .ok ((z - 1) % 2 ^ 32).toNat

/-- One corner of a face, `:217-222` (and `:224-229`, `:231-236`): vertex, texture coordinate and normal.
`old` is what `token` holds from the previous corner. -/
def corner (f old : List Char) : Res ((ℕ × ℕ × ℕ) × List Char) := do
  let a := (Inp.of f).part old
  let p ← index a.1
  let b := a.2.part a.1
  let uv ← index b.1
  let c := b.2.part b.1
  let n ← index c.1
  .ok ((p, uv, n), c.1)

/-- What is read so far; vertices and normals as stored, i.e. after the transform. -/
structure ObjAcc (P N K : Type) where
  vs : List P
  ns : List N
  uvs : List (V2 K)
  tris : List Face

section reader
variable {P N K : Type} [Zero K] (scan : List Char → K × Option (List Char)) (place : V3 K → P) (orient : V3 K → N)

/-- Three numbers, `:152-155` and `:170-173`; the vector is zero before. -/
def read3 (i : Inp) : V3 K :=
  let x := i.num scan 0
  let y := x.2.num scan 0
  let z := y.2.num scan 0
  ⟨x.1, y.1, z.1⟩

/-- Two numbers, `:163-165`. -/
def read2 (i : Inp) : V2 K :=
  let x := i.num scan 0
  let y := x.2.num scan 0
  ⟨x.1, y.1⟩

/-- The five words of a face line, `:184-194`; a word that is missing stays empty. -/
def read5 (i : Inp) : List Char × List Char × List Char × List Char × List Char :=
  let a := i.word []
  let b := a.2.word []
  let c := b.2.word []
  let d := c.2.word []
  let e := d.2.word []
  (a.1, b.1, c.1, d.1, e.1)

/-- A face line, `:182-239`. -/
def faceLine (i : Inp) : Res Face := do
  let (f1, f2, f3, f4, f5) := read5 i
  if f5 ≠ [] then .throw "more than 4 verts"
  else if f4 ≠ [] then .throw "quads in obj"
  else
    let (c1, t1) ← corner f1 []
    let (c2, t2) ← corner f2 t1
    let (c3, _) ← corner f3 t2
    .ok { v := ![c1.1, c2.1, c3.1], uv := ![c1.2.1, c2.2.1, c3.2.1], n := ![c1.2.2, c2.2.2, c3.2.2] }

/-- One pass of the loop, `:145-239`. `place` is `transform * p`; `orient` is `transform * n`, negated if
`flip_norms`, normalised. -/
def objLine (acc : ObjAcc P N K) (l : List Char) : Res (ObjAcc P N K) :=
  let (token, i) := (Inp.of l).word []
  if token = ['v'] then .ok { acc with vs := acc.vs ++ [place (read3 scan i)] }
  else if token = ['v', 't'] then .ok { acc with uvs := acc.uvs ++ [read2 scan i] }
  else if token = ['v', 'n'] then .ok { acc with ns := acc.ns ++ [orient (read3 scan i)] }
  else if token = ['f'] then do
    let f ← faceLine i
    .ok { acc with tris := acc.tris ++ [f] }
  else .ok acc

/-- The loop over the lines. -/
def objLines : ObjAcc P N K → List (List Char) → Res (ObjAcc P N K)
  | acc, [] => .ok acc
  | acc, l :: ls => do
    let acc ← objLine scan place orient acc l
    objLines acc ls

/-- `parseFromFile`, `:122-241`, for a name that is not empty; `none`: the file cannot be opened (`:137-140`). -/
def parseObj (file : Option (List Char)) : Res (ObjAcc P N K) :=
  match file with
  | none => .throw "cannot open"
  | some cs => objLines scan place orient ⟨[], [], [], []⟩ (fileLines cs)

end reader

/-- `transform * p`, `:157`. `none`: not a number. -/
noncomputable def objPlace (t : Xf ℝ) (p : V3 ℝ) : Option (V3 ℝ) :=
  haveI := Classical.decEq ℝ
  t.point p

/-- `transform * n`, negated if `flip_norms`, then `normalized()`, `:175-180`. `none`: not a number. -/
noncomputable def objOrient (t : Xf ℝ) (flip : Bool) (n : V3 ℝ) : Option (V3 ℝ) :=
  (if flip then -t.normal n else t.normal n).normalized

end Feign.Shapes
