import Verif.Shapes.ObjFile
import Mathlib.Data.List.Forall2

/-!
# OBJ files (specification)

The part of the format the reader supports, in terms of the words of each line.
-/

namespace Feign.Shapes

variable {K : Type}

/-- The words of a line. -/
def wordsOf (l : List Char) : List (List Char) := (l.splitOnP isWs).filter (· ≠ [])

/-- One statement of a file. Corners of faces are numbers (vertex, texture coordinate, normal) from 1. -/
inductive Item (K : Type) where
  | vertex (p : V3 K)
  | coord (t : V2 K)
  | normal (n : V3 K)
  | face (a b c : ℕ × ℕ × ℕ)
  | other

/-- The word `w` denotes the number `x`, when it stands alone or before white space. -/
def Reads (scan : List Char → K × Option (List Char)) (w : List Char) (x : K) : Prop :=
  ∀ q, (∀ c ∈ q.head?, isWs c = true) → scan (w ++ q) = (x, some q)

/-- `i/j/k`. -/
def cornerText (c : ℕ × ℕ × ℕ) : List Char :=
  Nat.toDigits 10 c.1 ++ '/' :: (Nat.toDigits 10 c.2.1 ++ '/' :: Nat.toDigits 10 c.2.2)

/-- Numbers from 1 that fit an `int`. -/
def CornerOk (c : ℕ × ℕ × ℕ) : Prop :=
  (1 ≤ c.1 ∧ c.1 < 2 ^ 31) ∧ (1 ≤ c.2.1 ∧ c.2.1 < 2 ^ 31) ∧ (1 ≤ c.2.2 ∧ c.2.2 < 2 ^ 31)

/-- Does a line with these words make the statement? More numbers than needed are allowed, other kinds of
lines and blank lines too. -/
def States (scan : List Char → K × Option (List Char)) (ws : List (List Char)) : Item K → Prop
  | .vertex p => ∃ x y z more, ws = ['v'] :: x :: y :: z :: more ∧ Reads scan x p.x ∧ Reads scan y p.y ∧ Reads scan z p.z
  | .coord t => ∃ x y more, ws = ['v', 't'] :: x :: y :: more ∧ Reads scan x t.x ∧ Reads scan y t.y
  | .normal n => ∃ x y z more, ws = ['v', 'n'] :: x :: y :: z :: more ∧
      Reads scan x n.x ∧ Reads scan y n.y ∧ Reads scan z n.z
  | .face a b c => ws = [['f'], cornerText a, cornerText b, cornerText c] ∧ CornerOk a ∧ CornerOk b ∧ CornerOk c
  | .other => ∀ w ∈ ws.head?, w ∉ [['v'], ['v', 't'], ['v', 'n'], ['f']]

/-- The data the statements list. -/
def Item.vertex? : Item K → Option (V3 K)
  | .vertex p => some p
  | _ => none

def Item.coord? : Item K → Option (V2 K)
  | .coord t => some t
  | _ => none

def Item.normal? : Item K → Option (V3 K)
  | .normal n => some n
  | _ => none

/-- Faces count from 0. -/
def Item.face? : Item K → Option Face
  | .face a b c => some
      { v := ![a.1 - 1, b.1 - 1, c.1 - 1], uv := ![a.2.1 - 1, b.2.1 - 1, c.2.1 - 1],
        n := ![a.2.2 - 1, b.2.2 - 1, c.2.2 - 1] }
  | _ => none

/-- The text of a statement, given the text of numbers; `note` is the text of other lines. -/
def Item.text (sh : K → List Char) (note : List Char) : Item K → List Char
  | .vertex p => 'v' :: ' ' :: (sh p.x ++ ' ' :: (sh p.y ++ ' ' :: sh p.z))
  | .coord t => 'v' :: 't' :: ' ' :: (sh t.x ++ ' ' :: sh t.y)
  | .normal n => 'v' :: 'n' :: ' ' :: (sh n.x ++ ' ' :: (sh n.y ++ ' ' :: sh n.z))
  | .face a b c => 'f' :: ' ' :: (cornerText a ++ ' ' :: (cornerText b ++ ' ' :: cornerText c))
  | .other => '#' :: note

/-- A file with one statement per line, lines ended by `eol`. -/
def fileText (sh : K → List Char) (note eol : List Char) (items : List (Item K)) : List Char :=
  items.flatMap fun i => i.text sh note ++ eol

end Feign.Shapes
