import Verif.Basic
import Verif.Math.Vec
import Mathlib.Algebra.Order.Floor.Defs
import Mathlib.Analysis.SpecialFunctions.Complex.Arg
import Mathlib.Analysis.SpecialFunctions.Trigonometric.Inverse

/-!
# Textures (model)

`src/textures/*.cpp`, `include/feign/core/texture.h`, and the direction lookup of the environment light,
`src/emitters/environment.cpp:48-68`.

* The image type is external (`ImageEditLib`, not in the repository): an image has a width, a height and
  three channels per pixel; reading a pixel outside is undefined behaviour.
* Floating-point results of a multiplication may overflow or be rounded: `rnd` maps the exact product to a
  float value, which may be infinite.
-/

namespace Feign.Tex

/-- A floating-point value. -/
inductive Fl (K : Type)
  | nan
  | neginf
  | posinf
  | fin (x : K)
  deriving DecidableEq, Repr

/-- An image: `Imagef`. -/
structure Image (K : Type) where
  width : ℕ
  height : ℕ
  pix : ℕ → ℕ → V3 K

variable {K : Type} [Field K] [LinearOrder K] [IsStrictOrderedRing K] [FloorRing K]

/-- `a > b` for a finite `b`; false for NaN. -/
def Fl.gt : Fl K → K → Prop
  | nan, _ => False
  | neginf, _ => False
  | posinf, _ => True
  | fin x, b => b < x

/-- `a < b` for a finite `b`; false for NaN. -/
def Fl.lt : Fl K → K → Prop
  | nan, _ => False
  | neginf, _ => True
  | posinf, _ => False
  | fin x, b => x < b

instance (a : Fl K) (b : K) : Decidable (a.gt b) := by cases a <;> unfold Fl.gt <;> infer_instance
instance (a : Fl K) (b : K) : Decidable (a.lt b) := by cases a <;> unfold Fl.lt <;> infer_instance

/-- `bound`, `include/feign/common.h:163-170`. -/
def bound (val : Fl K) (min max : K) : Fl K :=
  if val.gt max then .fin max
  else if val.lt min then .fin min
  else val

/-- Conversion of a float to `int`, towards zero. Converting NaN or an infinity is undefined behaviour; so
is a value that does not fit, which cannot happen between the bounds of an image. -/
def toInt : Fl K → Res Int
  | .nan => .ub "NaN to int"
  | .neginf => .ub "-inf to int"
  | .posinf => .ub "inf to int"
  | .fin x => .ok (if x < 0 then ⌈x⌉ else ⌊x⌋)

/-- `image(x, y, c)` for the three channels of a pixel. -/
def Image.read (im : Image K) (x y : Int) : Res (V3 K) :=
  if 0 ≤ x ∧ x < im.width ∧ 0 ≤ y ∧ y < im.height then .ok (im.pix x.toNat y.toNat)
  else .ub "pixel outside the image"

/-- `ImageTexture::evaluate`, `src/textures/image_texture.cpp:27-52`. `mul` is the float multiplication,
`ofInt` the conversion of the integer bound `width - 1` to a float. -/
def evaluate (mul : Fl K → K → Fl K) (ofInt : Int → K) (im : Image K) (scale : V3 K) (u v : Fl K) :
    Res (V3 K) := do
  let x ← toInt (bound (mul u im.width) 0 (ofInt ((im.width : Int) - 1)))
  let y ← toInt (bound (mul v im.height) 0 (ofInt ((im.height : Int) - 1)))
  let c ← im.read x y
  .ok (c * scale)

/-- Exact multiplication of finite values; NaN and infinities stay what they are (the width is positive). -/
def exactMul : Fl K → K → Fl K
  | .fin x, w => .fin (x * w)
  | a, _ => a

/-- The loops of `Texture::evaluate_image`, `src/textures/texture.cpp:33-46`: all pixels in the order they
are written. -/
def bakeOrder (width height : ℕ) : List (ℕ × ℕ) :=
  (List.range height).flatMap fun i => (List.range width).map fun j => (j, i)

/-- `Texture::evaluate_image`, `src/textures/texture.cpp:29-49` (exact arithmetic), for any texture `eval`.
The new image starts out with unspecified pixels `old`. -/
def bake (eval : K → K → Res (V3 K)) (width height : ℕ) (old : ℕ → ℕ → V3 K) : Res (Image K) := do
  let pix ← (bakeOrder width height).foldlM (init := old) fun pix ji => do
    let xpos := (ji.1 : K) / width + 1 / 2 / width
    let ypos := (ji.2 : K) / height + 1 / 2 / height
    let c ← eval xpos ypos
    .ok fun x y => if x = ji.1 ∧ y = ji.2 then c else pix x y
  .ok ⟨width, height, pix⟩

/-- `SinTexture::evaluate`, `src/textures/sin_texture.cpp:21-29`. -/
noncomputable def sinEvaluate (amp phase freq y : V3 ℝ) (u v : ℝ) : V3 ℝ :=
  let dist := Real.sqrt ((1 / 2 - u) * (1 / 2 - u) + (1 / 2 - v) * (1 / 2 - v))
  ⟨amp.x * Real.sin (dist * freq.x + phase.x) + y.x,
   amp.y * Real.sin (v * freq.y + phase.y) + y.y,
   amp.z * Real.sin (phase.z * freq.z) + y.z⟩

/-- The texture coordinates `EnvironmentEmitter::evaluate` looks up for a direction,
`src/emitters/environment.cpp:55-67`. `std::acos` of a number outside `[-1, 1]` is NaN. -/
noncomputable def envCoords (wi : V3 ℝ) : Fl ℝ × Fl ℝ :=
  let phi := Complex.arg ⟨wi.x, wi.z⟩
  let phi := if phi < 0 then phi + 2 * Real.pi else phi
  (.fin (phi * (1 / (2 * Real.pi))),
   if wi.y < -1 ∨ 1 < wi.y then .nan else .fin (Real.arccos wi.y * (1 / Real.pi)))

/-- `EnvironmentEmitter::evaluate` with a texture, `src/emitters/environment.cpp:48-68`
(exact arithmetic). -/
noncomputable def envEvaluate (im : Image ℝ) (scale intensity wi : V3 ℝ) : Res (V3 ℝ) := do
  let c ← evaluate exactMul (fun z => (z : ℝ)) im scale (envCoords wi).1 (envCoords wi).2
  .ok (intensity * c)

end Feign.Tex
