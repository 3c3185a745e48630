import Verif.Math.VecReal

/-!
# Floating point numbers with infinities and not-a-number (model)

`Float` of `include/feign/common.h` without rounding and overflow: finite numbers are reals, infinities and not-a-number
behave as in IEEE 754. Zero has no sign; a zero divisor counts as positive (the modelled code only divides by lengths and
counts).
-/

namespace Feign

/-- A floating point number; `inf true` is minus infinity. -/
inductive Flt where
  | fin (x : ℝ)
  | inf (neg : Bool)
  | nan

namespace Flt

/-- Neither infinite nor not-a-number. -/
def IsFin : Flt → Prop
  | fin _ => True
  | _ => False

noncomputable instance : Neg Flt where
  neg
    | fin x => fin (-x)
    | inf s => inf (!s)
    | nan => nan

noncomputable instance : Add Flt where
  add
    | fin x, fin y => fin (x + y)
    | fin _, inf s => inf s
    | inf s, fin _ => inf s
    | inf s, inf t => if s = t then inf s else nan
    | nan, _ => nan
    | _, nan => nan

noncomputable instance : Sub Flt := ⟨fun a b => a + -b⟩

open Classical in
noncomputable instance : Mul Flt where
  mul
    | fin x, fin y => fin (x * y)
    | fin x, inf s => if x = 0 then nan else inf (decide (x < 0) != s)
    | inf s, fin x => if x = 0 then nan else inf (decide (x < 0) != s)
    | inf s, inf t => inf (s != t)
    | nan, _ => nan
    | _, nan => nan

open Classical in
noncomputable instance : Div Flt where
  div
    | fin x, fin y => if y = 0 then (if x = 0 then nan else inf (decide (x < 0))) else fin (x / y)
    | fin _, inf _ => fin 0
    | inf s, fin y => inf (decide (y < 0) != s)
    | inf _, inf _ => nan
    | nan, _ => nan
    | _, nan => nan

/-- `sqrt`. -/
noncomputable def sqrt : Flt → Flt
  | fin x => if x < 0 then nan else fin (Real.sqrt x)
  | inf false => inf false
  | inf true => nan
  | nan => nan

/-- `std::abs`. -/
noncomputable def abs : Flt → Flt
  | fin x => fin |x|
  | inf _ => inf false
  | nan => nan

/-- `<`: false as soon as one side is not a number. -/
def lt : Flt → Flt → Prop
  | fin x, fin y => x < y
  | fin _, inf s => s = false
  | inf s, fin _ => s = true
  | inf s, inf t => s = true ∧ t = false
  | nan, _ => False
  | _, nan => False

/-- `== 0`. -/
def eqZero : Flt → Prop
  | fin x => x = 0
  | _ => False

end Flt

namespace FV

/-- `operator+`, `include/feign/math/vector.h:347-354`. -/
noncomputable def add (a b : V3 Flt) : V3 Flt := ⟨a.x + b.x, a.y + b.y, a.z + b.z⟩
/-- `operator-`, `vector.h:356-363`. -/
noncomputable def sub (a b : V3 Flt) : V3 Flt := ⟨a.x - b.x, a.y - b.y, a.z - b.z⟩
/-- `operator*(T c)`, `vector.h:383-390`. -/
noncomputable def smul (a : V3 Flt) (c : Flt) : V3 Flt := ⟨a.x * c, a.y * c, a.z * c⟩
/-- `operator^`, `vector.h:439-446`. -/
noncomputable def cross (a b : V3 Flt) : V3 Flt :=
  ⟨a.y * b.z - a.z * b.y, a.z * b.x - a.x * b.z, a.x * b.y - a.y * b.x⟩
/-- `sqrNorm`, `vector.h:541-546`. -/
noncomputable def sqrNorm (a : V3 Flt) : Flt := a.x * a.x + a.y * a.y + a.z * a.z
/-- `normalized`, `vector.h:548-563`. -/
noncomputable def normalized (a : V3 Flt) : V3 Flt :=
  let n := (sqrNorm a).sqrt
  ⟨a.x / n, a.y / n, a.z / n⟩

open Classical in
/-- `minAbsIndex`, `vector.h:778-787`. -/
noncomputable def minAbsIndex (a : V3 Flt) : Fin 3 :=
  if a.x.abs.lt a.y.abs ∧ a.x.abs.lt a.z.abs then 0
  else if a.y.abs.lt a.x.abs ∧ a.y.abs.lt a.z.abs then 1
  else 2

open Classical in
/-- `min(other)`, `vector.h:599-619`. -/
noncomputable def minV (a b : V3 Flt) : V3 Flt :=
  ⟨if a.x.lt b.x then a.x else b.x, if a.y.lt b.y then a.y else b.y, if a.z.lt b.z then a.z else b.z⟩

open Classical in
/-- `max(other)`, `vector.h:655-675`. -/
noncomputable def maxV (a b : V3 Flt) : V3 Flt :=
  ⟨if b.x.lt a.x then a.x else b.x, if b.y.lt a.y then a.y else b.y, if b.z.lt a.z then a.z else b.z⟩

/-- A vector of finite numbers. -/
def ofReal (v : V3 ℝ) : V3 Flt := ⟨.fin v.x, .fin v.y, .fin v.z⟩

end FV

end Feign
