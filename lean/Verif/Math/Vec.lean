import Mathlib.Algebra.Order.Field.Basic
import Mathlib.Algebra.Order.Group.Abs

/-!
# Vectors (model)

`include/feign/math/vector.h:310-817` (`Vec3`) and `:23-307` (`Vec2`). The scalar type is an arbitrary
field (ordered where comparisons occur). Operators that need a square root are in `Verif/Math/VecReal.lean`.
-/

namespace Feign

/-- `Vec3<T>`, `include/feign/math/vector.h:310`. -/
@[ext] structure V3 (K : Type) where
  x : K
  y : K
  z : K
  deriving DecidableEq, Repr

/-- `Vec2<T>`, `include/feign/math/vector.h:23`. -/
@[ext] structure V2 (K : Type) where
  x : K
  y : K
  deriving DecidableEq, Repr

namespace V3

variable {K : Type}

/-- `operator()(int)`/`operator[](int)`, `vector.h:566-575`; the caller guarantees `0 ≤ i < 3`. -/
def get (v : V3 K) (i : Fin 3) : K :=
  match i with
  | 0 => v.x
  | 1 => v.y
  | 2 => v.z

section ring
variable [Ring K]

/-- `operator+`, `vector.h:347-354`. -/
instance : Add (V3 K) := ⟨fun a b => ⟨a.x + b.x, a.y + b.y, a.z + b.z⟩⟩
/-- `operator-`, `vector.h:356-363`. -/
instance : Sub (V3 K) := ⟨fun a b => ⟨a.x - b.x, a.y - b.y, a.z - b.z⟩⟩
/-- unary `operator-`, `vector.h:448-455`. -/
instance : Neg (V3 K) := ⟨fun a => ⟨-a.x, -a.y, -a.z⟩⟩
/-- component-wise `operator*`, `vector.h:365-372`. -/
instance : Mul (V3 K) := ⟨fun a b => ⟨a.x * b.x, a.y * b.y, a.z * b.z⟩⟩
/-- `Vec3()`, `vector.h:312-317`. -/
instance : Zero (V3 K) := ⟨⟨0, 0, 0⟩⟩

/-- `operator*(T c)`, `vector.h:383-390`. -/
def smul (a : V3 K) (c : K) : V3 K := ⟨a.x * c, a.y * c, a.z * c⟩

/-- dot product `operator%`, `vector.h:431-436`. -/
def dot (a b : V3 K) : K := b.x * a.x + b.y * a.y + b.z * a.z

/-- cross product `operator^`, `vector.h:439-446`. -/
def cross (a b : V3 K) : V3 K :=
  ⟨a.y * b.z - a.z * b.y, a.z * b.x - a.x * b.z, a.x * b.y - a.y * b.x⟩

/-- `sqrNorm`, `vector.h:541-546`. -/
def sqrNorm (a : V3 K) : K := a.x * a.x + a.y * a.y + a.z * a.z

@[simp] theorem add_x (a b : V3 K) : (a + b).x = a.x + b.x := rfl
@[simp] theorem add_y (a b : V3 K) : (a + b).y = a.y + b.y := rfl
@[simp] theorem add_z (a b : V3 K) : (a + b).z = a.z + b.z := rfl
@[simp] theorem sub_x (a b : V3 K) : (a - b).x = a.x - b.x := rfl
@[simp] theorem sub_y (a b : V3 K) : (a - b).y = a.y - b.y := rfl
@[simp] theorem sub_z (a b : V3 K) : (a - b).z = a.z - b.z := rfl
@[simp] theorem mul_x (a b : V3 K) : (a * b).x = a.x * b.x := rfl
@[simp] theorem mul_y (a b : V3 K) : (a * b).y = a.y * b.y := rfl
@[simp] theorem mul_z (a b : V3 K) : (a * b).z = a.z * b.z := rfl
@[simp] theorem neg_x (a : V3 K) : (-a).x = -a.x := rfl
@[simp] theorem neg_y (a : V3 K) : (-a).y = -a.y := rfl
@[simp] theorem neg_z (a : V3 K) : (-a).z = -a.z := rfl
@[simp] theorem zero_x : (0 : V3 K).x = 0 := rfl
@[simp] theorem zero_y : (0 : V3 K).y = 0 := rfl
@[simp] theorem zero_z : (0 : V3 K).z = 0 := rfl
@[simp] theorem smul_x (a : V3 K) (c : K) : (a.smul c).x = a.x * c := rfl
@[simp] theorem smul_y (a : V3 K) (c : K) : (a.smul c).y = a.y * c := rfl
@[simp] theorem smul_z (a : V3 K) (c : K) : (a.smul c).z = a.z * c := rfl

end ring

section order
variable [LinearOrder K]

/-- `operator<(const Vec3 &)`, `vector.h:457-462`: all components. -/
def lt (a b : V3 K) : Prop := a.x < b.x ∧ a.y < b.y ∧ a.z < b.z
/-- `operator<=(const Vec3 &)`, `vector.h:485-490`: all components. -/
def le (a b : V3 K) : Prop := a.x ≤ b.x ∧ a.y ≤ b.y ∧ a.z ≤ b.z

instance (a b : V3 K) : Decidable (a.lt b) := by unfold lt; infer_instance
instance (a b : V3 K) : Decidable (a.le b) := by unfold le; infer_instance

/-- `operator==`, `vector.h:513-518`. -/
def eqOp (a b : V3 K) : Bool := decide (a.x = b.x) && decide (a.y = b.y) && decide (a.z = b.z)
/-- `operator!=`, `vector.h:527-532`: all components differ. -/
def neOp (a b : V3 K) : Bool := decide (a.x ≠ b.x) && decide (a.y ≠ b.y) && decide (a.z ≠ b.z)
/-- `operator==(T c)`, `vector.h:520-525`. -/
def eqScalar (a : V3 K) (c : K) : Bool := decide (a.x = c) && decide (a.y = c) && decide (a.z = c)
/-- `operator!=(T c)`, `vector.h:534-539`. -/
def neScalar (a : V3 K) (c : K) : Bool := decide (a.x ≠ c) && decide (a.y ≠ c) && decide (a.z ≠ c)

/-- `min(const Vec3 &)`, `vector.h:599-619`. -/
def minV (a b : V3 K) : V3 K :=
  ⟨if a.x < b.x then a.x else b.x, if a.y < b.y then a.y else b.y, if a.z < b.z then a.z else b.z⟩
/-- `min(T val)`, `vector.h:621-641`. -/
def minS (a : V3 K) (c : K) : V3 K :=
  ⟨if a.x < c then a.x else c, if a.y < c then a.y else c, if a.z < c then a.z else c⟩
/-- `max(const Vec3 &)`, `vector.h:655-675`. -/
def maxV (a b : V3 K) : V3 K :=
  ⟨if a.x > b.x then a.x else b.x, if a.y > b.y then a.y else b.y, if a.z > b.z then a.z else b.z⟩
/-- `max(T val)`, `vector.h:677-697`. -/
def maxS (a : V3 K) (c : K) : V3 K :=
  ⟨if a.x > c then a.x else c, if a.y > c then a.y else c, if a.z > c then a.z else c⟩

/-- scalar `min()`, `vector.h:643-653`. -/
def minOp (a : V3 K) : K :=
  let m := if a.x > a.y then a.y else a.x
  if m > a.z then a.z else m
/-- scalar `max()`, `vector.h:699-709`; the comparisons are those of `min()`. -/
def maxOp (a : V3 K) : K :=
  let m := if a.x > a.y then a.y else a.x
  if m > a.z then a.z else m
/-- `maxValue()`, `vector.h:725-733`. -/
def maxValue (a : V3 K) : K :=
  let m := if a.y > a.x then a.y else a.x
  if a.z > m then a.z else m
/-- `minValue()`, `vector.h:735-743`. -/
def minValue (a : V3 K) : K :=
  let m := if a.y < a.x then a.y else a.x
  if a.z < m then a.z else m
/-- `maxIndex()`, `vector.h:745-754`. -/
def maxIndex (a : V3 K) : Fin 3 :=
  if a.x > a.y ∧ a.x > a.z then 0 else if a.y > a.x ∧ a.y > a.z then 1 else 2
/-- `minIndex()`, `vector.h:756-765`. -/
def minIndex (a : V3 K) : Fin 3 :=
  if a.x < a.y ∧ a.x < a.z then 0 else if a.y < a.x ∧ a.y < a.z then 1 else 2

end order

section absop
variable [LinearOrder K] [Ring K]
/-- `operator~`, `vector.h:577-597`: component-wise absolute value. -/
def absV (a : V3 K) : V3 K :=
  ⟨if a.x < 0 then -a.x else a.x, if a.y < 0 then -a.y else a.y, if a.z < 0 then -a.z else a.z⟩
end absop

end V3

namespace V2

variable {K : Type}

section ring
variable [Ring K]
/-- `operator+`, `vector.h:49-55`. -/
instance : Add (V2 K) := ⟨fun a b => ⟨a.x + b.x, a.y + b.y⟩⟩
/-- `operator-`, `vector.h:57-63`. -/
instance : Sub (V2 K) := ⟨fun a b => ⟨a.x - b.x, a.y - b.y⟩⟩
/-- `operator*(T c)`, `vector.h:65-71`. -/
def smul (a : V2 K) (c : K) : V2 K := ⟨a.x * c, a.y * c⟩
/-- dot product, `vector.h:187-191`. -/
def dot (a b : V2 K) : K := b.x * a.x + b.y * a.y
/-- `sqrNorm`, `vector.h:211-214`. -/
def sqrNorm (a : V2 K) : K := a.x * a.x + a.y * a.y
@[simp] theorem add_x (a b : V2 K) : (a + b).x = a.x + b.x := rfl
@[simp] theorem add_y (a b : V2 K) : (a + b).y = a.y + b.y := rfl
@[simp] theorem sub_x (a b : V2 K) : (a - b).x = a.x - b.x := rfl
@[simp] theorem sub_y (a b : V2 K) : (a - b).y = a.y - b.y := rfl
@[simp] theorem smul_x (a : V2 K) (c : K) : (a.smul c).x = a.x * c := rfl
@[simp] theorem smul_y (a : V2 K) (c : K) : (a.smul c).y = a.y * c := rfl
end ring

section eq
variable [DecidableEq K]
/-- `operator==`, `vector.h:162-166`. -/
def eqOp (a b : V2 K) : Bool := decide (a.x = b.x) && decide (a.y = b.y)
/-- `operator!=`, `vector.h:174-178`. -/
def neOp (a b : V2 K) : Bool := decide (a.x ≠ b.x) && decide (a.y ≠ b.y)
end eq

end V2
end Feign
