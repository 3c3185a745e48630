/-!
# Outcomes of modelled C++ code

A modelled call either returns (`ok`), throws (`throw`), or runs into undefined behaviour (`ub`).
Nothing in the model turns undefined behaviour into a value.
-/

namespace Feign

/-- Outcome of a modelled C++ call. `throw` models `throw new X(...)` as well as standard-library
exceptions; the string is only there for the reader and is never inspected. -/
inductive Res (α : Type) where
  | ok (a : α)
  | throw (msg : String)
  | ub (why : String)
  deriving DecidableEq, Repr

namespace Res

variable {α β : Type}

/-- Sequencing: a throw or undefined behaviour ends the call. -/
def bind (r : Res α) (f : α → Res β) : Res β :=
  match r with
  | ok a => f a
  | throw m => throw m
  | ub w => ub w

instance : Monad Res where
  pure := ok
  bind := bind

/-- Did the call return normally? -/
def isOk : Res α → Bool
  | ok _ => true
  | _ => false

def isThrow : Res α → Bool
  | throw _ => true
  | _ => false

def isUb : Res α → Bool
  | ub _ => true
  | _ => false

@[simp] theorem bind_ok (a : α) (f : α → Res β) : (ok a >>= f) = f a := rfl
@[simp] theorem bind_throw (m : String) (f : α → Res β) : ((throw m : Res α) >>= f) = throw m := rfl
@[simp] theorem bind_ub (w : String) (f : α → Res β) : ((ub w : Res α) >>= f) = ub w := rfl
@[simp] theorem pure_eq (a : α) : (pure a : Res α) = ok a := rfl

theorem bind_eq_ok {r : Res α} {f : α → Res β} {b : β} :
    (r >>= f) = ok b ↔ ∃ a, r = ok a ∧ f a = ok b := by
  cases r <;> simp

end Res
end Feign
