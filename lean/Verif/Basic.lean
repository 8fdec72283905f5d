/-!
# Outcomes of modelled C++ functions

A C++ function may return, throw, have undefined behaviour or fail to return.
The model keeps these apart.
-/
namespace Vega

/-- Result of running a modelled C++ function. -/
inductive Outcome (α : Type u) where
  /-- normal return -/
  | ok (a : α)
  /-- an exception is thrown (the kind of exception is not modelled) -/
  | throw
  /-- undefined behaviour: nothing is guaranteed any more -/
  | ub
  /-- the call does not return -/
  | diverges
  deriving DecidableEq, Repr

namespace Outcome

/-- Sequencing: the first abnormal outcome wins. -/
@[inline] def bind : Outcome α → (α → Outcome β) → Outcome β
  | ok a, f => f a
  | throw, _ => throw
  | ub, _ => ub
  | diverges, _ => diverges

instance : Monad Outcome where
  pure := ok
  bind := bind

/-- The value of a normal return, if any. -/
def toOption : Outcome α → Option α
  | ok a => some a
  | _ => none

@[simp] theorem bind_ok (a : α) (f : α → Outcome β) : (ok a >>= f) = f a := rfl
@[simp] theorem bind_throw (f : α → Outcome β) : ((throw : Outcome α) >>= f) = throw := rfl
@[simp] theorem bind_ub (f : α → Outcome β) : ((ub : Outcome α) >>= f) = ub := rfl
@[simp] theorem bind_diverges (f : α → Outcome β) :
    ((diverges : Outcome α) >>= f) = diverges := rfl
@[simp] theorem pure_eq (a : α) : (pure a : Outcome α) = ok a := rfl

end Outcome
end Vega
