import Verif.Basic
import Verif.Num
import Mathlib.Algebra.Order.Floor.Ring
import Mathlib.Data.Rat.Floor

/-!
# Step ranges (Value.h 253-268, Value.cpp 102-117)
-/
namespace Vega

/-- `StepRange` (Value.h 253-258). `step` is `none` when it is not a finite number. -/
structure StepRange where
  start : Dbl
  step : Option Dbl
  count : Int
  end_ : Dbl

namespace StepRange

/-- The rational truncated towards zero, as `static_cast<int>` does. -/
def trunc (q : Dbl) : Int := if 0 ≤ q then ⌊q⌋ else ⌈q⌉

/-- The values of `int`. -/
def isInt (n : Int) : Bool := -2147483648 ≤ n ∧ n ≤ 2147483647

/-- The constructor from a step and an end (Value.cpp 102-105). The quotient is not a number, or
infinite, if the step is null: converting it to `int` is undefined behaviour, and so is converting a
number out of range. -/
def ofStepEnd (start step end_ : Dbl) : Outcome StepRange :=
  if step = 0 then .ub
  else if isInt (trunc ((end_ - start) / step)) then
    .ok ⟨start, some step, trunc ((end_ - start) / step), end_⟩
  else .ub

/-- The constructor from a number of steps and an end (Value.cpp 107-109); the step is infinite or
not a number if there are no steps. -/
def ofCountEnd (start : Dbl) (count : Int) (end_ : Dbl) : StepRange :=
  ⟨start, if count = 0 then none else some ((end_ - start) / count), count, end_⟩

/-- The constructor from a step and a number of steps (Value.cpp 110-113). -/
def ofStepCount (start step : Dbl) (count : Int) : StepRange :=
  ⟨start, some step, count, start + step * count⟩

/-- `iszero` (Value.cpp 115-117). -/
def isZero (r : StepRange) : Bool :=
  isEqual r.start r.end_ || r.count = 0 ||
    match r.step with
    | none => false
    | some s => isEqual s 0

end StepRange
end Vega
