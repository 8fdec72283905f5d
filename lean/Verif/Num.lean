import Mathlib.Algebra.Order.Field.Rat
import Mathlib.Algebra.Order.AbsoluteValue.Basic
import Mathlib.Tactic.Linarith
import Mathlib.Tactic.NormNum

/-!
# Numbers

`double` is modelled by exact rational arithmetic: rounding, overflow, NaN and
infinities are not represented. The two constants and the two comparison
functions of `Abstract/Utility.h` are kept with their real tolerance.
-/
namespace Vega

/-- `double`, without rounding. -/
abbrev Dbl := ℚ

/-- `Globals::DOUBLE_COMPARE_TOLERANCE` (Utility.h 53): five times 2^-52. -/
def tol : Dbl := 5 / 2 ^ 52

/-- `DBL_MAX` = (2 - 2^-52) * 2^1023. -/
def dblMax : Dbl := (2 - 1 / 2 ^ 52) * 2 ^ 1023

/-- `Globals::UNAVAILABLE_DOUBLE` (Utility.h 52), also `DOFS::FREE_DOF` (Dof.cpp 70). -/
def unavailable : Dbl := -dblMax

/-- `is_zero` (Utility.h 67-69). -/
def isZero (x : Dbl) : Bool := decide (|x| ≤ tol)

/-- `is_equal` (Utility.h 71-73). -/
def isEqual (x y : Dbl) : Bool := decide (|x - y| ≤ tol * max 1 (max |x| |y|))

theorem tol_pos : 0 < tol := by norm_num [tol]
theorem tol_lt_one : tol < 1 := by norm_num [tol]
theorem dblMax_pos : 0 < dblMax := by norm_num [dblMax]
theorem four_le_dblMax : 4 ≤ dblMax := by
  have h : (2 : ℚ) ^ 3 ≤ 2 ^ 1023 := pow_le_pow_right₀ (by norm_num) (by norm_num)
  have h2 : (1 : ℚ) ≤ 2 - 1 / 2 ^ 52 := by norm_num
  unfold dblMax
  generalize (2 : ℚ) ^ 1023 = a at h ⊢
  generalize (2 : ℚ) - 1 / 2 ^ 52 = b at h2 ⊢
  nlinarith
theorem one_lt_dblMax : 1 < dblMax := by have := four_le_dblMax; linarith

@[simp] theorem isZero_zero : isZero 0 = true := by
  simp [isZero, tol_pos.le]

@[simp] theorem isEqual_self (x : Dbl) : isEqual x x = true := by
  have : (0 : Dbl) ≤ tol * max 1 (max |x| |x|) :=
    mul_nonneg tol_pos.le (le_trans zero_le_one (le_max_left _ _))
  simpa [isEqual] using this

theorem isEqual_comm (x y : Dbl) : isEqual x y = isEqual y x := by
  unfold isEqual
  rw [abs_sub_comm, max_comm |x| |y|]

/-- Comparing with zero by `is_equal` or by `is_zero` is the same. -/
theorem isEqual_zero_right (x : Dbl) : isEqual x 0 = isZero x := by
  unfold isEqual isZero
  have h : (|x - 0| ≤ tol * max 1 (max |x| |0|)) ↔ (|x| ≤ tol) := by
    simp only [sub_zero, abs_zero]
    rw [max_eq_left (abs_nonneg x)]
    constructor
    · intro h
      rcases le_total |x| 1 with h1 | h1
      · rwa [max_eq_left h1, mul_one] at h
      · rw [max_eq_right h1] at h
        have := tol_lt_one
        nlinarith
    · intro h
      have h1 : (1 : Dbl) ≤ max 1 |x| := le_max_left _ _
      have := tol_pos
      nlinarith
  exact decide_eq_decide.mpr h

/-- A rational that is far from `-DBL_MAX` is recognised as available. -/
theorem isEqual_unavailable_of_small (x : Dbl) (h : |x| ≤ 1) : isEqual x unavailable = false := by
  unfold isEqual unavailable
  have hm := one_lt_dblMax
  have ht : tol ≤ 1 / 4 := by norm_num [tol]
  have h4 : (4 : Dbl) ≤ dblMax := four_le_dblMax
  rw [decide_eq_false_iff_not]
  intro hc
  have habs : |(-dblMax)| = dblMax := by rw [abs_neg, abs_of_pos dblMax_pos]
  rw [habs, max_eq_right (le_trans h hm.le), max_eq_right hm.le] at hc
  have hx := abs_le.mp h
  have h2 : dblMax - 1 ≤ |x - -dblMax| := by
    have := le_abs_self (x - -dblMax)
    linarith [hx.1]
  nlinarith

/-- A rational of at most half the magnitude of `DBL_MAX` is recognised as available. -/
theorem isEqual_unavailable_of_le_half (x : Dbl) (h : |x| ≤ dblMax / 2) :
    isEqual x unavailable = false := by
  unfold isEqual unavailable
  have ht : tol ≤ 1 / 4 := by norm_num [tol]
  have h4 : (4 : Dbl) ≤ dblMax := four_le_dblMax
  rw [decide_eq_false_iff_not]
  intro hc
  have habs : |(-dblMax)| = dblMax := by rw [abs_neg, abs_of_pos dblMax_pos]
  rw [habs, max_eq_right (by linarith : |x| ≤ dblMax), max_eq_right one_lt_dblMax.le] at hc
  have hx := abs_le.mp h
  have h2 : dblMax / 2 ≤ |x - -dblMax| := by
    have := le_abs_self (x - -dblMax)
    linarith [hx.1]
  nlinarith

end Vega
