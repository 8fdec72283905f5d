import Verif.Value.StepsProps

/-! # C46: exactly when a range is undefined -/
namespace Vega.StepSpec
open StepRange

/-- **C46** a range given by its step and its end is undefined behaviour exactly when the step is null or the
quotient is beyond the values of `int`. -/
theorem C46_undefined_exactly_false (start step end_ : Dbl) :
    ofStepEnd start step end_ = .ub ↔
      step = 0 ∨ 2147483648 ≤ (end_ - start) / step ∨ (end_ - start) / step ≤ -2147483649 := by
  unfold ofStepEnd
  by_cases hs : step = 0
  · simp [hs]
  · rw [if_neg hs]
    generalize (end_ - start) / step = x
    have key : isInt (trunc x) = false ↔ 2147483648 ≤ x ∨ x ≤ -2147483649 := by
      unfold isInt trunc
      by_cases h0 : 0 ≤ x
      · rw [if_pos h0]
        have hf : 0 ≤ ⌊x⌋ := Int.floor_nonneg.mpr h0
        have h1 : (2147483648 : ℚ) ≤ x ↔ 2147483648 ≤ ⌊x⌋ := by
          rw [Int.le_floor]; norm_num
        have h2 : ¬ x ≤ -2147483649 := by intro h; linarith
        rw [h1]
        simp only [h2, or_false, decide_eq_false_iff_not]
        omega
      · rw [if_neg h0]
        have hx : x ≤ 0 := by linarith
        have hf : ⌈x⌉ ≤ 0 := Int.ceil_le.mpr (by simpa using hx)
        have h1 : x ≤ (-2147483649 : ℚ) ↔ ⌈x⌉ ≤ -2147483649 := by
          rw [Int.ceil_le]; norm_num
        have h2 : ¬ (2147483648 : ℚ) ≤ x := by intro h; linarith
        rw [h1]
        simp only [h2, false_or, decide_eq_false_iff_not]
        omega
    rw [← key]
    cases isInt (trunc x) <;> simp [hs]

example : ofStepEnd 0 (1 / 1000000000) 10 = .ub ∧ ofStepEnd 0 (1 / 100) 10 ≠ .ub :=
  ⟨(C46_undefined_exactly_false _ _ _).mpr (by norm_num),
    fun h => absurd ((C46_undefined_exactly_false _ _ _).mp h) (by norm_num)⟩

end Vega.StepSpec
