import Verif.Value.Steps
import Mathlib.Tactic.FieldSimp
import Mathlib.Tactic.Linarith
import Mathlib.Tactic.NormNum
import Mathlib.Tactic.Ring
import Mathlib.Algebra.Order.Floor.Ring

/-!
# Step ranges are consistent (C46)
-/
namespace Vega.StepSpec
open StepRange

/-- The k-th value of a range, counted from its start. -/
def value (r : StepRange) (s : Dbl) (k : Int) : Dbl := r.start + s * k

/-- **C46** given a start, a number of steps and an end, the last step arrives exactly at the end. -/
theorem C46_count_end (start end_ : Dbl) (count : Int) (h : count ≠ 0) :
    ∃ s, (ofCountEnd start count end_).step = some s ∧ (ofCountEnd start count end_).start = start ∧
      (ofCountEnd start count end_).count = count ∧ (ofCountEnd start count end_).end_ = end_ ∧
      value (ofCountEnd start count end_) s count = end_ := by
  refine ⟨(end_ - start) / count, by simp only [ofCountEnd, if_neg h], rfl, rfl, rfl, ?_⟩
  have hc : (count : Dbl) ≠ 0 := by exact_mod_cast h
  simp only [value, ofCountEnd]
  field_simp
  ring

/-- **C46** given a start, a step and a number of steps, the end is exactly the last step. -/
theorem C46_step_count (start step : Dbl) (count : Int) :
    (ofStepCount start step count).start = start ∧ (ofStepCount start step count).step = some step ∧
      (ofStepCount start step count).count = count ∧
      value (ofStepCount start step count) step count = (ofStepCount start step count).end_ :=
  ⟨rfl, rfl, rfl, rfl⟩

theorem trunc_spec (q : Dbl) : |q - trunc q| < 1 ∧ |(trunc q : Dbl)| ≤ |q| := by
  unfold trunc
  split
  · rename_i h
    have h1 := Int.floor_le q
    have h2 := Int.lt_floor_add_one q
    have h3 : (0 : Dbl) ≤ ⌊q⌋ := by exact_mod_cast Int.floor_nonneg.mpr h
    rw [abs_of_nonneg h, abs_of_nonneg h3, abs_of_nonneg (by linarith)]
    exact ⟨by linarith, h1⟩
  · rename_i h
    have h0 : q < 0 := not_le.mp h
    have h1 := Int.le_ceil q
    have h2 := Int.ceil_lt_add_one q
    have h3 : ((⌈q⌉ : Int) : Dbl) ≤ 0 := by exact_mod_cast Int.ceil_le.mpr (by simpa using h0.le)
    rw [abs_of_neg h0, abs_of_nonpos h3, abs_of_nonpos (by linarith)]
    exact ⟨by linarith, by linarith⟩

/-- **C46** given a start, a step and an end, the number of steps is the largest that stays within
the end: the last value is less than one step away from the end, and not beyond it. -/
theorem C46_step_end (start step end_ : Dbl) (r : StepRange) (h : ofStepEnd start step end_ = .ok r) :
    r.start = start ∧ r.step = some step ∧ r.end_ = end_ ∧ |r.end_ - value r step r.count| < |step| ∧
      |value r step r.count - r.start| ≤ |r.end_ - r.start| := by
  unfold ofStepEnd at h
  split at h
  · cases h
  · rename_i hs
    split at h
    · cases h
      obtain ⟨h1, h2⟩ := trunc_spec ((end_ - start) / step)
      have e : end_ - start = (end_ - start) / step * step := by field_simp
      refine ⟨rfl, rfl, rfl, ?_, ?_⟩
      · have e2 : end_ - (start + step * trunc ((end_ - start) / step)) =
            ((end_ - start) / step - trunc ((end_ - start) / step)) * step := by
          rw [sub_mul, ← e]; ring
        simp only [value]
        rw [e2, abs_mul]
        have : 0 < |step| := abs_pos.mpr hs
        nlinarith
      · simp only [value]
        have e3 : start + step * trunc ((end_ - start) / step) - start =
            trunc ((end_ - start) / step) * step := by ring
        rw [e3, abs_mul]
        have e4 : |end_ - start| = |(end_ - start) / step| * |step| := by rw [← abs_mul, ← e]
        rw [e4]
        exact mul_le_mul_of_nonneg_right h2 (abs_nonneg _)
    · cases h

/-- **C46** when the end is a whole number of steps away, it is reached exactly. -/
theorem C46_whole (start step : Dbl) (n : Int) (hs : step ≠ 0) (hn : isInt n = true) :
    ofStepEnd start step (start + step * n) = .ok ⟨start, some step, n, start + step * n⟩ := by
  have e : (start + step * n - start) / step = n := by field_simp; ring
  have t : trunc (n : Dbl) = n := by
    unfold trunc
    split
    · exact Int.floor_intCast n
    · exact Int.ceil_intCast n
  rw [ofStepEnd, if_neg hs, e, t, if_pos hn]

/-- A null step, or one too small for the number of steps to be an `int`: undefined behaviour. -/
theorem C46_undefined_false : (∀ start end_ : Dbl, ofStepEnd start 0 end_ = .ub) ∧
    ∃ start step end_ : Dbl, step ≠ 0 ∧ ofStepEnd start step end_ = .ub :=
  ⟨fun _ _ => by simp [ofStepEnd], 0, 1 / 1000000000, 10, by norm_num, by
    have t : trunc ((10 - 0) / (1 / 1000000000) : Dbl) = 10000000000 := by
      unfold trunc
      norm_num
    rw [ofStepEnd, if_neg (by norm_num), t, if_neg (by decide)]⟩

/-- No steps: the step is not a number, whatever the end. -/
theorem C46_no_steps_false (start end_ : Dbl) : (ofCountEnd start 0 end_).step = none := by
  simp [ofCountEnd]

/-- Decimal steps: from 0 to 0.3 by 0.1, as the nearest doubles, there are two steps, not three; the
last value is a whole step short of the end. -/
theorem C46_decimal : ∃ r, ofStepEnd 0 (3602879701896397 / 2 ^ 55) (5404319552844595 / 2 ^ 54) = .ok r ∧
    r.count = 2 := by
  have t : trunc (((5404319552844595 : Dbl) / 2 ^ 54 - 0) / (3602879701896397 / 2 ^ 55)) = 2 := by
    unfold trunc
    rw [if_pos (by norm_num), Int.floor_eq_iff]
    norm_num
  refine ⟨⟨0, some (3602879701896397 / 2 ^ 55), 2, 5404319552844595 / 2 ^ 54⟩, ?_, rfl⟩
  rw [ofStepEnd, if_neg (by norm_num), t]
  rfl

example : ofStepEnd 1 (1 / 4) 3 = .ok ⟨1, some (1 / 4), 8, 3⟩ := by
  have := C46_whole 1 (1 / 4) 8 (by norm_num) (by decide)
  norm_num at this
  norm_num [this]

end Vega.StepSpec
