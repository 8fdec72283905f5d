import Verif.Dof.Props

/-! # C02: bad codes above 22 -/
namespace Vega.DofSpec

/-- **C02** every bad code above 22 leads to undefined behaviour, not to an exception. -/
theorem C02_bad_digit_always_false (n : Nat) (h : ∃ d, Digit n d ∧ ¬ (1 ≤ d ∧ d ≤ 6)) (h22 : 22 < n) :
    Dofs.nastranCodeToDOFS n = .ub := by
  have hn : (n : Int) ≠ 0 := by omega
  have : Dofs.nastranCodeToDOFS n = Dofs.rejectCode n := by
    simp only [Dofs.nastranCodeToDOFS, hn, if_false]
    exact nastranLoop_bad _ _ _ h
  rw [this]
  unfold Dofs.rejectCode
  rw [if_neg (by omega)]

example : (∃ d, Digit 1237 d ∧ ¬ (1 ≤ d ∧ d ≤ 6)) ∧ 22 < 1237 := ⟨⟨7, ⟨0, by decide⟩, by decide⟩, by decide⟩

end Vega.DofSpec
