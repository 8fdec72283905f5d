import Verif.Dof.CoefsProps

/-! # C05: what a sum of coefficients loses -/
namespace Vega.DofCoefsSpec
open DofCoefs

/-- **C05** a sum loses every value of usual size that the left operand has and the right one lacks. -/
theorem C05_sum_always_false (a : DofCoefs) (dofs : Dofs) (v : Dbl) (d : Dof) (x : Dbl)
    (ha : value a d = some x) (hx : |x| ≤ 2 ^ 900) (hd : dofs.contains d = false) :
    value (a.add (ofDofs dofs v)) d = none := by
  have hu : isEqual (a.coefs d) unavailable = false ∧ a.coefs d = x := by
    unfold value getValue at ha
    cases h : isEqual (a.coefs d) unavailable <;> simp [h] at ha ⊢
    exact ha
  have h : isEqual (x + unavailable) unavailable = true := by
    unfold isEqual
    rw [decide_eq_true_eq]
    have h1 : x + unavailable - unavailable = x := by ring
    rw [h1]
    have h2 : dblMax ≤ max 1 (max |x + unavailable| |unavailable|) := by
      apply le_trans _ (le_max_right _ _)
      apply le_trans _ (le_max_right _ _)
      unfold unavailable
      rw [abs_neg]
      exact le_abs_self _
    have h3 : (2 : ℚ) ^ 900 ≤ tol * dblMax := by
      unfold tol dblMax
      have h : (2 : ℚ) ^ 1023 = 2 ^ 123 * 2 ^ 900 := by rw [← pow_add]
      have h0 : (0 : ℚ) < 2 ^ 900 := pow_pos (by norm_num) _
      rw [h]
      generalize (2 : ℚ) ^ 900 = a at h0 ⊢
      norm_num
      linarith
    have h4 : tol * dblMax ≤ tol * max 1 (max |x + unavailable| |unavailable|) :=
      mul_le_mul_of_nonneg_left h2 tol_pos.le
    exact hx.trans (h3.trans h4)
  unfold value getValue add ofDofs
  have h0 := hu.1
  rw [hu.2] at h0
  simp [hu.2, hd, h0, h]

example : value (ofDof .DX 1) .DX = some 1 ∧ |(1 : Dbl)| ≤ 2 ^ 900 ∧ (Dofs.ROTATIONS).contains .DX = false := by
  refine ⟨?_, ?_, by decide⟩
  · rw [C05_ofDof _ _ (by unfold Ordinary; have := four_le_dblMax; simp; linarith)]
    simp
  · rw [abs_one]
    exact one_le_pow₀ (by norm_num)

end Vega.DofCoefsSpec
