import Verif.Load.KindsProps

/-! # C42: gravity below the tolerance -/
namespace Vega.KindsSpec
open Vec Load

/-- **C42** whatever the factor below the tolerance and the effect `y`, some gravity with that factor and effect
is declared ineffective. -/
theorem C42_gravity_always_false (w : World) (f y : Dbl) (hf : f ≠ 0) (ht : |f| ≤ tol) :
    ineffective w.heap (gravity f ⟨y / f, 0, 0⟩) = .ok true ∧
      effects w (gravity f ⟨y / f, 0, 0⟩) = [some (y : ℝ), some 0, some 0] := by
  constructor
  · have : isZero f = true := by unfold isZero; simpa using ht
    simp [ineffective, this]
  · have h : (f : ℝ) ≠ 0 := by exact_mod_cast hf
    simp [effects, comps, smul, QVec.toVec]
    field_simp

example : (1 / 2 ^ 60 : Dbl) ≠ 0 ∧ |(1 / 2 ^ 60 : Dbl)| ≤ tol := by
  rw [abs_of_pos (by norm_num)]; norm_num [tol]

end Vega.KindsSpec
