import Mathlib.Analysis.Real.Sqrt
import Mathlib.Tactic.Ring
import Mathlib.Tactic.Linarith
import Mathlib.Tactic.FieldSimp
import Mathlib.Tactic.Positivity
import Mathlib.Tactic.LinearCombination

/-!
# Vectors of three coordinates: `VectorialValue` (Value.h 385-436, Value.cpp 168-272)

Coordinates are exact reals. A division by a null norm gives a vector of NaN in C++ and `none` here.
-/
namespace Vega

/-- `VectorialValue` (Value.h 385-436). -/
@[ext] structure Vec where
  x : ℝ
  y : ℝ
  z : ℝ

namespace Vec

/-- `VectorialValue::O` (Value.cpp 267). -/
def zero : Vec := ⟨0, 0, 0⟩

/-- `operator+` (Value.cpp 238-240). -/
def add (a b : Vec) : Vec := ⟨a.x + b.x, a.y + b.y, a.z + b.z⟩

/-- `operator-` (Value.cpp 242-244). -/
def sub (a b : Vec) : Vec := ⟨a.x - b.x, a.y - b.y, a.z - b.z⟩

/-- `operator*` (Value.cpp 246-248); `scaled` and `scale` (209-217) multiply on the right. -/
def smul (k : ℝ) (a : Vec) : Vec := ⟨k * a.x, k * a.y, k * a.z⟩

/-- `VectorialValue::dot` (Value.cpp 220-222). -/
def dot (a b : Vec) : ℝ := a.x * b.x + a.y * b.y + a.z * b.z

/-- `VectorialValue::cross` (Value.cpp 224-227). -/
def cross (a b : Vec) : Vec :=
  ⟨a.y * b.z - a.z * b.y, a.z * b.x - a.x * b.z, a.x * b.y - a.y * b.x⟩

/-- `VectorialValue::norm` (Value.cpp 188-190), `ublas::norm_2`. -/
noncomputable def norm (a : Vec) : ℝ := Real.sqrt (a.x * a.x + a.y * a.y + a.z * a.z)

/-- Coordinate-wise division by a real; by zero it gives NaN or infinities, `none`. -/
noncomputable def divBy (a : Vec) (k : ℝ) : Option Vec :=
  open Classical in if k = 0 then none else some ⟨a.x / k, a.y / k, a.z / k⟩

/-- `VectorialValue::normalized` (Value.cpp 203-207). -/
noncomputable def normalized (a : Vec) : Option Vec := a.divBy a.norm

/-- `v.orthonormalized(u)` (Value.cpp 196-201): Gram-Schmidt of `v` against `u`. -/
noncomputable def orthonormalized (v u : Vec) : Option Vec :=
  open Classical in
  if dot u u = 0 then none else (sub v (smul (dot u v / dot u u) u)).normalized

/-- `a + b` of two vectors that may be NaN. -/
def addOpt : Option Vec → Option Vec → Option Vec
  | some a, some b => some (add a b)
  | _, _ => none

theorem norm_sq (a : Vec) : a.norm * a.norm = dot a a := by
  unfold norm dot
  exact Real.mul_self_sqrt (by nlinarith [sq_nonneg a.x, sq_nonneg a.y, sq_nonneg a.z])

theorem norm_nonneg (a : Vec) : 0 ≤ a.norm := Real.sqrt_nonneg _

theorem dot_self_eq_zero {a : Vec} : dot a a = 0 ↔ a = zero := by
  unfold dot zero
  constructor
  · intro h
    have hx : a.x = 0 := by nlinarith [sq_nonneg a.x, sq_nonneg a.y, sq_nonneg a.z]
    have hy : a.y = 0 := by nlinarith [sq_nonneg a.x, sq_nonneg a.y, sq_nonneg a.z]
    have hz : a.z = 0 := by nlinarith [sq_nonneg a.x, sq_nonneg a.y, sq_nonneg a.z]
    ext <;> simp [hx, hy, hz]
  · rintro rfl; simp

theorem norm_eq_zero {a : Vec} : a.norm = 0 ↔ a = zero := by
  rw [← dot_self_eq_zero, ← norm_sq]
  constructor
  · intro h; rw [h]; ring
  · intro h; exact mul_self_eq_zero.mp h

theorem normalized_zero : zero.normalized = none := by
  have : zero.norm = 0 := norm_eq_zero.mpr rfl
  simp [normalized, divBy, this]

theorem normalized_eq {a : Vec} (h : a ≠ zero) :
    a.normalized = some (smul (1 / a.norm) a) := by
  have : a.norm ≠ 0 := fun e => h (norm_eq_zero.mp e)
  unfold normalized divBy
  rw [if_neg this]
  congr 1
  ext <;> simp only [smul] <;> ring

theorem normalized_some {a b : Vec} (h : a.normalized = some b) :
    a ≠ zero ∧ b = smul (1 / a.norm) a := by
  by_cases ha : a = zero
  · rw [ha, normalized_zero] at h; cases h
  · rw [normalized_eq ha] at h
    exact ⟨ha, (Option.some.inj h).symm⟩

theorem normalized_unit {a b : Vec} (h : a.normalized = some b) : dot b b = 1 := by
  obtain ⟨ha, rfl⟩ := normalized_some h
  have hn : a.norm ≠ 0 := fun e => ha (norm_eq_zero.mp e)
  have h2 := norm_sq a
  have : dot (smul (1 / a.norm) a) (smul (1 / a.norm) a) = dot a a / (a.norm * a.norm) := by
    unfold dot smul; field_simp
  rw [this, ← h2]
  exact div_self (mul_ne_zero hn hn)

end Vec
end Vega
