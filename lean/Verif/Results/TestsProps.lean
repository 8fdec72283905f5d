import Verif.Results.Tests
import Verif.Systus.SubcasesProps
import Mathlib.Tactic.Linarith
import Mathlib.Tactic.NormNum
import Mathlib.Tactic.Positivity
import Mathlib.Algebra.Order.Field.Rat

/-! # C114: the tests written for the solvers accept the expected results and no others -/
namespace Vega
namespace TestSpec
open Tests

/-- The result `x` is the expected `ref` up to the tolerance, which is relative. -/
def Within (tol ref x : ℚ) : Prop := |x - ref| ≤ tol * |ref|

/-- The same for complex numbers, both sides squared. -/
def WithinComplex (tol re im x y : ℚ) : Prop := (x - re) ^ 2 + (y - im) ^ 2 ≤ tol ^ 2 * (re ^ 2 + im ^ 2)

/-- A comparison of `TEST_RESU` as generally known: relative to the expected value, or absolute. -/
def Compares (c : Criterion) (tol ref x : ℚ) : Prop :=
  match c with
  | .relative => |x - ref| ≤ tol * |ref|
  | .absolute => |x - ref| ≤ tol

/-- The test accepts the real `x`: `VALE_CALC` with `TOLE_MACHINE`, and `VALE_REFE` with `PRECISION` if they are given. -/
def Accepts (r : Row) (x : ℚ) : Prop :=
  Compares r.criterion r.tole r.expected.1 x ∧ ∀ p ∈ r.reference, Compares r.criterion p.2 p.1 x

/-- The same for a complex result, both sides squared. -/
def AcceptsComplex (r : Row) (x y : ℚ) : Prop :=
  match r.criterion with
  | .relative => (x - r.expected.1) ^ 2 + (y - r.expected.2) ^ 2 ≤ r.tole ^ 2 * (r.expected.1 ^ 2 + r.expected.2 ^ 2)
  | .absolute => (x - r.expected.1) ^ 2 + (y - r.expected.2) ^ 2 ≤ r.tole ^ 2

end TestSpec

namespace Tests
open TestSpec

/-! ## Helper lemmas -/

theorem criterion_real (v : ℚ) : criterionOf v 0 = if smallest ≤ |v| then .relative else .absolute := by
  unfold criterionOf
  have h0 : (0 : ℚ) ≤ smallest := by norm_num [smallest]
  have : smallest ^ 2 ≤ v ^ 2 + 0 ^ 2 ↔ smallest ≤ |v| := by
    rw [← sq_abs v]
    constructor
    · intro h
      nlinarith [abs_nonneg v]
    · intro h
      nlinarith [abs_nonneg v]
  simp only [this]

theorem ok_relative {c : Check} (hr : c.relative = true) (hv : c.value.1 ≠ 0) (ht : 0 ≤ c.tol) (x : ℚ) :
    c.ok x = true ↔ Within c.tol c.value.1 x := by
  have hpos : 0 < |c.value.1| := abs_pos.2 hv
  simp only [Check.ok, hr, if_true, decide_eq_true_eq, not_lt, gt_iff_lt, Within, abs_div, abs_of_nonneg ht]
  rw [div_le_iff₀ hpos]

theorem ok_absolute {c : Check} (hr : c.relative = false) (ht : 0 ≤ c.tol) (x : ℚ) : c.ok x = true ↔ |x - c.value.1| ≤ c.tol := by
  simp [Check.ok, hr, abs_of_nonneg ht]

theorem ne_zero_of_large {v : ℚ} (h : systusSmallest ≤ |v|) : v ≠ 0 := by
  rintro rfl
  norm_num [systusSmallest] at h

/-! ## C114, Code_Aster -/

/-- **C114.** The tests of an analysis are those of each of its assertions, in order, and none else. -/
theorem C114_aster_all (b : Bounds) (as : List Assertion) (h : as ≠ []) :
    ∃ rows, testResu b as = some rows ∧ rows = as.flatMap (asterRows b) ∧ ∀ r ∈ rows, ∃ a ∈ as, r ∈ asterRows b a := by
  refine ⟨_, ?_, rfl, ?_⟩
  · unfold testResu
    rw [if_neg (by simpa using h)]
  · intro r hr
    simpa [List.mem_flatMap] using hr

/-- **C114.** An expected displacement of at least 1e-7 gives one test, at its node and component, at its instant or else at the first
result. The test accepts a result exactly when it is the expected one up to the tolerance. -/
theorem C114_aster_displacement_partial (b : Bounds) (pos : Nat) (node : Int) (dof : Fin 6) (value instant t : ℚ) (hv : 1 / 10 ^ 7 ≤ |value|) :
    ∃ r, asterRows b (.displacement pos node dof value instant t) = [r] ∧ r.quantity = .depl pos dof ∧ r.modes = false ∧
      (instant = -1 → r.place = .order1) ∧ (0 ≤ instant → r.place = .instant instant) ∧
      ∀ x, Accepts r x ↔ Within t value x := by
  have hz : isZero value = false := by
    simp only [isZero, decide_eq_false_iff_not, not_le]
    refine lt_of_lt_of_le ?_ hv
    norm_num [tol]
  refine ⟨_, rfl, rfl, rfl, ?_, ?_, ?_⟩
  · rintro rfl
    simp only [displacementRow]
    rw [if_pos (by exact isEqual_self _)]
  · intro h0
    simp only [displacementRow]
    rw [if_neg]
    simp only [isEqual, noInstant, decide_eq_true_eq, not_le, abs_neg, abs_one]
    rw [abs_of_nonneg h0, abs_of_nonneg (by linarith)]
    have h1 : max 1 (max instant 1) ≤ instant + 1 := by
      refine max_le (by linarith) (max_le (by linarith) (by linarith))
    calc tol * max 1 (max instant 1) ≤ tol * (instant + 1) := mul_le_mul_of_nonneg_left h1 (le_of_lt tol_pos)
      _ < 1 * (instant + 1) := mul_lt_mul_of_pos_right tol_lt_one (by linarith)
      _ = instant - -1 := by linarith
  · intro x
    have hc : (displacementRow pos dof value instant t).criterion = .relative := by
      have h' : smallest ≤ |value| := hv
      simp only [displacementRow, criterion_real]
      rw [if_pos h']
    simp only [Accepts, hc, Compares, Within]
    simp [displacementRow, hz]

example : (1 : ℚ) / 10 ^ 7 ≤ |(-3 / 1000 : ℚ)| := by norm_num [abs_of_neg]

/-- **C114 (partial).** For an expected displacement below 1e-7 the tolerance is absolute: what is accepted is the expected result up to
it. -/
theorem C114_aster_small_partial (b : Bounds) (pos : Nat) (node : Int) (dof : Fin 6) (value instant t : ℚ) (hv : |value| < 1 / 10 ^ 7) :
    ∃ r, asterRows b (.displacement pos node dof value instant t) = [r] ∧ ∀ x, Accepts r x → |x - value| ≤ t := by
  refine ⟨_, rfl, ?_⟩
  intro x h
  have hc : (displacementRow pos dof value instant t).criterion = .absolute := by
    have h' : ¬ smallest ≤ |value| := not_le.2 hv
    simp only [displacementRow, criterion_real]
    rw [if_neg h']
  simp only [Accepts, hc, Compares] at h
  exact h.2 (value, t) rfl

/-- **C114 is false for displacements below 1e-7.** Whatever such a displacement is expected, the relative tolerance is used as a length:
all results up to nearly that length pass (1e-7 less), however many times the expected one they are. -/
theorem C114_aster_small_false (b : Bounds) (pos : Nat) (node : Int) (dof : Fin 6) (value instant t x : ℚ) (hv : |value| < 1 / 10 ^ 7)
    (hx : |x| ≤ t - 1 / 10 ^ 7) : ∃ r, asterRows b (.displacement pos node dof value instant t) = [r] ∧ Accepts r x := by
  refine ⟨_, rfl, ?_⟩
  have hc : (displacementRow pos dof value instant t).criterion = .absolute := by
    have h' : ¬ smallest ≤ |value| := not_le.2 hv
    simp only [displacementRow, criterion_real]
    rw [if_neg h']
  have key : ∀ y : ℚ, |y| < 1 / 10 ^ 7 → |x - y| ≤ t := by
    intro y hy
    have := abs_sub x y
    linarith
  simp only [Accepts, hc, Compares]
  refine ⟨?_, ?_⟩
  · show |x - (displacementRow pos dof value instant t).expected.1| ≤ t
    apply key
    simp only [displacementRow]
    split_ifs
    · norm_num
    · exact hv
  · intro p hp
    simp only [displacementRow, Option.mem_some_iff] at hp
    subst hp
    exact key value hv

/-- With the tolerance by default, 0.02, for an expected displacement of 5e-8 a result of 0.01 is accepted. -/
example : |(1 / 20000000 : ℚ)| < 1 / 10 ^ 7 ∧ |(1 / 100 : ℚ)| ≤ 2 / 100 - 1 / 10 ^ 7 ∧ ¬ Within (2 / 100) (1 / 20000000) (1 / 100) := by
  unfold Within
  norm_num [abs_of_pos]

/-- **C114.** An expected complex displacement of modulus at least 1e-7 is tested at its frequency, and accepted exactly up to the tolerance;
below, up to 1e-5. -/
theorem C114_aster_complex_partial (b : Bounds) (pos : Nat) (node : Int) (dof : Fin 6) (re im f t : ℚ) :
    ∃ r, asterRows b (.complex pos node dof re im f t) = [r] ∧ r.quantity = .depl pos dof ∧ r.place = .frequency f ∧
      ((1 / 10 ^ 7) ^ 2 ≤ re ^ 2 + im ^ 2 → ∀ x y, AcceptsComplex r x y ↔ WithinComplex t re im x y) ∧
      (re ^ 2 + im ^ 2 < (1 / 10 ^ 7) ^ 2 → ∀ x y, AcceptsComplex r x y ↔ (x - re) ^ 2 + (y - im) ^ 2 ≤ (1 / 10 ^ 5) ^ 2) := by
  refine ⟨_, rfl, rfl, rfl, ?_, ?_⟩
  · intro h x y
    have hc : criterionOf re im = .relative := by unfold criterionOf; rw [if_pos (by exact h)]
    simp only [AcceptsComplex, complexRow, hc, if_true, WithinComplex]
  · intro h x y
    have hc : criterionOf re im = .absolute := by unfold criterionOf; rw [if_neg (by exact not_le.2 h)]
    simp [AcceptsComplex, complexRow, hc]

/-- **C114.** An expected Von Mises stress of at least 1e-7 is accepted exactly up to the tolerance; below, up to 1e-5. -/
theorem C114_aster_vonMises_partial (b : Bounds) (pos : Nat) (node : Int) (cellPos : Nat) (cell : Int) (value t : ℚ) :
    ∃ r, asterRows b (.vonMises pos node cellPos cell value t) = [r] ∧ r.quantity = .vmis pos cellPos ∧ r.place = .order1 ∧
      (1 / 10 ^ 7 ≤ |value| → ∀ x, Accepts r x ↔ Within t value x) ∧
      (|value| < 1 / 10 ^ 7 → ∀ x, Accepts r x ↔ |x - value| ≤ 1 / 10 ^ 5) := by
  refine ⟨_, rfl, rfl, rfl, ?_, ?_⟩
  · intro h x
    have hc : criterionOf value 0 = .relative := by rw [criterion_real, if_pos (by exact h)]
    simp [Accepts, Compares, vonMisesRow, hc, Within]
  · intro h x
    have hc : criterionOf value 0 = .absolute := by rw [criterion_real, if_neg (by exact not_le.2 h)]
    simp [Accepts, Compares, vonMisesRow, hc]

/-- **C114.** An expected frequency gives no test exactly if it lies outside the bounds of the analysis, which is not of buckling. -/
theorem C114_aster_excluded (b : Bounds) (number : Int) (cycles eigen mass stiffness t : ℚ) :
    asterRows b (.frequency number cycles eigen mass stiffness t) = [] ↔ b.buckling = false ∧ (cycles < b.low ∨ b.high < cycles) := by
  simp only [asterRows, frequencyRows]
  constructor
  · intro h
    by_contra hc
    rw [if_neg hc] at h
    split_ifs at h <;> simp at h
  · intro h
    rw [if_pos h]

/-- **C114.** An expected frequency within the bounds, not zero: the frequency and the generalized mass of the mode are accepted
exactly up to the tolerance, and so is the stiffness, which is tested unless the mass is 1. -/
theorem C114_aster_frequency (b : Bounds) (number : Int) (cycles eigen mass stiffness t : ℚ) (hb : b.buckling = false) (h1 : b.low ≤ cycles)
    (h2 : cycles ≤ b.high) (hz : isZero cycles = false) :
    ∃ rows, asterRows b (.frequency number cycles eigen mass stiffness t) = rows ∧
      rows.map (·.quantity) = (if isEqual mass 1 then [.freq, .massGene] else [.freq, .massGene, .rigiGene]) ∧
      ∀ r ∈ rows, r.modes = true ∧ r.place = .mode number ∧
        (r.quantity = .freq → ∀ x, Accepts r x ↔ Within t cycles x) ∧
        (r.quantity = .massGene → ∀ x, Accepts r x ↔ Within t mass x) ∧
        (r.quantity = .rigiGene → ∀ x, Accepts r x ↔ Within t stiffness x) := by
  refine ⟨_, rfl, ?_, ?_⟩
  · simp only [asterRows, frequencyRows]
    rw [if_neg (by rintro ⟨-, h | h⟩ <;> linarith)]
    simp only [hb, Bool.false_eq_true, if_false]
    split_ifs <;> rfl
  · intro r hr
    simp only [asterRows, frequencyRows] at hr
    rw [if_neg (by rintro ⟨-, h | h⟩ <;> linarith)] at hr
    simp only [hb, Bool.false_eq_true, if_false, hz] at hr
    have : r = modeRow .relative .freq number cycles t ∨ r = modeRow .relative .massGene number mass t ∨
        r = modeRow .relative .rigiGene number stiffness t := by
      split_ifs at hr <;> simp at hr <;> tauto
    rcases this with rfl | rfl | rfl <;>
      simp [modeRow, Accepts, Compares, Within]

example : isZero (25 / 2 : ℚ) = false ∧ (0 : ℚ) ≤ 25 / 2 := by
  constructor
  · simp only [isZero, decide_eq_false_iff_not, not_le]; norm_num [tol, abs_of_pos]
  · norm_num

/-- **C114.** Buckling: one test, of the critical load. -/
theorem C114_aster_buckling (b : Bounds) (number : Int) (cycles eigen mass stiffness t : ℚ) (hb : b.buckling = true) (hz : isZero cycles = false) :
    ∃ r, asterRows b (.frequency number cycles eigen mass stiffness t) = [r] ∧ r.quantity = .charCrit ∧ r.place = .mode number ∧
      ∀ x, Accepts r x ↔ Within t eigen x := by
  refine ⟨modeRow .relative .charCrit number eigen t, ?_, rfl, rfl, ?_⟩
  · simp [asterRows, frequencyRows, hb, hz]
  · intro x
    simp [modeRow, Accepts, Compares, Within]

/-- **C114 is false for the masses of rigid modes.** The criterion is chosen by the frequency: at a frequency of zero the tolerance on the
generalized mass is absolute, so that results well within the tolerance are refused. -/
theorem C114_rigid_mass_false (b : Bounds) (number : Int) (eigen mass stiffness t x : ℚ) (hb : b.buckling = false) (h1 : b.low ≤ 0) (h2 : 0 ≤ b.high)
    (hx : t < |x - mass|) :
    ∃ r ∈ asterRows b (.frequency number 0 eigen mass stiffness t), r.quantity = .massGene ∧ ¬ Accepts r x := by
  refine ⟨modeRow .absolute .massGene number mass t, ?_, rfl, ?_⟩
  · simp only [asterRows, frequencyRows]
    rw [if_neg (by rintro ⟨-, h | h⟩ <;> linarith)]
    simp [hb]
  · intro h
    have := h.1
    simp only [modeRow, Compares] at this
    linarith

/-- A mass of 1000 is expected, with a tolerance of 0.02 the result 1001 is refused. -/
example : (2 / 100 : ℚ) < |(1001 : ℚ) - 1000| ∧ Within (2 / 100) 1000 1001 := by
  unfold Within; norm_num

/-- **C114 is false for analyses all of whose expected frequencies are excluded.** A command `TEST_RESU` without any test is written. -/
theorem C114_aster_empty_false (b : Bounds) (as : List Assertion) (h : as ≠ [])
    (hall : ∀ a ∈ as, ∃ n c e m k t, a = .frequency n c e m k t ∧ b.buckling = false ∧ (c < b.low ∨ b.high < c)) : testResu b as = some [] := by
  unfold testResu
  rw [if_neg (by simpa using h)]
  congr 1
  rw [List.flatMap_eq_nil_iff]
  intro a ha
  obtain ⟨n, c, e, m, k, t, rfl, h1, h2⟩ := hall a ha
  exact (C114_aster_excluded b n c e m k t).2 ⟨h1, h2⟩

example : ∀ a ∈ [Assertion.frequency 1 5 0 1 0 (2 / 100)], ∃ n c e m k t, a = .frequency n c e m k t ∧ (⟨false, 10, 10 ^ 30⟩ : Bounds).buckling = false ∧
    (c < (⟨false, 10, 10 ^ 30⟩ : Bounds).low ∨ (⟨false, 10, 10 ^ 30⟩ : Bounds).high < c) := by
  intro a ha
  rw [List.mem_singleton] at ha
  subst ha
  exact ⟨_, _, _, _, _, _, rfl, rfl, .inl (by norm_num)⟩

/-! ## C114, Systus -/

/-- **C114.** An expected displacement of at least 1e-9 gives one test, of its node and component (numbered from 1), that prints `OK`
exactly when the result is the expected one up to the tolerance. Which result is read: see `C114_systus_subcases_false`. -/
theorem C114_systus_displacement_partial (strict : Bool) (k : Subcases.Kind) (pos : Nat) (node : Int) (dof : Fin 6) (value t : ℚ)
    (hv : 1 / 10 ^ 9 ≤ |value|) (ht : 0 ≤ t) :
    ∃ c, systusCheck strict k (.displacement pos node dof value (-1) t) = .ok [c] ∧ c.reads = .displacement 1 node (dof.val + 1) ∧
      ∀ x, c.ok x = true ↔ Within t value x := by
  refine ⟨⟨.displacement 1 node (dof.val + 1), (value, 0), true, t⟩, ?_, rfl, ?_⟩
  · have h1 : isEqual (-1) noInstant = true := isEqual_self _
    have h2 : systusSmallest ≤ |value| := hv
    simp [systusCheck, h1, h2]
  · intro x
    have h2 : systusSmallest ≤ |value| := hv
    exact ok_relative (c := ⟨.displacement 1 node (dof.val + 1), (value, 0), true, t⟩) rfl (ne_zero_of_large h2) ht x

/-- **C114.** Below 1e-9 the tolerance is absolute. -/
theorem C114_systus_small (strict : Bool) (k : Subcases.Kind) (pos : Nat) (node : Int) (dof : Fin 6) (value t : ℚ) (hv : |value| < 1 / 10 ^ 9)
    (ht : 0 ≤ t) :
    ∃ c, systusCheck strict k (.displacement pos node dof value (-1) t) = .ok [c] ∧ ∀ x, c.ok x = true ↔ |x - value| ≤ t := by
  refine ⟨⟨.displacement 1 node (dof.val + 1), (value, 0), false, t⟩, ?_, ?_⟩
  · have h1 : isEqual (-1) noInstant = true := isEqual_self _
    have h2 : ¬ systusSmallest ≤ |value| := not_le.2 hv
    simp [systusCheck, h1, h2]
  · intro x
    exact ok_absolute rfl ht x

/-- **C114.** An expected frequency of at least 1e-9 in an analysis that is not a modal response. -/
theorem C114_systus_frequency_partial (strict : Bool) (k : Subcases.Kind) (number : Int) (cycles eigen mass stiffness t : ℚ) (hk : k ≠ .dynaModal)
    (hv : 1 / 10 ^ 9 ≤ |cycles|) (ht : 0 ≤ t) :
    ∃ c, systusCheck strict k (.frequency number cycles eigen mass stiffness t) = .ok [c] ∧ c.reads = .frequency number ∧
      ∀ x, c.ok x = true ↔ Within t cycles x := by
  refine ⟨⟨.frequency number, (cycles, 0), true, t⟩, ?_, rfl, ?_⟩
  · have h2 : systusSmallest ≤ |cycles| := hv
    simp [systusCheck, hk, h2]
  · intro x
    have h2 : systusSmallest ≤ |cycles| := hv
    exact ok_relative (c := ⟨.frequency number, (cycles, 0), true, t⟩) rfl (ne_zero_of_large h2) ht x

/-- **C114 (partial).** A complex displacement that passes is the expected one up to the tolerance. (Not conversely, see below.) -/
theorem C114_systus_complex_partial (strict : Bool) (k : Subcases.Kind) (pos : Nat) (node : Int) (dof : Fin 6) (re im f t : ℚ)
    (hv : (1 / 10 ^ 9) ^ 2 ≤ re ^ 2 + im ^ 2) :
    ∃ c, systusCheck strict k (.complex pos node dof re im f t) = .ok [c] ∧ c.reads = .response f node (dof.val + 1) ∧
      ∀ x y, c.okComplex x y = true → WithinComplex t re im x y := by
  refine ⟨⟨.response f node (dof.val + 1), (re, im), true, t⟩, ?_, rfl, ?_⟩
  · have h2 : systusSmallest ^ 2 ≤ re ^ 2 + im ^ 2 := hv
    simp [systusCheck, h2]
  · intro x y h
    simp only [Check.okComplex, if_true, decide_eq_true_eq, not_lt, gt_iff_lt] at h
    unfold WithinComplex
    refine le_trans ?_ h
    have h3 := mul_nonneg (abs_nonneg (x - re)) (abs_nonneg (y - im))
    nlinarith [sq_abs (x - re), sq_abs (y - im)]

/-- **C114 is false for complex displacements.** The differences of both parts are added: results within the tolerance are refused when
both parts differ. -/
theorem C114_systus_complex_false : ∃ c, systusCheck true .dynaModal (.complex 0 1 0 1 0 10 (2 / 100)) = .ok [c] ∧
    WithinComplex (2 / 100) 1 0 (1014 / 1000) (14 / 1000) ∧ c.okComplex (1014 / 1000) (14 / 1000) = false := by
  refine ⟨⟨.response 10 1 1, (1, 0), true, 2 / 100⟩, ?_, ?_, ?_⟩
  · have h2 : systusSmallest ^ 2 ≤ (1 : ℚ) ^ 2 + 0 ^ 2 := by norm_num [systusSmallest]
    simp only [systusCheck, h2, decide_true]
    rfl
  · unfold WithinComplex; norm_num
  · simp only [Check.okComplex, decide_eq_false_iff_not, not_not]
    norm_num [abs_of_pos]

/-- **C114 is false for static analyses in one file.** Static analyses with the same constraints are written to the same file (first
statement, see C110), and the tests of all of them read the same displacement, that of the first case of load. If different values
are expected of two of them at the same node and component, then whatever Systus computes one of the two tests fails. -/
theorem C114_systus_subcases_false (strict : Bool) (a b : Subcases.Analysis) (ha : a.kind = .mecaStat) (hab : a.characteristic = b.characteristic)
    (pos : Nat) (node : Int) (dof : Fin 6) (v w t : ℚ) (ht : 0 ≤ t) (hv : 1 / 10 ^ 9 ≤ |v|) (hw : 1 / 10 ^ 9 ≤ |w|)
    (hd : t * |v| + t * |w| < |v - w|) :
    Subcases.groupAuto [a, b] = [[a, b]] ∧
    ∃ c d, systusFile strict [(a.kind, [.displacement pos node dof v (-1) t]), (b.kind, [.displacement pos node dof w (-1) t])] = .ok [c, d] ∧
      ∀ result : Reading → ℚ, ¬ (c.ok (result c.reads) = true ∧ d.ok (result d.reads) = true) := by
  have hb : b.kind = .mecaStat := by
    unfold Subcases.Analysis.characteristic at hab
    simp only [List.cons.injEq] at hab
    rw [ha] at hab
    revert hab
    cases b.kind <;> simp [Subcases.Kind.code]
  constructor
  · simp [Subcases.groupAuto, Subcases.place, hb, hab]
  · obtain ⟨c, hc1, hc2, hc3⟩ := C114_systus_displacement_partial strict .mecaStat pos node dof v t hv ht
    obtain ⟨d, hd1, hd2, hd3⟩ := C114_systus_displacement_partial strict .mecaStat pos node dof w t hw ht
    refine ⟨c, d, ?_, ?_⟩
    · rw [ha, hb]
      simp [systusFile, systusAll, systusChecks, hc1, hd1]
    · rintro result ⟨h1, h2⟩
      rw [hc3] at h1
      rw [hd3] at h2
      rw [hc2] at h1
      rw [hd2] at h2
      unfold Within at h1 h2
      have h3 := abs_sub_le v (result (.displacement 1 node (dof.val + 1))) w
      rw [abs_sub_comm v (result _)] at h3
      linarith

example : (⟨1, some 1, .mecaStat, [1, 2]⟩ : Subcases.Analysis).characteristic = (⟨2, some 2, .mecaStat, [1, 2]⟩ : Subcases.Analysis).characteristic ∧
    (2 / 100 : ℚ) * |(1 : ℚ)| + 2 / 100 * |(2 : ℚ)| < |(1 : ℚ) - 2| := by
  refine ⟨rfl, ?_⟩
  norm_num [abs_of_pos, abs_of_neg]

/-- **C114 is false for combinations.** No test of a file whose first analysis is a combination is written, without any message on the
tests. -/
theorem C114_combination_false (strict : Bool) (as : List Assertion) (r : List (Subcases.Kind × List Assertion)) :
    systusFile strict ((.combination, as) :: r) = .ok [] := rfl

/-- **C114.** An instant ends a strict translation. -/
theorem C114_systus_instant (k : Subcases.Kind) (pos : Nat) (node : Int) (dof : Fin 6) (value instant t : ℚ) (hi : isEqual instant (-1) = false) :
    systusCheck true k (.displacement pos node dof value instant t) = .throw := by
  have : isEqual instant noInstant = false := hi
  simp [systusCheck, this]

example : isEqual (1 / 2) (-1) = false := by
  simp only [isEqual, decide_eq_false_iff_not, not_le]
  norm_num [tol, abs_of_pos]

/-- **C114.** There is an order `TEST_RESU` for an analysis if and only if it has something to check. -/
theorem C114_aster_none (b : Bounds) (as : List Assertion) : testResu b as = none ↔ as = [] := by
  unfold testResu
  cases as <;> simp

end Tests
end Vega
