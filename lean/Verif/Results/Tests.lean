import Verif.Num
import Verif.Systus.Subcases

/-! # The tests that the writers make of the expected results: Code_Aster (`Aster/AsterWriter.cpp` 568-599, 3064-3177) and Systus
(`Systus/SystusWriter.cpp` 3075-3353) -/
namespace Vega
namespace Tests

/-- An expected result (Objective.h 116-186, Objective.cpp 138-201): `pos` is the position of a node, `node` its number. Degrees of
freedom are numbered from 0 (`DOF::position`). -/
inductive Assertion where
  | displacement (pos : Nat) (node : Int) (dof : Fin 6) (value instant tol : Dbl)
  | complex (pos : Nat) (node : Int) (dof : Fin 6) (re im frequency tol : Dbl)
  | frequency (number : Int) (cycles eigen mass stiffness tol : Dbl)
  | vonMises (pos : Nat) (node : Int) (cellPos : Nat) (cell : Int) (value tol : Dbl)
deriving DecidableEq

/-- An instant is not given (Objective.h 143). -/
def noInstant : Dbl := -1

/-! ## Code_Aster -/

/-- `CRITERE`. -/
inductive Criterion where
  | relative | absolute
deriving DecidableEq

/-- What a test looks at: a component of the displacement of the node at a position, the Von Mises stress of a cell at a node, or a
parameter of a mode. -/
inductive Quantity where
  | depl (pos : Nat) (dof : Fin 6)
  | vmis (pos cellPos : Nat)
  | freq | charCrit | massGene | rigiGene
deriving DecidableEq

/-- Where: `NUME_ORDRE = 1`, `INST`, `FREQ` or `NUME_MODE`. -/
inductive Place where
  | order1
  | instant (t : Dbl)
  | frequency (f : Dbl)
  | mode (n : Int)
deriving DecidableEq

/-- A test `_F(...)` of `TEST_RESU`. `modes` is true when the result is that of the modes (`resuName` of 3126-3132). `expected` is
`VALE_CALC` or `VALE_CALC_C`, `tole` the first number of `TOLE_MACHINE`; `reference` are `VALE_REFE` and `PRECISION`. -/
structure Row where
  modes : Bool
  criterion : Criterion
  quantity : Quantity
  place : Place
  expected : Dbl × Dbl
  tole : Dbl
  reference : Option (Dbl × Dbl)
deriving DecidableEq

/-- `SMALLEST_RELATIVE_COMPARISON` (AsterWriter.h 37). -/
def smallest : Dbl := 1 / 10 ^ 7

/-- `abs(value) >= SMALLEST_RELATIVE_COMPARISON` for a real and, by squares, for a complex number. -/
def criterionOf (re im : Dbl) : Criterion :=
  if smallest ^ 2 ≤ re ^ 2 + im ^ 2 then .relative else .absolute

/-- What the writer looks at in an analysis for its frequencies (AsterWriter.cpp 3115-3126): whether it is of buckling, and the bounds
`LFREQ`, `HFREQ`, by default 0 and 1e30. -/
structure Bounds where
  buckling : Bool
  low : Dbl
  high : Dbl

/-- `writeNodalDisplacementAssertion` (AsterWriter.cpp 3064-3082). -/
def displacementRow (pos : Nat) (dof : Fin 6) (value instant tol : Dbl) : Row :=
  { modes := false, criterion := criterionOf value 0, quantity := .depl pos dof
    place := if isEqual instant noInstant then .order1 else .instant instant
    expected := (if isZero value then 1 / 10 ^ 10 else value, 0), tole := tol, reference := some (value, tol) }

/-- `writeNodalComplexDisplacementAssertion` (AsterWriter.cpp 3084-3098). -/
def complexRow (pos : Nat) (dof : Fin 6) (re im frequency tol : Dbl) : Row :=
  { modes := false, criterion := criterionOf re im, quantity := .depl pos dof, place := .frequency frequency
    expected := (re, im), tole := if criterionOf re im = .relative then tol else 1 / 10 ^ 5, reference := none }

/-- `writeNodalCellVonMisesAssertion` (AsterWriter.cpp 3100-3112). -/
def vonMisesRow (pos cellPos : Nat) (value tol : Dbl) : Row :=
  { modes := false, criterion := criterionOf value 0, quantity := .vmis pos cellPos, place := .order1
    expected := (value, 0), tole := if criterionOf value 0 = .relative then tol else 1 / 10 ^ 5, reference := none }

/-- A test on a parameter of a mode. -/
def modeRow (criterion : Criterion) (quantity : Quantity) (number : Int) (value tol : Dbl) : Row :=
  { modes := true, criterion, quantity, place := .mode number, expected := (value, 0), tole := tol, reference := none }

/-- `writeFrequencyAssertion` (AsterWriter.cpp 3114-3175). -/
def frequencyRows (b : Bounds) (number : Int) (cycles eigen mass stiffness tol : Dbl) : List Row :=
  if b.buckling = false ∧ (cycles < b.low ∨ b.high < cycles) then []
  else
    let criterion := if isZero cycles then Criterion.absolute else .relative
    if b.buckling then [modeRow criterion .charCrit number eigen tol]
    else [modeRow criterion .freq number cycles tol, modeRow criterion .massGene number mass tol] ++
      if isEqual mass 1 then [] else [modeRow criterion .rigiGene number stiffness tol]

/-- The tests of an assertion (AsterWriter.cpp 572-593). -/
def asterRows (b : Bounds) : Assertion → List Row
  | .displacement pos _ dof value instant tol => [displacementRow pos dof value instant tol]
  | .complex pos _ dof re im frequency tol => [complexRow pos dof re im frequency tol]
  | .frequency number cycles eigen mass stiffness tol => frequencyRows b number cycles eigen mass stiffness tol
  | .vonMises pos _ cellPos _ value tol => [vonMisesRow pos cellPos value tol]

/-- `TEST_RESU` of an analysis (AsterWriter.cpp 568-599): nothing is written when there are no assertions. -/
def testResu (b : Bounds) (as : List Assertion) : Option (List Row) :=
  if as.isEmpty then none else some (as.flatMap (asterRows b))

/-! ## Systus -/

/-- What a test of Systus reads: `node_displacement(1, node)[dof]`, `frequency_number(n)`, or the component of the response at the map
whose pulsation is next to 2π times the frequency. -/
inductive Reading where
  | displacement (map : Nat) (node : Int) (dof : Nat)
  | response (frequency : Dbl) (node : Int) (dof : Nat)
  | frequency (number : Int)
deriving DecidableEq

/-- A test: the number read, the reference, by what the difference is divided and the tolerance. -/
structure Check where
  reads : Reading
  value : Dbl × Dbl
  relative : Bool
  tol : Dbl
deriving DecidableEq

/-- The bound below which differences are not divided (SystusWriter.cpp 3286, 3318, 3339). -/
def systusSmallest : Dbl := 1 / 10 ^ 9

/-- `diff > abs(tolerance)` is false, for a real (SystusWriter.cpp 3285-3293, 3338-3345): `OK` is printed. -/
def Check.ok (c : Check) (x : Dbl) : Bool :=
  decide (¬ |(x - c.value.1) / (if c.relative then c.value.1 else 1)| > |c.tol|)

/-- The same for a complex number (SystusWriter.cpp 3317-3325): the sum of the differences of both parts is divided by the modulus;
here both sides of the comparison, which are not negative, are squared. -/
def Check.okComplex (c : Check) (re im : Dbl) : Bool :=
  decide (¬ (|re - c.value.1| + |im - c.value.2|) ^ 2 > c.tol ^ 2 * (if c.relative then c.value.1 ^ 2 + c.value.2 ^ 2 else 1))

/-- What is written for an assertion (SystusWriter.cpp 3223-3252). An instant is an error (3278), that ends a strict translation.
Frequencies of a modal response and Von Mises stresses are left out with a warning. -/
def systusCheck (strict : Bool) (kind : Subcases.Kind) : Assertion → Outcome (List Check)
  | .displacement _ node dof value instant tol =>
    if ¬ isEqual instant noInstant ∧ strict then .throw
    else .ok [⟨.displacement 1 node (dof.val + 1), (value, 0), decide (systusSmallest ≤ |value|), tol⟩]
  | .complex _ node dof re im frequency tol =>
    .ok [⟨.response frequency node (dof.val + 1), (re, im), decide (systusSmallest ^ 2 ≤ re ^ 2 + im ^ 2), tol⟩]
  | .frequency number cycles _ _ _ tol =>
    if kind = .dynaModal then .ok []
    else .ok [⟨.frequency number, (cycles, 0), decide (systusSmallest ≤ |cycles|), tol⟩]
  | .vonMises _ _ _ _ _ _ => .ok []

/-- All assertions of an analysis. -/
def systusChecks (strict : Bool) (kind : Subcases.Kind) : List Assertion → Outcome (List Check)
  | [] => .ok []
  | a :: as => do
    let c ← systusCheck strict kind a
    let cs ← systusChecks strict kind as
    .ok (c ++ cs)

/-- All analyses of a file. -/
def systusAll (strict : Bool) : List (Subcases.Kind × List Assertion) → Outcome (List Check)
  | [] => .ok []
  | (k, as) :: r => do
    let c ← systusChecks strict k as
    let cs ← systusAll strict r
    .ok (c ++ cs)

/-- The tests of a file of Systus (`writeDat`, SystusWriter.cpp 3076-3271): for a first analysis that is a combination the writing
ends before the tests (3169-3175); for the kinds that are not implemented there is an error (3176-3178). -/
def systusFile (strict : Bool) : List (Subcases.Kind × List Assertion) → Outcome (List Check)
  | [] => .ok []
  | (k, as) :: r =>
    match k with
    | .combination => .ok []
    | .mecaStat | .modal | .dynaModal => systusAll strict ((k, as) :: r)
    | _ => if strict then .throw else systusAll strict ((k, as) :: r)

end Tests
end Vega
