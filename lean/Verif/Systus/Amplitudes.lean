import Verif.Basic
import Verif.Map
import Verif.Num

/-! # Amplitudes of dynamic loads in a modal response for Systus: the tables (`Systus/SystusWriter.cpp` 1891-1945) and their use
(`Systus/SystusDat.cpp` 230-287, `Systus/SystusWriter.cpp` 3145-3170) -/
namespace Vega
namespace Amplitudes

/-- `systusDynamicMethod` (VegaCommandLine.cpp 319-327). -/
inductive Method where
  | auto | direct | modal
  deriving DecidableEq

/-- The method without an option (VegaCommandLine.cpp 319, 517). -/
def defaultMethod : Method := .auto

/-- A loading: a dynamic excitation, with whether its set of loads has the type `EXCITEID` and with its table of amplitudes (`none` for
a null pointer, Loading.cpp 818-820), or another one (SystusWriter.cpp 1910-1913, 1937-1939: without effect here but a warning). -/
inductive Load where
  | excitation (exciteid : Bool) (table : Option (List (Dbl × Dbl)))
  | other
  deriving DecidableEq

/-- A set of loads. -/
abbrev LoadSet := List Load

/-- The analyses of the subcase, `none` for a number that is not that of an analysis: the rest is left out (SystusWriter.cpp 1898-1901,
1025-1028). -/
abbrev Analyses := List (Option (List LoadSet))

/-- The sets of an analysis with their load cases (SystusWriter.cpp 1032-1041). -/
def casesOf : Nat → List LoadSet → List (Nat × LoadSet)
  | _, [] => []
  | n, l :: ls => (n, l) :: casesOf (n + 1) ls

/-- The sets of the subcase with their load cases (`fillLoads`, SystusWriter.cpp 1015-1050); an analysis without sets has a load case
(1044-1048). The analyses, and the sets of an analysis, are taken to be different from each other. -/
def cases : Nat → Analyses → List (Nat × LoadSet)
  | _, [] => []
  | _, none :: _ => []
  | n, some [] :: as => cases (n + 1) as
  | n, some (l :: ls) :: as => casesOf n (l :: ls) ++ cases (n + (l :: ls).length) as

/-- `tables`, with the number and the values of each, and `tableByLoadcase`. -/
structure State where
  tables : List (Nat × List Dbl)
  byCase : Map Nat Nat

/-- The values of a table (SystusWriter.cpp 1928-1931). -/
def values (pts : List (Dbl × Dbl)) : List Dbl := pts.flatMap fun p => [p.1, p.2]

/-- One loading (SystusWriter.cpp 1907-1940). -/
def fillLoad (k : Nat) (s : State) : Load → Outcome State
  | .other => .ok s
  | .excitation false _ => .ok s
  | .excitation true none => .ub
  | .excitation true (some pts) =>
    .ok ⟨s.tables ++ [(s.tables.length + 1, values pts)], s.byCase.set k (s.tables.length + 1)⟩

/-- The loadings of a set (SystusWriter.cpp 1905-1941). -/
def fillSet (k : Nat) : State → LoadSet → Outcome State
  | s, [] => .ok s
  | s, l :: ls => do
    let s ← fillLoad k s l
    fillSet k s ls

/-- The sets (SystusWriter.cpp 1895-1943). -/
def fillSets : State → List (Nat × LoadSet) → Outcome State
  | s, [] => .ok s
  | s, x :: xs => do
    let s ← fillSet x.1 s x.2
    fillSets s xs

/-- The end of `fillTables` (SystusWriter.cpp 1891-1945). `tableByLoadcase` is empty before (2442). -/
def fillTables (m : Method) (tables : List (Nat × List Dbl)) (as : Analyses) : Outcome State :=
  if m = .modal then fillSets ⟨tables, []⟩ (cases 1 as) else .ok ⟨tables, []⟩

/-- What is written for a modal response (SystusWriter.cpp 3145-3170): the direct method, or the modal one with the number of the table
after `FUNCTION`, if that line is written. -/
inductive Written where
  | direct
  | modal (function : Option Nat)
  deriving DecidableEq

/-- The line `FUNCTION` (SystusDat.cpp 265-268); `operator[]` gives 0 when there is no table for the load case 1. -/
def functionLine (byCase : Map Nat Nat) : Option Nat :=
  if byCase = [] then none
  else match byCase.find 1 with
    | some t => some t
    | none => some 0

/-- The response (SystusWriter.cpp 3149-3165): always under the load case 1 (SystusDat.cpp 245-249, 264). -/
def writeResponse (m : Method) (s : State) : Written :=
  match m with
  | .direct => .direct
  | .auto | .modal => .modal (functionLine s.byCase)

end Amplitudes
end Vega
