import Verif.NastranWrite.Rigid

/-! # The rigid bodies of the NASA version of Nastran: `parseCRIGD1` (`Nastran/NastranParser.cpp` 1320-1335) -/
namespace Vega
namespace NastranWrite
open Nastran

/-- A blank field is passed over (NastranParser.cpp 1322-1323). -/
def skipBlank (c : Cursor) : Outcome Cursor := do
  let b ← isNextEmpty 1 c
  if b then skip 1 c else .ok c

/-- `parseCRIGD1` (NastranParser.cpp 1320-1335). A field after the number that is not blank gives a warning (1324-1326). All six degrees
of freedom are connected (`RigidConstraint`, Constraint.cpp 346-349). -/
def parseCRIGD1 (c : Cursor) : Outcome (LinkRead × Cursor) := do
  let (id, c) ← nextInt none c
  let c ← skipBlank c
  let (master, c) ← nextInt none c
  let (slaves, c) ← slavesLoop (c.fields.length + 1) c
  .ok (⟨id, some master, Dofs.ALL_DOFS, slaves⟩, c)

end NastranWrite
end Vega
