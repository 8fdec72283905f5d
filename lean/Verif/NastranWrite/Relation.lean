import Verif.Dof.Model
import Verif.Nastran.Fields
import Verif.Nastran.Reals
import Verif.NastranWrite.Line

/-! # Linear relations between displacements: `Abstract/Constraint.cpp` 537-595, writing (`Nastran/NastranWriter.cpp`
491-517, 994-997) and reading (`Nastran/NastranParser.cpp` 2046-2068) of the card MPC -/
namespace Vega
namespace NastranWrite
open Nastran

/-- `dofCoefsByNodePosition` of a `LinearMultiplePointConstraint`, with the number of the node for its position. -/
abbrev Relation := List (Int × (Dof → Dbl))

/-- `addParticipation` (Constraint.cpp 542-550). -/
def addParticipation (n : Int) (c : Dof → Dbl) : Relation → Relation
  | [] => [(n, c)]
  | p :: ps => if p.1 = n then (n, fun d => p.2 d + c d) :: ps else p :: addParticipation n c ps

/-- The degrees of freedom in the order of the loop `i < 6` (NastranWriter.cpp 501); `i` is the position. -/
def allDofs : List Dof := [.DX, .DY, .DZ, .RX, .RY, .RZ]

/-- A term of a relation. -/
structure Term where
  node : Int
  dof : Dof
  coef : Dbl
  deriving DecidableEq

/-- The terms that the two loops write (NastranWriter.cpp 499-502). -/
def terms (r : Relation) : List Term :=
  r.flatMap fun p => (allDofs.filter fun d => !isZero (p.2 d)).map fun d => ⟨p.1, d, p.2 d⟩

/-- The three fields of a term (NastranWriter.cpp 508-510). -/
def termArgs (t : Term) : List Arg := [.int t.node, .int (t.dof.position + 1), .real t.coef]

/-- The fields of the terms (NastranWriter.cpp 499-514) from the value of `fieldNum`. The blank fields are not
counted. -/
def mpcFields : Nat → List Term → List Arg
  | _, [] => []
  | fieldNum, t :: ts =>
    (if fieldNum % 8 = 0 then [.blank, .blank] else []) ++ termArgs t ++ mpcFields (fieldNum + 3) ts

/-- `id` and `original_id` of an object (Object.h 60-97); `none`: `NO_ORIGINAL_ID`. -/
structure Ids where
  id : Int
  original : Option Int
  deriving DecidableEq

/-- `bestId` (Object.h 87-93). -/
def Ids.bestId (s : Ids) : Int :=
  match s.original with
  | some n => n
  | none => s.id

/-- The arguments of the card MPC (NastranWriter.cpp 496-515). The right-hand side `coef_impo` of the relation does not
occur. -/
def mpcArgs (set : Ids) (r : Relation) : List Arg := .int set.id :: mpcFields 2 (terms r)

/-- The number that a subcase writes after `MPC=` for a set of relations (NastranWriter.cpp 994-997). -/
def subcaseNumber (set : Ids) : Int := set.bestId

/-- Passage to the next line (NastranParser.cpp 2056-2059). -/
def mpcSkip (i : Nat) (c : Cursor) : Outcome (Nat × Cursor) :=
  if i % 8 = 0 ∧ isEmptyUntilNextKeyword c = false then do
    let c ← skip 2 c
    .ok (i + 2, c)
  else .ok (i, c)

/-- The loop of `parseMPC` (NastranParser.cpp 2050-2063), at most `fuel` turns. -/
def mpcLoop : Nat → Nat → Relation → Cursor → Outcome (Relation × Cursor)
  | 0, _, _, _ => .diverges
  | fuel + 1, i, r, c => do
    let b ← isNextInt c
    if b then do
      let (g1, c) ← nextInt none c
      let (c1, c) ← nextInt none c
      let (a1, c) ← nextDouble none c
      let dofs ← Dofs.nastranCodeToDOFS c1
      let (i, c) ← mpcSkip (i + 3) c
      mpcLoop fuel i (addParticipation g1 (fun d => if dofs.contains d then a1 else 0) r) c
    else .ok (r, c)

/-- `parseMPC` (NastranParser.cpp 2046-2068): the number of the set and the relation; each turn reads three fields. -/
def parseMPC (c : Cursor) : Outcome ((Int × Relation) × Cursor) := do
  let (set, c) ← nextInt none c
  let (r, c) ← mpcLoop (c.fields.length + 1) 2 [] c
  .ok ((set, r), c)

/-- A card MPC of the bulk section in strict mode (NastranParser.cpp 536-563): fields left over are refused. Otherwise
the relation has already been added to the model (2065), and the rest is left out. -/
def readMPC (fields : List Nastran.Line) : Outcome (Int × Relation) := do
  let (_, c) ← nextString (some []) (Cursor.start fields)
  let (r, c) ← parseMPC c
  if isEmptyUntilNextKeyword c then .ok r else .throw

end NastranWrite
end Vega
