import Verif.Constraint.Spc
import Verif.NastranWrite.Rigid

/-! # Single point constraints: writing (`Nastran/NastranWriter.cpp` 414-427) and reading
(`Nastran/NastranParser.cpp` 3488-3531) of the cards SPC and SPC1 -/
namespace Vega
namespace NastranWrite
open Nastran

/-- The cards of a single point constraint of a set, one for each node (NastranWriter.cpp 418-425). -/
def spcCards (nodeIds : List Int) (set : Ids) (s : Spc) : List Nat → Outcome (List (List Arg))
  | [] => .ok []
  | p :: ps => do
    let n ← idAt nodeIds p
    let rest ← spcCards nodeIds set s ps
    .ok ([.int set.bestId, .int (s.getDOFSForNode p).nastranCode, .int n] :: rest)

/-- What a card adds to the model: the constructor with degrees of freedom and a value (Constraint.cpp 414-420), the
nodes and the number of the set. -/
structure SpcRead where
  set : Int
  dofs : Dofs
  value : Dbl
  nodes : List Int
  deriving DecidableEq

/-- `Globals::UNAVAILABLE_INT` (Utility.h 49). -/
def unavailableInt : Int := intMin

/-- The loop of `parseSPC` (NastranParser.cpp 3493-3509), at most `fuel` turns. -/
def spcLoop (set : Int) : Nat → Cursor → Outcome (List SpcRead × Cursor)
  | 0, _ => .diverges
  | fuel + 1, c =>
    if c.sym = .field then do
      let (node, c) ← nextInt (some unavailableInt) c
      if node = unavailableInt then spcLoop set fuel c
      else do
        let (gi, c) ← nextInt (some 123456) c
        let (x, c) ← nextDouble (some 0) c
        let dofs ← Dofs.nastranCodeToDOFS gi
        let (rest, c) ← spcLoop set fuel c
        .ok (⟨set, dofs, x, [node]⟩ :: rest, c)
    else .ok ([], c)

/-- `parseSPC` (NastranParser.cpp 3488-3510); each turn reads a field. The group of nodes is not described. -/
def parseSPC (c : Cursor) : Outcome (List SpcRead × Cursor) := do
  let (set, c) ← nextInt none c
  spcLoop set (c.fields.length + 1) c

/-- `parseSPC1` (NastranParser.cpp 3512-3531). -/
def parseSPC1 (c : Cursor) : Outcome (SpcRead × Cursor) := do
  let (set, c) ← nextInt none c
  let (dofInt, c) ← nextInt none c
  let dofs ← Dofs.nastranCodeToDOFS dofInt
  let (nodes, c) ← nextInts c
  .ok (⟨set, dofs, 0, nodes⟩, c)

end NastranWrite
end Vega
